import Verif.Spec.AioFarm
import Verif.Spec.SharedTime

/-!
# Coroutines in a process where all sessions have the same time objects

As `aioLink`, but the time objects are those of the process: at each call they may be in any state.
-/

namespace Salt.Spec

open Salt

variable {σ α β : Type}

/-- Answers that the time objects `T` could give, at each call in some state. -/
structure AnswersOf (T : TimeObj σ) (c : Clock) : Prop where
  first : ∀ i, ∃ s, (T.first s).1 = c.first i
  now : ∀ i, ∃ s, (T.now s).1 = c.now i
  report : ∀ i t, ∃ s, (T.report t s).1 = c.report i t
  check : ∀ i t, ∃ s, (T.check t s).1 = c.check i t

/-- A connection between a client and a task of a server in a process with the time objects `T`: each time a coroutine runs, up to where it
is suspended, the answers it gets are any that `T` could give. -/
def aioTime (L : Lib) (T : TimeObj σ) : Link (AioNet Unit Unit Unit Unit α β) where
  stepC x y := ∃ c, AnswersOf T c ∧ AioStepA L c x y
  stepS x y := ∃ c, AnswersOf T c ∧ AioStepA L c x.swap y.swap
  doneC := fun x => ∃ r, x.a.tasks () = .ret r
  doneS := fun x => ∃ r, x.b.tasks () = .ret r

/-- As `AioServed`, in a process with the time objects `T`. -/
def AioTimeServed {D : Type} (L : Lib) (T : TimeObj σ) (ds : List D) (conn : D → AioNet Unit Unit Unit Unit α β)
    (ra : D → α → Prop) (rb : D → β → Prop) : Prop :=
  Pool.Terminates (aioTime L T) (Pool.start (ds.map conn)) ∧
  (∃ P, Pool.Reach (aioTime L T) (Pool.start (ds.map conn)) P ∧ Pool.Stuck (aioTime L T) P) ∧
  ∀ P, Pool.Reach (aioTime L T) (Pool.start (ds.map conn)) P → Pool.Stuck (aioTime L T) P →
    P.running = false ∧ P.conns.length = ds.length ∧
    ∀ (i : Nat) (d : D), ds[i]? = some d → ∃ y, P.conns[i]? = some (true, y) ∧ (∃ r, y.a.tasks () = .ret r ∧ ra d r) ∧
      ∀ r, y.b.tasks () = .ret r → rb d r

end Salt.Spec
