import Verif.Spec.AioPair
import Verif.Spec.Farm

/-!
# A connection between a client and the task of a server, both with asyncio streams
-/

namespace Salt.Spec

open Salt

variable {α β : Type}

/-- What the event loop of the first side does. -/
inductive AioStepA (L : Lib) (ca : Clock) : AioNet Unit Unit Unit Unit α β → AioNet Unit Unit Unit Unit α β → Prop
  | run {a b ab ba} : a.CanRun () → AioStepA L ca ⟨a, b, ab, ba⟩ ⟨(a.run L ca ()).1, b, ab ++ (a.run L ca ()).2, ba⟩
  | feed {a b ab ba} (chunk : Bytes) : chunk ≠ [] → a.rt.closed = false →
      AioStepA L ca ⟨a, b, ab, chunk ++ ba⟩ ⟨a.feed chunk, b, ab, ba⟩
  | eof {a b ab ba} : a.rt.eof = false → (a.rt.closed = true ∨ b.rt.closed = true ∧ ba = []) →
      AioStepA L ca ⟨a, b, ab, ba⟩ ⟨a.feedEof, b, ab, ba⟩

/-- The two sides exchanged. -/
def AioNet.swap (x : AioNet Unit Unit Unit Unit α β) : AioNet Unit Unit Unit Unit β α := ⟨x.b, x.a, x.ba, x.ab⟩

/-- A connection between a client (`a`) and a task of a server (`b`), with the clocks of the two. -/
def aioLink (L : Lib) (ca cb : Clock) : Link (AioNet Unit Unit Unit Unit α β) where
  stepC := AioStepA L ca
  stepS := fun x y => AioStepA L cb x.swap y.swap
  doneC := fun x => ∃ r, x.a.tasks () = .ret r
  doneS := fun x => ∃ r, x.b.tasks () = .ret r

/-- `run_sessions` of a server with coroutines with one client for each element of `ds`, the connection of which is
`conn d` at first: whatever the schedule of all event loops and the pieces in which bytes arrive, `run_sessions`
returns, and when nothing more can happen every client has returned with a result `ra` and every task of the server
that has returned has a result `rb`. -/
def AioServed {D : Type} (L : Lib) (ca cb : Clock) (ds : List D) (conn : D → AioNet Unit Unit Unit Unit α β)
    (ra : D → α → Prop) (rb : D → β → Prop) : Prop :=
  Pool.Terminates (aioLink L ca cb) (Pool.start (ds.map conn)) ∧
  (∃ P, Pool.Reach (aioLink L ca cb) (Pool.start (ds.map conn)) P ∧ Pool.Stuck (aioLink L ca cb) P) ∧
  ∀ P, Pool.Reach (aioLink L ca cb) (Pool.start (ds.map conn)) P → Pool.Stuck (aioLink L ca cb) P →
    P.running = false ∧ P.conns.length = ds.length ∧
    ∀ (i : Nat) (d : D), ds[i]? = some d → ∃ y, P.conns[i]? = some (true, y) ∧ (∃ r, y.a.tasks () = .ret r ∧ ra d r) ∧
      ∀ r, y.b.tasks () = .ret r → rb d r

end Salt.Spec
