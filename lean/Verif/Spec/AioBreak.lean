import Verif.Spec.AioFarm
import Verif.Spec.Drivers

/-!
# Connections between event loops that may break
-/

namespace Salt.Spec

open Salt

variable {α β : Type}

/-- A connection between two coroutines, and whether it still works. -/
structure BreakAio (α β : Type) where
  net : AioNet Unit Unit Unit Unit α β
  alive : Bool

/-- The same seen from the other side. -/
def BreakAio.swap (x : BreakAio α β) : BreakAio β α := ⟨x.net.swap, x.alive⟩

/-- What a coroutine can do after its connection has broken, operation by operation.  `connection_lost` of asyncio
(asyncio/streams.py) makes the reader report end of file, or raise an exception from then on (`set_exception`); it
wakes up who waits.  What is written is dropped; `drain` may raise.  `E` are the exceptions that a broken connection
raises. -/
inductive LostStep (E : Err → Prop) (L : Lib) (c : Clock) (x : AioSide Unit Unit α) : AioSide Unit Unit α → Prop
  | get (k) : x.tasks () = .op (S := aio Unit) (.sh .get) k → LostStep E L c x ⟨fun _ => k (.ok x.rt.st), x.rt⟩
  | put (s) (k) : x.tasks () = .op (S := aio Unit) (.sh (.put s)) k →
      LostStep E L c x ⟨fun _ => k (.ok ()), { x.rt with st := s }⟩
  | env (e) (k) : x.tasks () = .op (S := aio Unit) (.sh (.env e)) k →
      LostStep E L c x ⟨fun _ => k (answer L c e x.rt.calls).1, { x.rt with calls := (answer L c e x.rt.calls).2 }⟩
  | value (n) (k) : x.tasks () = .op (S := aio Unit) (.stream (.readexactly n)) k → n < 0 →
      LostStep E L c x ⟨fun _ => k (.error .valueError), x.rt⟩
  | read (n) (k) : x.tasks () = .op (S := aio Unit) (.stream (.readexactly n)) k → 0 ≤ n → n.toNat ≤ x.rt.buffer.length →
      LostStep E L c x ⟨fun _ => k (.ok (x.rt.buffer.take n.toNat)), { x.rt with buffer := x.rt.buffer.drop n.toNat }⟩
  | short (n) (k) : x.tasks () = .op (S := aio Unit) (.stream (.readexactly n)) k → x.rt.buffer.length < n.toNat →
      LostStep E L c x ⟨fun _ => k (.error .incompleteReadError), { x.rt with buffer := [] }⟩
  | reset (n) (k) (e) : x.tasks () = .op (S := aio Unit) (.stream (.readexactly n)) k → 0 ≤ n → E e →
      LostStep E L c x ⟨fun _ => k (.error e), x.rt⟩
  | write (b) (k) : x.tasks () = .op (S := aio Unit) (.stream (.write b)) k → LostStep E L c x ⟨fun _ => k (.ok ()), x.rt⟩
  | drain (k) : x.tasks () = .op (S := aio Unit) (.stream .drain) k → LostStep E L c x ⟨fun _ => k (.ok ()), x.rt⟩
  | raise (k) (e) : x.tasks () = .op (S := aio Unit) (.stream .drain) k → E e → LostStep E L c x ⟨fun _ => k (.error e), x.rt⟩
  | atEof (k) (v : Bool) : x.tasks () = .op (S := aio Unit) .atEof k → (v = true → x.rt.buffer = []) →
      LostStep E L c x ⟨fun _ => k (.ok v), x.rt⟩
  | close (k) : x.tasks () = .op (S := aio Unit) .close k →
      LostStep E L c x ⟨fun _ => k (.ok ()), { x.rt with closed := true }⟩

/-- Bytes are put into the buffer of a reader. -/
def AioSide.fill (x : AioSide Unit Unit α) (d : Bytes) : AioSide Unit Unit α :=
  { x with rt := { x.rt with buffer := x.rt.buffer ++ d } }

/-- The connection breaks: in each direction some of the bytes in flight still arrive (at once), the others are lost. -/
def CutAio (x y : BreakAio α β) : Prop :=
  x.alive = true ∧ ∃ i j, y = ⟨⟨x.net.a.fill (x.net.ba.take i), x.net.b.fill (x.net.ab.take j), [], []⟩, false⟩

/-- What happens at the first side: as on a connection that works, as long as it does; or it breaks. -/
def BreakAio.Half (E : Err → Prop) (L : Lib) (c : Clock) (x y : BreakAio α β) : Prop :=
  x.alive = true ∧ y.alive = true ∧ AioStepA L c x.net y.net ∨
  x.alive = false ∧ (∃ a, LostStep E L c x.net.a a ∧ y = { x with net := { x.net with a := a } }) ∨
  CutAio x y ∧ ¬ ∃ r, x.net.a.tasks () = .ret r

/-- A connection between a client (`a`) and a task of a server (`b`), which may break at any time before both have
ended. -/
def aioBreak (E : Err → Prop) (L : Lib) (ca cb : Clock) : Link (BreakAio α β) where
  stepC := BreakAio.Half E L ca
  stepS := fun x y => BreakAio.Half E L cb x.swap y.swap
  doneC := fun x => ∃ r, x.net.a.tasks () = .ret r
  doneS := fun x => ∃ r, x.net.b.tasks () = .ret r

/-- `run_sessions` of a server with coroutines with one client for each element of `ds`, on connections that may break:
whatever the schedule, everything ends, and then `run_sessions` has returned or raised, every client has ended, the
clients on connections that have not broken with a result `ra`; no task of the server on such a connection has ended with
another result than `rb`; and `run_sessions` has returned normally if and only if all clients have, and otherwise
raised what one of them has (`f` says how a client with a certain result has ended). -/
def AioUnbroken {D : Type} (E : Err → Prop) (L : Lib) (ca cb : Clock) (ds : List D) (conn : D → AioNet Unit Unit Unit Unit α β)
    (f : α → Except Err Unit) (ra : D → α → Prop) (rb : D → β → Prop) : Prop :=
  let S := aioBreak E L ca cb
  let res : BreakAio α β → Except Err Unit := fun x => aioResult f x.net
  let R0 := PoolRun.start (ds.map fun d => (⟨conn d, true⟩ : BreakAio α β))
  Acc (fun T R => PoolRun.Step S res R T) R0 ∧ (∃ R, PoolRun.Reach S res R0 R ∧ PoolRun.Stuck S res R) ∧
  ∀ R, PoolRun.Reach S res R0 R → PoolRun.Stuck S res R →
    ∃ r, R.result = some r ∧ R.pool.conns.length = ds.length ∧
      (∀ (i : Nat) (d : D), ds[i]? = some d → ∃ y, R.pool.conns[i]? = some (true, y) ∧
        (∃ q, y.net.a.tasks () = .ret q ∧ (y.alive = true → ra d q)) ∧
        ∀ q, y.alive = true → y.net.b.tasks () = .ret q → rb d q) ∧
      (r = .ok () ↔ ∀ c ∈ R.pool.conns, ∀ q, c.2.net.a.tasks () = .ret q → f q = .ok ()) ∧
      ∀ e, r = .error e → ∃ c ∈ R.pool.conns, ∃ q, c.2.net.a.tasks () = .ret q ∧ f q = .error e

end Salt.Spec
