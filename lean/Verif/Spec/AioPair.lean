import Verif.Spec.AioNet

/-!
# Two coroutines joined by byte streams

The networks of `Spec/AioNet` with one task on each side, compared with two programs joined by message links.
-/

namespace Salt.Spec

open Salt

variable {α β : Type}

/-- Two coroutines, each on one end of a new connection. -/
def AioNet.pair (p : IT (aio Unit) α) (q : IT (aio Unit) β) : AioNet Unit Unit Unit Unit α β :=
  ⟨.start (fun _ => p) (), .start (fun _ => q) (), [], []⟩

/-- The network of coroutines ends, whatever the schedule and the pieces in which bytes arrive, and always as the
message network ends in `y`; where no message is left there, no byte is left. -/
def AioEndsLike (L : Lib) (ca cb : Clock) (y : Net α β) (X : AioNet Unit Unit Unit Unit α β) : Prop :=
  AioNet.Terminates L ca cb X ∧ (∃ Y, AioNet.Reach L ca cb X Y ∧ AioNet.Stuck L ca cb Y) ∧
  ∀ Y, AioNet.Reach L ca cb X Y → AioNet.Stuck L ca cb Y → AioEnd Y.a () y.a ∧ AioEnd Y.b () y.b ∧
    (y.ba = [] → Y.ba = [] ∧ Y.a.rt.buffer = []) ∧ (y.ab = [] → Y.ab = [] ∧ Y.b.rt.buffer = [])

/-- At no time does a side that has closed the connection have bytes to receive (which would make TCP reset the
connection, and the other side lose what it has not read yet). -/
def ClosedClean (L : Lib) (ca cb : Clock) (X : AioNet Unit Unit Unit Unit α β) : Prop :=
  ∀ Y, AioNet.Reach L ca cb X Y → (Y.a.rt.closed = true → Y.ba = [] ∧ Y.a.rt.buffer = []) ∧
    (Y.b.rt.closed = true → Y.ab = [] ∧ Y.b.rt.buffer = [])

/-- Whatever the schedule and the pieces in which bytes arrive, both coroutines come to an end, with the results `a`
and `b`, and close the connection; nothing is left unread, and neither side closes too early. -/
def BothFinish (L : Lib) (ca cb : Clock) (X : AioNet Unit Unit Unit Unit α β) (a : α) (b : β) : Prop :=
  AioNet.Terminates L ca cb X ∧ (∃ Y, AioNet.Reach L ca cb X Y ∧ AioNet.Stuck L ca cb Y) ∧
  (∀ Y, AioNet.Reach L ca cb X Y → AioNet.Stuck L ca cb Y → Y.a.tasks () = .ret a ∧ Y.b.tasks () = .ret b ∧
    Y.a.rt.closed = true ∧ Y.b.rt.closed = true ∧ Y.ab = [] ∧ Y.ba = [] ∧ Y.a.rt.buffer = [] ∧ Y.b.rt.buffer = []) ∧
  ClosedClean L ca cb X

end Salt.Spec
