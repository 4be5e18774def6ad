import Verif.Spec.AioPair
import Verif.Spec.BufNet

/-!
# Flow control of asyncio streams

In `AioNet` a `drain()` may suspend the coroutine but never waits for anything, and transports deliver whenever they
like.  Here the flow control of CPython (asyncio/streams.py, transports.py, selector_events.py) is added.  A transport
keeps what the socket did not take; when that is more than `high` bytes it pauses the protocol, so that `drain()` waits
until at most `low` bytes are left.  A `StreamReader` that holds more than `2 * limit` bytes makes its transport stop
reading until at most `limit` bytes are left or a coroutine waits for data.  The sockets of a connection hold at most
`cap` bytes in each direction.
-/

namespace Salt.Spec

open Salt

/-- The limits: high and low water mark of the write buffer, limit of the `StreamReader`, and the size of the buffers of
the sockets. -/
structure Limits where
  high : Nat
  low : Nat
  limit : Nat
  cap : Nat

/-- What `set_write_buffer_limits` demands (`high >= low`), and sockets that hold anything at all. -/
def Limits.Ok (l : Limits) : Prop := l.low ≤ l.high ∧ 0 < l.cap

/-- The limits of asyncio if nobody changes them, with `cap` bytes of socket buffers. -/
def Limits.default (cap : Nat) : Limits := ⟨65536, 16384, 65536, cap⟩

/-- Flow control of one side: how many of the bytes on the way to the other side are still in the write buffer of its
transport, whether the protocol is paused, which tasks wait in `drain()`, and whether the transport has stopped
reading. -/
structure FlowSide (ι : Type) where
  out : Nat
  held : Bool
  drain : ι → Bool
  stop : Bool

section
variable {ι κ σ τ α β : Type} [DecidableEq ι] [DecidableEq κ]

/-- Whether the task, which gets control, is suspended in `drain()` the next time (compare `aioBlock`). -/
def endsInDrain (L : Lib) (c : Clock) (t : ι) : IT (aio σ) β → AioRt ι σ → Bool
  | .ret _, _ => false
  | .op (.sh .get) k, r => endsInDrain L c t (k (.ok r.st)) r
  | .op (.sh (.put s)) k, r => endsInDrain L c t (k (.ok ())) { r with st := s }
  | .op (.sh (.env e)) k, r => endsInDrain L c t (k (answer L c e r.calls).1) { r with calls := (answer L c e r.calls).2 }
  | .op (.stream (.readexactly n)) k, r =>
    match tryRead n r with
    | some (x, r') => endsInDrain L c t (k x) r'
    | none => false
  | .op (.stream (.write _)) k, r => endsInDrain L c t (k (.ok ())) r
  | .op (.stream .drain) _, _ => true
  | .op .atEof k, r => endsInDrain L c t (k (.ok (r.eof && r.buffer.isEmpty))) r
  | .op .close k, r => endsInDrain L c t (k (.ok ())) { r with closed := true }

/-- The task `t` has run, is now in `drain()` or not, and has left the event loop in `r` and the write buffer with `out`
bytes.  The protocol is paused if the buffer holds too much; then `drain()` waits.  Reading goes on if somebody waits for
data or enough has been consumed. -/
def FlowSide.ran (l : Limits) (f : FlowSide ι) (t : ι) (inDrain : Bool) (r : AioRt ι σ) (out : Nat) : FlowSide ι :=
  let held := f.held || decide (l.high < out)
  { out := out, held := held, drain := Function.update f.drain t (inDrain && held),
    stop := f.stop && r.waiter.isNone && decide (l.limit < r.buffer.length) }

/-- The socket has taken `n` bytes from the write buffer: the protocol goes on if little enough is left, and with it all
tasks in `drain()`. -/
def FlowSide.sent (l : Limits) (f : FlowSide ι) (n : Nat) : FlowSide ι :=
  let held := f.held && decide (l.low < f.out - n)
  { f with out := f.out - n, held := held, drain := fun t => f.drain t && held }

/-- The transport has fed the `StreamReader`, which is now in `r`: reading stops if that holds too much. -/
def FlowSide.fed (l : Limits) (f : FlowSide ι) (r : AioRt ι σ) : FlowSide ι :=
  { f with stop := decide (2 * l.limit < r.buffer.length) }

/-- Two event loops with flow control.  The bytes in flight are those of the network; the last ones of them, as many as
`out` says, are in the write buffer of the sender. -/
structure Flow (ι κ σ τ α β : Type) where
  net : AioNet ι κ σ τ α β
  a : FlowSide ι
  b : FlowSide κ

/-- One of the event loops does something: runs a task that neither waits for data nor in `drain()`, sends bytes from
its write buffer if there is room in the sockets, or delivers bytes or end of file.  A task that writes while the write
buffer is empty sends as much as it can (or less) at once; what is written later waits for the socket.  End of file comes
from the other side after all bytes and if reading is not paused, or from the own transport if it was closed and has
sent everything. -/
inductive Flow.Step (l : Limits) (L : Lib) (ca cb : Clock) : Flow ι κ σ τ α β → Flow ι κ σ τ α β → Prop
  | aRun {a b ab ba f g} (t : ι) (out : Nat) : a.CanRun t → f.drain t = false →
      out ≤ f.out + (a.run L ca t).2.length → (0 < f.out → out = f.out + (a.run L ca t).2.length) →
      (ab ++ (a.run L ca t).2).length ≤ l.cap + out →
      Step l L ca cb ⟨⟨a, b, ab, ba⟩, f, g⟩ ⟨⟨(a.run L ca t).1, b, ab ++ (a.run L ca t).2, ba⟩,
        f.ran l t (endsInDrain L ca t (a.tasks t) (a.rt.resume t)) (a.run L ca t).1.rt out, g⟩
  | aSend {a b ab ba f g} (n : Nat) : 0 < n → n ≤ f.out → ab.length + n ≤ l.cap + f.out →
      Step l L ca cb ⟨⟨a, b, ab, ba⟩, f, g⟩ ⟨⟨a, b, ab, ba⟩, f.sent l n, g⟩
  | aFeed {a b ab ba f g} (chunk : Bytes) : chunk ≠ [] → a.rt.closed = false → f.stop = false → g.out ≤ ba.length →
      Step l L ca cb ⟨⟨a, b, ab, chunk ++ ba⟩, f, g⟩ ⟨⟨a.feed chunk, b, ab, ba⟩, f.fed l (a.feed chunk).rt, g⟩
  | aEof {a b ab ba f g} : a.rt.eof = false →
      (a.rt.closed = true ∧ f.out = 0 ∨ b.rt.closed = true ∧ ba = [] ∧ f.stop = false) →
      Step l L ca cb ⟨⟨a, b, ab, ba⟩, f, g⟩ ⟨⟨a.feedEof, b, ab, ba⟩, f, g⟩
  | bRun {a b ab ba f g} (t : κ) (out : Nat) : b.CanRun t → g.drain t = false →
      out ≤ g.out + (b.run L cb t).2.length → (0 < g.out → out = g.out + (b.run L cb t).2.length) →
      (ba ++ (b.run L cb t).2).length ≤ l.cap + out →
      Step l L ca cb ⟨⟨a, b, ab, ba⟩, f, g⟩ ⟨⟨a, (b.run L cb t).1, ab, ba ++ (b.run L cb t).2⟩, f,
        g.ran l t (endsInDrain L cb t (b.tasks t) (b.rt.resume t)) (b.run L cb t).1.rt out⟩
  | bSend {a b ab ba f g} (n : Nat) : 0 < n → n ≤ g.out → ba.length + n ≤ l.cap + g.out →
      Step l L ca cb ⟨⟨a, b, ab, ba⟩, f, g⟩ ⟨⟨a, b, ab, ba⟩, f, g.sent l n⟩
  | bFeed {a b ab ba f g} (chunk : Bytes) : chunk ≠ [] → b.rt.closed = false → g.stop = false → f.out ≤ ab.length →
      Step l L ca cb ⟨⟨a, b, chunk ++ ab, ba⟩, f, g⟩ ⟨⟨a, b.feed chunk, ab, ba⟩, f, g.fed l (b.feed chunk).rt⟩
  | bEof {a b ab ba f g} : b.rt.eof = false →
      (b.rt.closed = true ∧ g.out = 0 ∨ a.rt.closed = true ∧ ab = [] ∧ g.stop = false) →
      Step l L ca cb ⟨⟨a, b, ab, ba⟩, f, g⟩ ⟨⟨a, b.feedEof, ab, ba⟩, f, g⟩

/-- Some schedule leads from one configuration to the other. -/
inductive Flow.Reach (l : Limits) (L : Lib) (ca cb : Clock) : Flow ι κ σ τ α β → Flow ι κ σ τ α β → Prop
  | refl (x) : Reach l L ca cb x x
  | step {x y z} : Reach l L ca cb x y → Flow.Step l L ca cb y z → Reach l L ca cb x z

/-- Nothing more can happen. -/
def Flow.Stuck (l : Limits) (L : Lib) (ca cb : Clock) (x : Flow ι κ σ τ α β) : Prop := ∀ y, ¬ Flow.Step l L ca cb x y

/-- There is no infinite schedule. -/
def Flow.Terminates (l : Limits) (L : Lib) (ca cb : Clock) (x : Flow ι κ σ τ α β) : Prop :=
  Acc (fun y x => Flow.Step l L ca cb x y) x

/-- Flow control on a new connection: nothing has been written. -/
def FlowSide.new : FlowSide ι := ⟨0, false, fun _ => false, false⟩

/-- A network on a new connection, with flow control. -/
def Flow.start (X : AioNet ι κ σ τ α β) : Flow ι κ σ τ α β := ⟨X, .new, .new⟩

/-- The program never writes. -/
def ReadOnly : IT appSig α → Prop
  | .ret _ => True
  | .op .read k => ∀ r, ReadOnly (k r)
  | .op (.write _ _) _ => False

/-- Some tasks only write, the others only read, and at most one of these ever does. -/
def Split (p : ι → IT appSig α) : Prop := OneReader p ∧ ∀ t, WriteOnly (p t) ∨ ReadOnly (p t)

/-- When the tasks are directly connected, in the end nothing is left unread, whatever the schedule. -/
def AllRead (pA : ι → IT appSig α) (pB : κ → IT appSig β) : Prop :=
  ∀ y, Direct.Reach ⟨pA, pB, [], []⟩ y → Direct.Stuck y → y.ab = [] ∧ y.ba = []

/-- Whatever the schedule, the pieces in which bytes arrive and how fast they are taken, the tasks of the network `X` come
to an end, and at any time those that have returned have returned what they do in some schedule of the tasks `pA` and `pB`
when these are directly connected; when nothing more can happen, nothing more can happen there either, the same tasks wait
for messages, nobody is in `drain()`, and no byte is left. -/
def FlowLikeDirect (l : Limits) (L : Lib) (ca cb : Clock) (pA : ι → IT appSig α) (pB : κ → IT appSig β)
    (X : AioNet ι κ σ τ α β) : Prop :=
  Flow.Terminates l L ca cb (.start X) ∧ (∃ Y, Flow.Reach l L ca cb (.start X) Y ∧ Flow.Stuck l L ca cb Y) ∧
  ∀ Y, Flow.Reach l L ca cb (.start X) Y → ∃ y, Direct.Reach ⟨pA, pB, [], []⟩ y ∧
    (∀ t r, Y.net.a.tasks t = .ret r → y.a t = .ret r) ∧ (∀ t r, Y.net.b.tasks t = .ret r → y.b t = .ret r) ∧
    (Flow.Stuck l L ca cb Y → Direct.Stuck y ∧ (∀ t, AioEnd Y.net.a t (y.a t)) ∧ (∀ t, AioEnd Y.net.b t (y.b t)) ∧
      (∀ t, Y.a.drain t = false) ∧ (∀ t, Y.b.drain t = false) ∧
      Y.net.ab = [] ∧ Y.net.ba = [] ∧ Y.net.a.rt.buffer = [] ∧ Y.net.b.rt.buffer = [])

end

section
variable {α β : Type}

/-- The network of coroutines ends, whatever the schedule, the pieces in which bytes arrive and how fast they are taken,
and always as the message network ends in `y`, without a byte left and nobody in `drain()`. -/
def FlowEndsLike (l : Limits) (L : Lib) (ca cb : Clock) (y : Net α β) (X : AioNet Unit Unit Unit Unit α β) : Prop :=
  Flow.Terminates l L ca cb (.start X) ∧ (∃ Y, Flow.Reach l L ca cb (.start X) Y ∧ Flow.Stuck l L ca cb Y) ∧
  ∀ Y, Flow.Reach l L ca cb (.start X) Y → Flow.Stuck l L ca cb Y → AioEnd Y.net.a () y.a ∧ AioEnd Y.net.b () y.b ∧
    Y.a.drain () = false ∧ Y.b.drain () = false ∧
    Y.net.ab = [] ∧ Y.net.ba = [] ∧ Y.net.a.rt.buffer = [] ∧ Y.net.b.rt.buffer = []

/-- Whatever the schedule, the pieces in which bytes arrive and how fast they are taken, both coroutines come to an end,
with the results `a` and `b`, and close the connection; nobody is left in `drain()`, and nothing is left unread or unsent. -/
def FlowFinish (l : Limits) (L : Lib) (ca cb : Clock) (X : AioNet Unit Unit Unit Unit α β) (a : α) (b : β) : Prop :=
  Flow.Terminates l L ca cb (.start X) ∧ (∃ Y, Flow.Reach l L ca cb (.start X) Y ∧ Flow.Stuck l L ca cb Y) ∧
  ∀ Y, Flow.Reach l L ca cb (.start X) Y → Flow.Stuck l L ca cb Y →
    Y.net.a.tasks () = .ret a ∧ Y.net.b.tasks () = .ret b ∧ Y.net.a.rt.closed = true ∧ Y.net.b.rt.closed = true ∧
    Y.a.drain () = false ∧ Y.b.drain () = false ∧ Y.net.ab = [] ∧ Y.net.ba = [] ∧ Y.net.a.rt.buffer = [] ∧ Y.net.b.rt.buffer = []

end

end Salt.Spec
