import Verif.Model.AioTasks
import Verif.Spec.TaskNet

/-!
# Two event loops joined by byte streams

On each side any number of tasks share one `asyncio.StreamReader` and one `StreamWriter`.  The streams are those of
CPython (asyncio/streams.py): a coroutine that needs more bytes than are buffered waits on the future `_waiter`; a
second one that tries to wait gets a RuntimeError; data that arrive complete the future, which wakes the coroutine up
and makes room for another one to wait; a coroutine that wakes up sets `_waiter` to `None` (even if another one waits
by then) and looks at the buffer again.
-/

namespace Salt.Spec

open Salt

/-- What a task does between two runs of the event loop: nothing, wait on a future, or it has been woken up. -/
inductive Phase
  | idle
  | pending
  | woken
  deriving DecidableEq

/-- The event loop of one side as far as its tasks share it: the attributes of the object they share, the number of
calls of the time objects, and the streams: bytes received and not consumed, end of file, who waits on `_waiter`, what
each task does, and whether the transport was closed. -/
structure AioRt (ι σ : Type) where
  st : σ
  calls : Nat
  buffer : Bytes
  eof : Bool
  waiter : Option ι
  phase : ι → Phase
  closed : Bool

section
variable {ι κ σ τ α β : Type} [DecidableEq ι] [DecidableEq κ]

/-- How the time objects and the library answer; the other operations are not for them. -/
def answer (L : Lib) (c : Clock) : (e : EnvOp) → Nat → Except Err e.Resp × Nat
  | .read, i => (.error .attributeError, i)
  | .write _ _, i => (.error .attributeError, i)
  | .firstTime, i => (.ok (c.first i), i + 1)
  | .time, i => (.ok (c.now i), i + 1)
  | .report t, i => (c.report i t, i + 1)
  | .check t, i => (c.check i t, i + 1)
  | .sign m sk, i => (L.sign m sk, i)
  | .signOpen sm pk, i => (L.signOpen sm pk, i)
  | .hash m, i => (L.hash m, i)
  | .beforenm pk sk, i => (L.beforenm pk sk, i)
  | .box m n key, i => (L.box m n key, i)
  | .boxOpen d n key, i => (L.boxOpen d n key, i)

/-- `readexactly(n)` when the coroutine gets to look at the buffer: a result, or `none` when it has to wait. -/
def tryRead (n : Int) (r : AioRt ι σ) : Option (Except Err Bytes × AioRt ι σ) :=
  if n < 0 then some (.error .valueError, r)
  else if n.toNat ≤ r.buffer.length then
    some (.ok (r.buffer.take n.toNat), { r with buffer := r.buffer.drop n.toNat })
  else if r.eof then some (.error .incompleteReadError, { r with buffer := [] })
  else if r.waiter.isSome then some (.error .runtimeError, r)
  else none

/-- What the task `t` does from where it was resumed to where it is suspended next: the remaining program, the event
loop, and the bytes it has given to the transport.  It is suspended when it has to wait for data, and may be in
`drain()`.  Simplification: a transport that was closed drops what is written. -/
def aioBlock (L : Lib) (c : Clock) (t : ι) : IT (aio σ) β → AioRt ι σ → IT (aio σ) β × AioRt ι σ × Bytes
  | .ret b, r => (.ret b, r, [])
  | .op (.sh .get) k, r => aioBlock L c t (k (.ok r.st)) r
  | .op (.sh (.put s)) k, r => aioBlock L c t (k (.ok ())) { r with st := s }
  | .op (.sh (.env e)) k, r => aioBlock L c t (k (answer L c e r.calls).1) { r with calls := (answer L c e r.calls).2 }
  | .op (.stream (.readexactly n)) k, r =>
    match tryRead n r with
    | some (x, r') => aioBlock L c t (k x) r'
    | none => (.op (S := aio σ) (.stream (.readexactly n)) k,
        { r with waiter := some t, phase := Function.update r.phase t .pending }, [])
  | .op (.stream (.write b)) k, r =>
    let x := aioBlock L c t (k (.ok ())) r
    (x.1, x.2.1, if r.closed then x.2.2 else b ++ x.2.2)
  | .op (.stream .drain) k, r => (k (.ok ()), r, [])
  | .op .atEof k, r => aioBlock L c t (k (.ok (r.eof && r.buffer.isEmpty))) r
  | .op .close k, r => aioBlock L c t (k (.ok ())) { r with closed := true }

/-- The task `t` gets control: if it was woken up, `_waiter` is set to `None`. -/
def AioRt.resume (r : AioRt ι σ) (t : ι) : AioRt ι σ :=
  match r.phase t with
  | .woken => { r with waiter := none, phase := Function.update r.phase t .idle }
  | _ => r

/-- The future that a task waits on is completed. -/
def AioRt.wake (r : AioRt ι σ) : AioRt ι σ :=
  match r.waiter with
  | none => r
  | some u => { r with waiter := none, phase := Function.update r.phase u .woken }

/-- The tasks of one side. -/
structure AioSide (ι σ β : Type) where
  tasks : ι → IT (aio σ) β
  rt : AioRt ι σ

/-- The task `t` runs until it is suspended: the new side and the bytes written. -/
def AioSide.run (L : Lib) (c : Clock) (x : AioSide ι σ α) (t : ι) : AioSide ι σ α × Bytes :=
  let r := aioBlock L c t (x.tasks t) (x.rt.resume t)
  (⟨Function.update x.tasks t r.1, r.2.1⟩, r.2.2)

/-- `feed_data(chunk)`. -/
def AioSide.feed (x : AioSide ι σ α) (chunk : Bytes) : AioSide ι σ α :=
  { x with rt := { x.rt with buffer := x.rt.buffer ++ chunk }.wake }

/-- `feed_eof()`. -/
def AioSide.feedEof (x : AioSide ι σ α) : AioSide ι σ α :=
  { x with rt := { x.rt with eof := true }.wake }

/-- The event loop may run the task: it has not ended and does not wait on a future. -/
def AioSide.CanRun (x : AioSide ι σ α) (t : ι) : Prop := (∀ b, x.tasks t ≠ .ret b) ∧ x.rt.phase t ≠ .pending

/-- Two sides and the bytes in flight. -/
structure AioNet (ι κ σ τ α β : Type) where
  a : AioSide ι σ α
  b : AioSide κ τ β
  ab : Bytes
  ba : Bytes

/-- One of the event loops does something: runs a task until it is suspended, or its transport delivers some of the
bytes in flight, in pieces of any size, or end of file: when the other side has closed the connection and all bytes have
been delivered, or when this side has closed it. -/
inductive AioNet.Step (L : Lib) (ca cb : Clock) : AioNet ι κ σ τ α β → AioNet ι κ σ τ α β → Prop
  | aRun {a b ab ba} (t : ι) : a.CanRun t → Step L ca cb ⟨a, b, ab, ba⟩ ⟨(a.run L ca t).1, b, ab ++ (a.run L ca t).2, ba⟩
  | aFeed {a b ab ba} (chunk : Bytes) : chunk ≠ [] → a.rt.closed = false →
      Step L ca cb ⟨a, b, ab, chunk ++ ba⟩ ⟨a.feed chunk, b, ab, ba⟩
  | aEof {a b ab ba} : a.rt.eof = false → (a.rt.closed = true ∨ b.rt.closed = true ∧ ba = []) →
      Step L ca cb ⟨a, b, ab, ba⟩ ⟨a.feedEof, b, ab, ba⟩
  | bRun {a b ab ba} (t : κ) : b.CanRun t → Step L ca cb ⟨a, b, ab, ba⟩ ⟨a, (b.run L cb t).1, ab, ba ++ (b.run L cb t).2⟩
  | bFeed {a b ab ba} (chunk : Bytes) : chunk ≠ [] → b.rt.closed = false →
      Step L ca cb ⟨a, b, chunk ++ ab, ba⟩ ⟨a, b.feed chunk, ab, ba⟩
  | bEof {a b ab ba} : b.rt.eof = false → (b.rt.closed = true ∨ a.rt.closed = true ∧ ab = []) →
      Step L ca cb ⟨a, b, ab, ba⟩ ⟨a, b.feedEof, ab, ba⟩

/-- Some schedule leads from one configuration to the other. -/
inductive AioNet.Reach (L : Lib) (ca cb : Clock) : AioNet ι κ σ τ α β → AioNet ι κ σ τ α β → Prop
  | refl (x) : Reach L ca cb x x
  | step {x y z} : Reach L ca cb x y → AioNet.Step L ca cb y z → Reach L ca cb x z

/-- Nothing more can happen. -/
def AioNet.Stuck (L : Lib) (ca cb : Clock) (x : AioNet ι κ σ τ α β) : Prop := ∀ y, ¬ AioNet.Step L ca cb x y

/-- There is no infinite schedule. -/
def AioNet.Terminates (L : Lib) (ca cb : Clock) (x : AioNet ι κ σ τ α β) : Prop :=
  Acc (fun y x => AioNet.Step L ca cb x y) x

/-- A task on the streams and the same task directly connected: both have returned the same result, or both wait. -/
inductive AioEnd (y : AioSide ι σ α) (t : ι) : IT appSig α → Prop
  | ret (x) : y.tasks t = .ret x → AioEnd y t (.ret x)
  | wait (n k k') : y.tasks t = .op (S := aio σ) (.stream (.readexactly n)) k' → y.rt.phase t = .pending →
      AioEnd y t (.op (S := appSig) .read k)

/-- Whatever the schedule and the pieces in which bytes arrive, the tasks of the network `X` come to an end, and at any
time those that have returned have returned what they do in some schedule of the tasks `pA` and `pB` when these are
directly connected; when nothing more can happen, nothing more can happen there either, and the same tasks wait for
messages. -/
def AioLikeDirect (L : Lib) (ca cb : Clock) (pA : ι → IT appSig α) (pB : κ → IT appSig β) (X : AioNet ι κ σ τ α β) : Prop :=
  AioNet.Terminates L ca cb X ∧ (∃ Y, AioNet.Reach L ca cb X Y ∧ AioNet.Stuck L ca cb Y) ∧
  ∀ Y, AioNet.Reach L ca cb X Y → ∃ y, Direct.Reach ⟨pA, pB, [], []⟩ y ∧
    (∀ t r, Y.a.tasks t = .ret r → y.a t = .ret r) ∧ (∀ t r, Y.b.tasks t = .ret r → y.b t = .ret r) ∧
    (AioNet.Stuck L ca cb Y → Direct.Stuck y ∧ (∀ t, AioEnd Y.a t (y.a t)) ∧ ∀ t, AioEnd Y.b t (y.b t))

/-- A connection without data, on which tasks sharing an object with attributes `s` are to run; the time objects have
been called `i` times. -/
def AioSide.start (p : ι → IT (aio σ) α) (s : σ) (i : Nat := 0) : AioSide ι σ α :=
  ⟨p, ⟨s, i, [], false, none, fun _ => .idle, false⟩⟩

/-- Tasks that use two `AsyncioChannel`s directly, without a session. -/
def onPlain (pA : ι → IT appSig α) (pB : κ → IT appSig β) : AioNet ι κ Unit Unit α β :=
  ⟨.start (fun t => Aio.on (Aio.plain (pA t))) (), .start (fun t => Aio.on (Aio.plain (pB t))) (), [], []⟩

/-- Tasks that use the two application channels of a session on `AsyncioChannel`s. -/
def onSession (pA : ι → IT appSig α) (pB : κ → IT appSig β) (sA sB : AppSt) (i j : Nat := 0) :
    AioNet ι κ AppSt AppSt α β :=
  ⟨.start (fun t => Aio.on (Co.task (pA t))) sA i, .start (fun t => Aio.on (Co.task (pB t))) sB j, [], []⟩

end

end Salt.Spec
