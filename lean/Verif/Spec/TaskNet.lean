import Verif.Model.Tasks
import Verif.Spec.Net
import Mathlib.Algebra.BigOperators.Fin

/-!
# Two event loops joined by reliable links

On each side any number of tasks share one channel object.  A task runs until it awaits something that is not ready;
then any other task may run.  With `AsyncioChannel` (saltchannel/channel.py:46-52) below, these points are: waiting
for a message, and `drain()` after the packets of a write have been handed to the transport.
-/

namespace Salt.Spec

open Salt

/-- What a task does from where it was resumed to where it is suspended next: the remaining program, the attributes
of the shared object, the number of calls of the time objects, and the messages it has written.  Suspension is possible
before a message is received and after messages have been written, and nowhere else. -/
def block (L : Lib) (c : Clock) {σ β : Type} : IT (sh σ) β → σ → Nat → IT (sh σ) β × σ × Nat × List Bytes
  | .ret b, s, i => (.ret b, s, i, [])
  | .op .get k, s, i => block L c (k (.ok s)) s i
  | .op (.put s') k, _, i => block L c (k (.ok ())) s' i
  | .op (.env .read) k, s, i => (.op (S := sh σ) (.env .read) k, s, i, [])
  | .op (.env (.write ms _)) k, s, i => (k (.ok ()), s, i, ms)
  | .op (.env .firstTime) k, s, i => block L c (k (.ok (c.first i))) s (i + 1)
  | .op (.env .time) k, s, i => block L c (k (.ok (c.now i))) s (i + 1)
  | .op (.env (.report t)) k, s, i => block L c (k (c.report i t)) s (i + 1)
  | .op (.env (.check t)) k, s, i => block L c (k (c.check i t)) s (i + 1)
  | .op (.env (.sign m sk)) k, s, i => block L c (k (L.sign m sk)) s i
  | .op (.env (.signOpen sm pk)) k, s, i => block L c (k (L.signOpen sm pk)) s i
  | .op (.env (.hash m)) k, s, i => block L c (k (L.hash m)) s i
  | .op (.env (.beforenm pk sk)) k, s, i => block L c (k (L.beforenm pk sk)) s i
  | .op (.env (.box m n key)) k, s, i => block L c (k (L.box m n key)) s i
  | .op (.env (.boxOpen d n key)) k, s, i => block L c (k (L.boxOpen d n key)) s i

/-- The tasks of one side, the attributes of the object they share, and how often the time objects were called. -/
structure Loop (ι σ β : Type) where
  tasks : ι → IT (sh σ) β
  st : σ
  calls : Nat

section
variable {ι κ σ τ α β : Type} [DecidableEq ι] [DecidableEq κ]

/-- The task `t`, whose remaining program is `p`, runs until it is suspended: the new side and what was written. -/
def Loop.run (L : Lib) (c : Clock) (x : Loop ι σ α) (t : ι) (p : IT (sh σ) α) : Loop ι σ α × List Bytes :=
  let r := block L c p x.st x.calls
  (⟨Function.update x.tasks t r.1, r.2.1, r.2.2.1⟩, r.2.2.2)

/-- The task can run: it has not ended and does not wait for a message. -/
def Ready : IT (sh σ) α → Prop
  | .ret _ => False
  | .op (.env .read) _ => False
  | _ => True

/-- Two sides and the messages in flight, oldest first. -/
structure TaskNet (ι κ σ τ α β : Type) where
  a : Loop ι σ α
  b : Loop κ τ β
  ab : List Bytes
  ba : List Bytes

/-- A task of one side runs until it is suspended: one that is ready, or one that waits for a message when there is
one. -/
inductive TaskNet.Step (L : Lib) (ca cb : Clock) : TaskNet ι κ σ τ α β → TaskNet ι κ σ τ α β → Prop
  | aRun {a b ab ba} (t : ι) : Ready (a.tasks t) →
      Step L ca cb ⟨a, b, ab, ba⟩ ⟨(a.run L ca t (a.tasks t)).1, b, ab ++ (a.run L ca t (a.tasks t)).2, ba⟩
  | aRecv {a b ab ba} (t : ι) (m : Bytes) (k : Except Err Bytes → IT (sh σ) α) :
      a.tasks t = .op (S := sh σ) (.env .read) k →
      Step L ca cb ⟨a, b, ab, m :: ba⟩ ⟨(a.run L ca t (k (.ok m))).1, b, ab ++ (a.run L ca t (k (.ok m))).2, ba⟩
  | bRun {a b ab ba} (t : κ) : Ready (b.tasks t) →
      Step L ca cb ⟨a, b, ab, ba⟩ ⟨a, (b.run L cb t (b.tasks t)).1, ab, ba ++ (b.run L cb t (b.tasks t)).2⟩
  | bRecv {a b ab ba} (t : κ) (m : Bytes) (k : Except Err Bytes → IT (sh τ) β) :
      b.tasks t = .op (S := sh τ) (.env .read) k →
      Step L ca cb ⟨a, b, m :: ab, ba⟩ ⟨a, (b.run L cb t (k (.ok m))).1, ab, ba ++ (b.run L cb t (k (.ok m))).2⟩

/-- Some schedule leads from one configuration to the other. -/
inductive TaskNet.Reach (L : Lib) (ca cb : Clock) : TaskNet ι κ σ τ α β → TaskNet ι κ σ τ α β → Prop
  | refl (x) : Reach L ca cb x x
  | step {x y z} : Reach L ca cb x y → TaskNet.Step L ca cb y z → Reach L ca cb x z

/-- Nothing more can happen. -/
def TaskNet.Stuck (L : Lib) (ca cb : Clock) (x : TaskNet ι κ σ τ α β) : Prop := ∀ y, ¬ TaskNet.Step L ca cb x y

/-- There is no infinite schedule. -/
def TaskNet.Terminates (L : Lib) (ca cb : Clock) (x : TaskNet ι κ σ τ α β) : Prop :=
  Acc (fun y x => TaskNet.Step L ca cb x y) x

/-! ### The ideal -/

/-- The tasks directly connected: two groups of programs and the messages in flight. -/
structure Direct (ι κ α β : Type) where
  a : ι → IT appSig α
  b : κ → IT appSig β
  ab : List Bytes
  ba : List Bytes

/-- One of the tasks performs its next operation: a write puts its messages on the link, a read takes the oldest. -/
inductive Direct.Step : Direct ι κ α β → Direct ι κ α β → Prop
  | aWrite {a b ab ba} (t : ι) (ms : List Bytes) (l : Bool) (k : Except Err Unit → IT appSig α) :
      a t = .op (S := appSig) (.write ms l) k → Step ⟨a, b, ab, ba⟩ ⟨Function.update a t (k (.ok ())), b, ab ++ ms, ba⟩
  | aRead {a b ab ba} (t : ι) (m : Bytes) (k : Except Err Bytes → IT appSig α) :
      a t = .op (S := appSig) .read k → Step ⟨a, b, ab, m :: ba⟩ ⟨Function.update a t (k (.ok m)), b, ab, ba⟩
  | bWrite {a b ab ba} (t : κ) (ms : List Bytes) (l : Bool) (k : Except Err Unit → IT appSig β) :
      b t = .op (S := appSig) (.write ms l) k → Step ⟨a, b, ab, ba⟩ ⟨a, Function.update b t (k (.ok ())), ab, ba ++ ms⟩
  | bRead {a b ab ba} (t : κ) (m : Bytes) (k : Except Err Bytes → IT appSig β) :
      b t = .op (S := appSig) .read k → Step ⟨a, b, m :: ab, ba⟩ ⟨a, Function.update b t (k (.ok m)), ab, ba⟩

/-- Some schedule leads from one configuration to the other. -/
inductive Direct.Reach : Direct ι κ α β → Direct ι κ α β → Prop
  | refl (x) : Reach x x
  | step {x y z} : Reach x y → Direct.Step y z → Reach x z

/-- Nothing more can happen. -/
def Direct.Stuck (x : Direct ι κ α β) : Prop := ∀ y, ¬ Direct.Step x y

/-- The program never reads. -/
def WriteOnly : IT appSig α → Prop
  | .ret _ => True
  | .op .read _ => False
  | .op (.write _ _) k => ∀ r, WriteOnly (k r)

/-- At most one of the tasks ever reads. -/
def OneReader (p : ι → IT appSig α) : Prop := ∀ t t', t ≠ t' → WriteOnly (p t) ∨ WriteOnly (p t')

/-- The tasks together write at most `n` messages, in calls carrying between 1 and `cap` messages. -/
def ModestAll [Fintype ι] (cap : Nat) (p : ι → IT appSig α) (n : Nat) : Prop :=
  ∃ f : ι → Nat, (∀ t, Modest cap (p t) (f t)) ∧ ∑ t, f t ≤ n

/-- A task on the shared channel and the same task directly connected: both have returned the same result, or both
wait for a message. -/
inductive TaskEnd : IT appSig α → IT (sh σ) α → Prop
  | ret (x) : TaskEnd (.ret x) (.ret x)
  | wait (k k') : TaskEnd (.op (S := appSig) .read k) (.op (S := sh σ) (.env .read) k')

/-- Whatever the schedule, the tasks of the network `X` come to an end, and at any time those that have returned have
returned what they do in some schedule of the tasks `pA` and `pB` when these are directly connected; when nothing more
can happen, nothing more can happen there either, and the same tasks wait for messages. -/
def LikeDirect (L : Lib) (ca cb : Clock) (pA : ι → IT appSig α) (pB : κ → IT appSig β) (X : TaskNet ι κ σ τ α β) : Prop :=
  TaskNet.Terminates L ca cb X ∧ (∃ Y, TaskNet.Reach L ca cb X Y ∧ TaskNet.Stuck L ca cb Y) ∧
  ∀ Y, TaskNet.Reach L ca cb X Y → ∃ y, Direct.Reach ⟨pA, pB, [], []⟩ y ∧
    (∀ t r, Y.a.tasks t = .ret r → y.a t = .ret r) ∧ (∀ t r, Y.b.tasks t = .ret r → y.b t = .ret r) ∧
    (TaskNet.Stuck L ca cb Y → Direct.Stuck y ∧ (∀ t, TaskEnd (y.a t) (Y.a.tasks t)) ∧ ∀ t, TaskEnd (y.b t) (Y.b.tasks t))

/-- The tasks on two application channels, before they have done anything; the time objects have been called `i` and
`j` times. -/
def onChannels (pA : ι → IT appSig α) (pB : κ → IT appSig β) (sA sB : AppSt) (i j : Nat := 0) :
    TaskNet ι κ AppSt AppSt α β :=
  ⟨⟨fun t => Co.task (pA t), sA, i⟩, ⟨fun t => Co.task (pB t), sB, j⟩, [], []⟩

/-- Two application channels at the two ends of a session between messages: same key, matching nonces, nothing queued,
and on both sides nonces left for `n` more packets. -/
structure Paired (n : Nat) (sA sB : AppSt) : Prop where
  key : sA.enc.key = sB.enc.key
  keyLen : sA.enc.key.length = 32
  nonces : sA.enc.sessionNonce = zeros 8 ∧ sB.enc.sessionNonce = zeros 8
  aToB : sA.enc.writeNonce = sB.enc.readNonce
  bToA : sB.enc.writeNonce = sA.enc.readNonce
  room : sA.enc.writeNonce + 2 * n ≤ 2 ^ 64 ∧ sB.enc.writeNonce + 2 * n ≤ 2 ^ 64
  push : sA.enc.pushback = [] ∧ sB.enc.pushback = []
  m4 : sA.bufferedM4 = none ∧ sB.bufferedM4 = none
  queues : sA.readQ = [] ∧ sB.readQ = []

end

end Salt.Spec
