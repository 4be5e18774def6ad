import Verif.Spec.Log
import Verif.Model.Time

/-!
# Two parties that share their time objects

Time keepers and time checkers are singletons (util/time.py:6,18), so that a client and a server in one process, as in
dev/client_server.py, share them.  Here the two programs call the methods of common time objects, whose state all calls
change, in the order in which they happen to be made.
-/

namespace Salt.Spec

open Salt

/-- Time objects: what the methods of the keeper and the checker return and what they make of the state. -/
structure TimeObj (σ : Type) where
  first : σ → Nat × σ
  now : σ → Nat × σ
  report : Nat → σ → Except Err Unit × σ
  check : Nat → σ → Except Err Unit × σ

/-- The checker accepts all times of the keeper (as transmitted: 32 bits), in whatever state. -/
structure TimeObj.Fine {σ : Type} (T : TimeObj σ) : Prop where
  first : ∀ s s', (T.report ((T.first s).1 % 2 ^ 32) s').1 = .ok ()
  checkFirst : ∀ s s', (T.check ((T.first s).1 % 2 ^ 32) s').1 = .ok ()
  check : ∀ s s', (T.check ((T.now s).1 % 2 ^ 32) s').1 = .ok ()

/-- `OneTwoThreeTimeKeeper` (dev/example_session3.py:26-37) and `NullTimeChecker`: the state is the attribute `time`. -/
def oneTwoThreeObj : TimeObj Nat where
  first := oneTwoThree .first
  now := oneTwoThree .now
  report t s := (nullReport t, s)
  check t s := (nullCheck t, s)

/-- What a program gets for an operation that is not one of the channel: results of the crypto library `L`, which has no
state, and of the time objects. -/
def ownAnswer {σ : Type} (L : Lib) (T : TimeObj σ) : (e : EnvOp) → σ → Option (Except Err e.Resp × σ)
  | .read, _ => none
  | .write _ _, _ => none
  | .firstTime, s => some (.ok (T.first s).1, (T.first s).2)
  | .time, s => some (.ok (T.now s).1, (T.now s).2)
  | .report t, s => some (T.report t s)
  | .check t, s => some (T.check t s)
  | .sign m sk, s => some (L.sign m sk, s)
  | .signOpen sm pk, s => some (L.signOpen sm pk, s)
  | .hash m, s => some (L.hash m, s)
  | .beforenm pk sk, s => some (L.beforenm pk sk, s)
  | .box m n key, s => some (L.box m n key, s)
  | .boxOpen d n key, s => some (L.boxOpen d n key, s)

/-- Two programs, the messages in flight between them, oldest first, and the state of the time objects. -/
structure SharedTime (σ α β : Type) where
  a : IT env α
  b : IT env β
  /-- from `a` to `b` -/
  ab : List Bytes
  /-- from `b` to `a` -/
  ba : List Bytes
  time : σ

namespace SharedTime

variable {σ α β : Type}

/-- The beginning. -/
def start (a : IT env α) (b : IT env β) (s : σ) : SharedTime σ α β := ⟨a, b, [], [], s⟩

/-- One of the two performs its next operation. -/
inductive Step (L : Lib) (T : TimeObj σ) : SharedTime σ α β → SharedTime σ α β → Prop
  | aOwn {b ab ba s s'} (e : EnvOp) (r : Except Err e.Resp) (k : Except Err e.Resp → IT env α) :
      ownAnswer L T e s = some (r, s') →
      Step L T ⟨.op (S := env) e k, b, ab, ba, s⟩ ⟨k r, b, ab, ba, s'⟩
  | aWrite {b ab ba s} (ms : List Bytes) (l : Bool) (k : Except Err Unit → IT env α) :
      Step L T ⟨.op (S := env) (.write ms l) k, b, ab, ba, s⟩ ⟨k (.ok ()), b, ab ++ ms, ba, s⟩
  | aRead {b ab ba s} (m : Bytes) (k : Except Err Bytes → IT env α) :
      Step L T ⟨.op (S := env) .read k, b, ab, m :: ba, s⟩ ⟨k (.ok m), b, ab, ba, s⟩
  | bOwn {a ab ba s s'} (e : EnvOp) (r : Except Err e.Resp) (k : Except Err e.Resp → IT env β) :
      ownAnswer L T e s = some (r, s') →
      Step L T ⟨a, .op (S := env) e k, ab, ba, s⟩ ⟨a, k r, ab, ba, s'⟩
  | bWrite {a ab ba s} (ms : List Bytes) (l : Bool) (k : Except Err Unit → IT env β) :
      Step L T ⟨a, .op (S := env) (.write ms l) k, ab, ba, s⟩ ⟨a, k (.ok ()), ab, ba ++ ms, s⟩
  | bRead {a ab ba s} (m : Bytes) (k : Except Err Bytes → IT env β) :
      Step L T ⟨a, .op (S := env) .read k, m :: ab, ba, s⟩ ⟨a, k (.ok m), ab, ba, s⟩

/-- A run together with the write calls that the two sides make in it. -/
inductive Logged (L : Lib) (T : TimeObj σ) : SharedTime σ α β → List (Bool × List Bytes) → List (Bool × List Bytes) →
    SharedTime σ α β → Prop
  | refl (x) : Logged L T x [] [] x
  | aOwn {b ab ba s s' z la lb} (e : EnvOp) (r : Except Err e.Resp) (k : Except Err e.Resp → IT env α) :
      ownAnswer L T e s = some (r, s') →
      Logged L T ⟨k r, b, ab, ba, s'⟩ la lb z → Logged L T ⟨.op (S := env) e k, b, ab, ba, s⟩ la lb z
  | aWrite {b ab ba s z la lb} (ms : List Bytes) (l : Bool) (k : Except Err Unit → IT env α) :
      Logged L T ⟨k (.ok ()), b, ab ++ ms, ba, s⟩ la lb z →
      Logged L T ⟨.op (S := env) (.write ms l) k, b, ab, ba, s⟩ ((l, ms) :: la) lb z
  | aRead {b ab ba s z la lb} (m : Bytes) (k : Except Err Bytes → IT env α) :
      Logged L T ⟨k (.ok m), b, ab, ba, s⟩ la lb z → Logged L T ⟨.op (S := env) .read k, b, ab, m :: ba, s⟩ la lb z
  | bOwn {a ab ba s s' z la lb} (e : EnvOp) (r : Except Err e.Resp) (k : Except Err e.Resp → IT env β) :
      ownAnswer L T e s = some (r, s') →
      Logged L T ⟨a, k r, ab, ba, s'⟩ la lb z → Logged L T ⟨a, .op (S := env) e k, ab, ba, s⟩ la lb z
  | bWrite {a ab ba s z la lb} (ms : List Bytes) (l : Bool) (k : Except Err Unit → IT env β) :
      Logged L T ⟨a, k (.ok ()), ab, ba ++ ms, s⟩ la lb z →
      Logged L T ⟨a, .op (S := env) (.write ms l) k, ab, ba, s⟩ la ((l, ms) :: lb) z
  | bRead {a ab ba s z la lb} (m : Bytes) (k : Except Err Bytes → IT env β) :
      Logged L T ⟨a, k (.ok m), ab, ba, s⟩ la lb z → Logged L T ⟨a, .op (S := env) .read k, m :: ab, ba, s⟩ la lb z

/-- Nothing more can happen. -/
def Stuck (L : Lib) (T : TimeObj σ) (x : SharedTime σ α β) : Prop := ∀ y, ¬ Step L T x y

/-- There is no infinite run. -/
def Terminates (L : Lib) (T : TimeObj σ) (x : SharedTime σ α β) : Prop := Acc (fun y x => Step L T x y) x

end SharedTime

/-- How a program on a channel and a program with its time objects end: both return, with results related by `Q`, or both wait for
a message. -/
inductive SameEndEnv {α α' : Type} (Q : α → α' → Prop) : IT appSig α → IT env α' → Prop
  | ret {x y} : Q x y → SameEndEnv Q (.ret x) (.ret y)
  | wait (k k') : SameEndEnv Q (.op (S := appSig) .read k) (.op (S := env) .read k')

end Salt.Spec
