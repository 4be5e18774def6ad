import Verif.Spec.SharedTime
import Verif.Spec.Farm

/-!
# Connections in a process where all sessions have the same time objects

All sessions of a process, clients and servers, have the same time keeper and the same time checker (util/time.py:6,18).
Between two operations of a side, other threads can have called them any number of times: whenever a session calls one
of their methods, they may be in any state.
-/

namespace Salt.Spec

open Salt

variable {σ α β : Type}

/-- Two programs and the messages in flight between them, oldest first. -/
structure AnyTime (α β : Type) where
  a : IT env α
  b : IT env β
  /-- from `a` to `b` -/
  ab : List Bytes
  /-- from `b` to `a` -/
  ba : List Bytes

/-- The beginning. -/
def AnyTime.start (a : IT env α) (b : IT env β) : AnyTime α β := ⟨a, b, [], []⟩

/-- A program performs its next operation, with the time objects in the state `s` before and `s'` after it: what remains of it and of the
messages that have arrived, and what it sends. -/
inductive Turn (L : Lib) (T : TimeObj σ) (s : σ) : σ → IT env α → List Bytes → IT env α → List Bytes → List Bytes → Prop
  | own {inn s'} (e : EnvOp) (r : Except Err e.Resp) (k : Except Err e.Resp → IT env α) :
      ownAnswer L T e s = some (r, s') → Turn L T s s' (.op (S := env) e k) inn (k r) inn []
  | write {inn} (ms : List Bytes) (l : Bool) (k : Except Err Unit → IT env α) :
      Turn L T s s (.op (S := env) (.write ms l) k) inn (k (.ok ())) inn ms
  | read {inn} (m : Bytes) (k : Except Err Bytes → IT env α) :
      Turn L T s s (.op (S := env) .read k) (m :: inn) (k (.ok m)) inn []

/-- A connection in a process with the time objects `T`, which may be in any state. -/
def anyTime (L : Lib) (T : TimeObj σ) : Link (AnyTime α β) where
  stepC x y := ∃ s s' out, Turn L T s s' x.a x.ba y.a y.ba out ∧ y.b = x.b ∧ y.ab = x.ab ++ out
  stepS x y := ∃ s s' out, Turn L T s s' x.b x.ab y.b y.ab out ∧ y.a = x.a ∧ y.ba = x.ba ++ out
  doneC x := ∃ r, x.a = .ret r
  doneS x := ∃ r, x.b = .ret r

/-- All connections of a process and the state of the time objects. -/
structure Process (σ α β : Type) where
  conns : List (AnyTime α β)
  time : σ

/-- One side of one of the connections performs its next operation. -/
inductive Process.Step (L : Lib) (T : TimeObj σ) : Process σ α β → Process σ α β → Prop
  | client {P : Process σ α β} {i : Nat} {x : AnyTime α β} {s' a' ba' out} : P.conns[i]? = some x →
      Turn L T P.time s' x.a x.ba a' ba' out → Step L T P ⟨P.conns.set i ⟨a', x.b, x.ab ++ out, ba'⟩, s'⟩
  | server {P : Process σ α β} {i : Nat} {x : AnyTime α β} {s' b' ab' out} : P.conns[i]? = some x →
      Turn L T P.time s' x.b x.ab b' ab' out → Step L T P ⟨P.conns.set i ⟨x.a, b', ab', x.ba ++ out⟩, s'⟩

/-- A schedule of all threads leads from one configuration to another. -/
inductive Process.Reach (L : Lib) (T : TimeObj σ) : Process σ α β → Process σ α β → Prop
  | refl (P) : Reach L T P P
  | step {P Q R} : Reach L T P Q → Process.Step L T Q R → Reach L T P R

/-- Nothing more can happen. -/
def Process.Stuck (L : Lib) (T : TimeObj σ) (P : Process σ α β) : Prop := ∀ Q, ¬ Process.Step L T P Q

/-- There is no infinite schedule. -/
def Process.Terminates (L : Lib) (T : TimeObj σ) (P : Process σ α β) : Prop := Acc (fun Q P => Process.Step L T P Q) P

end Salt.Spec
