import Verif.Spec.Net

/-!
# Connections that break

Two programs joined by two links of messages, as in `Net`, but at any moment the connection may break.
-/

namespace Salt.Spec

open Salt

/-- Two programs, the messages in flight, and whether the connection still works. -/
structure BreakNet (α β : Type) where
  net : Net α β
  alive : Bool
  /-- the first program is within a write, whose messages are on their way -/
  inA : Bool
  /-- the second program is within a write, whose messages are on their way -/
  inB : Bool

namespace BreakNet

variable {α β : Type}

/-- The same seen from the other side. -/
def swap (x : BreakNet α β) : BreakNet β α := ⟨⟨x.net.b, x.net.a, x.net.ba, x.net.ab⟩, x.alive, x.inB, x.inA⟩

/-- The first program goes on. A write on a working connection hands over its messages and returns, but the connection may break
in between, and then it may raise. On a broken connection a write sends nothing, and returns or raises. A read returns the next
message; on a broken connection it may also raise. `E` are the exceptions that are raised. -/
inductive Half (E : Err → Prop) : BreakNet α β → BreakNet α β → Prop
  | put {b ab ba w} (ms : List Bytes) (l : Bool) (k : Except Err Unit → IT appSig α) :
      Half E ⟨⟨.op (S := appSig) (.write ms l) k, b, ab, ba⟩, true, false, w⟩
        ⟨⟨.op (S := appSig) (.write ms l) k, b, ab ++ ms, ba⟩, true, true, w⟩
  | done {b ab ba v w} (ms : List Bytes) (l : Bool) (k : Except Err Unit → IT appSig α) :
      Half E ⟨⟨.op (S := appSig) (.write ms l) k, b, ab, ba⟩, v, true, w⟩ ⟨⟨k (.ok ()), b, ab, ba⟩, v, false, w⟩
  | lost {b ab ba w} (ms : List Bytes) (l : Bool) (k : Except Err Unit → IT appSig α) :
      Half E ⟨⟨.op (S := appSig) (.write ms l) k, b, ab, ba⟩, false, false, w⟩ ⟨⟨k (.ok ()), b, ab, ba⟩, false, false, w⟩
  | raise {b ab ba u w} (ms : List Bytes) (l : Bool) (k : Except Err Unit → IT appSig α) (e : Err) : E e →
      Half E ⟨⟨.op (S := appSig) (.write ms l) k, b, ab, ba⟩, false, u, w⟩ ⟨⟨k (.error e), b, ab, ba⟩, false, false, w⟩
  | read {b ab ba v w} (m : Bytes) (k : Except Err Bytes → IT appSig α) :
      Half E ⟨⟨.op (S := appSig) .read k, b, ab, m :: ba⟩, v, false, w⟩ ⟨⟨k (.ok m), b, ab, ba⟩, v, false, w⟩
  | fail {b ab ba w} (k : Except Err Bytes → IT appSig α) (e : Err) : E e →
      Half E ⟨⟨.op (S := appSig) .read k, b, ab, ba⟩, false, false, w⟩ ⟨⟨k (.error e), b, ab, ba⟩, false, false, w⟩

/-- One of the two goes on, or the connection breaks: on each link some of the messages in flight still arrive, the oldest ones,
and the others are lost.  Simplifications: a message of which only a part has arrived counts as lost (C16). The messages of a
write are in flight all at once; that some of them have not yet been handed over when the connection breaks is covered by
their being lost. -/
inductive Step (E : Err → Prop) : BreakNet α β → BreakNet α β → Prop
  | a {x y} : Half E x y → Step E x y
  | b {x y : BreakNet α β} : Half E x.swap y.swap → Step E x y
  | cut {a b ab ba u w} (i j : Nat) : Step E ⟨⟨a, b, ab, ba⟩, true, u, w⟩ ⟨⟨a, b, ab.take i, ba.take j⟩, false, u, w⟩

/-- Some schedule leads from one configuration to the other. -/
inductive Reach (E : Err → Prop) : BreakNet α β → BreakNet α β → Prop
  | refl (x) : Reach E x x
  | step {x y z} : Step E x y → Reach E y z → Reach E x z

/-- Nothing more can happen. -/
def Stuck (E : Err → Prop) (x : BreakNet α β) : Prop := ∀ y, ¬ Step E x y

/-- There is no infinite schedule. -/
def Terminates (E : Err → Prop) (x : BreakNet α β) : Prop := Acc (fun y x => Step E x y) x

/-- The initial configuration. -/
def start (a : IT appSig α) (b : IT appSig β) : BreakNet α β := ⟨Net.start a b, true, false, false⟩

end BreakNet

/-- The messages of the write calls among the calls of a program, whether they have raised or not. -/
def sentIn : List (Ev appSig) → List Bytes
  | [] => []
  | ⟨.write ms _, _⟩ :: h => ms ++ sentIn h
  | _ :: h => sentIn h

/-- The messages that its read calls have returned. -/
def gotIn : List (Ev appSig) → List Bytes
  | [] => []
  | ⟨.read, .ok m⟩ :: h => m :: gotIn h
  | _ :: h => gotIn h

/-- The calls that have raised an exception have raised one of `E`. -/
def FailsWith (E : Err → Prop) (h : List (Ev appSig)) : Prop := ∀ ev ∈ h, ∀ e, ev.res = .error e → E e

/-- How a side ends: `handshake()` has raised an exception of `E`, and the program has not been run; or the program
`p` has made the calls `h` and has returned. -/
def SideEnd (E : Err → Prop) {α : Type} (p : IT appSig α) (r : Except Err α) (h : List (Ev appSig)) : Prop :=
  (h = [] ∧ ∃ e, E e ∧ r = .error e) ∨ ∃ a, r = .ok a ∧ Exec p h a

end Salt.Spec
