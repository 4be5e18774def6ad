import Verif.Spec.SockNet

/-!
# Byte streams with finite buffers

In `SockNet` a `sendall` never waits.  Real sockets hold a limited number of bytes; `sendall` waits while the buffers
are full, and goes on as the other side receives.
-/

namespace Salt.Spec

open Salt

namespace SockNet

variable {α β : Type}

/-- One of the two makes some progress; at most `cap` bytes are in flight in each direction.  A `sendall` hands over its
data in non-empty parts, as there is room, and returns when everything has been handed over. -/
inductive StepB (cap : Nat) : SockNet α β → SockNet α β → Prop
  | aPut {b ab ba} (c d : Bytes) (k : Except Err Unit → IT sock α) : c ≠ [] → ab.length + c.length ≤ cap →
      StepB cap ⟨.op (S := sock) (.sendall (c ++ d)) k, b, ab, ba⟩ ⟨.op (S := sock) (.sendall d) k, b, ab ++ c, ba⟩
  | aDone {b ab ba} (k : Except Err Unit → IT sock α) :
      StepB cap ⟨.op (S := sock) (.sendall []) k, b, ab, ba⟩ ⟨k (.ok ()), b, ab, ba⟩
  | aRecv {b ab rest} (n : Nat) (chunk : Bytes) (k : Except Err Bytes → IT sock α) : chunk ≠ [] → chunk.length ≤ n →
      StepB cap ⟨.op (S := sock) (.recv n) k, b, ab, chunk ++ rest⟩ ⟨k (.ok chunk), b, ab, rest⟩
  | bPut {a ab ba} (c d : Bytes) (k : Except Err Unit → IT sock β) : c ≠ [] → ba.length + c.length ≤ cap →
      StepB cap ⟨a, .op (S := sock) (.sendall (c ++ d)) k, ab, ba⟩ ⟨a, .op (S := sock) (.sendall d) k, ab, ba ++ c⟩
  | bDone {a ab ba} (k : Except Err Unit → IT sock β) :
      StepB cap ⟨a, .op (S := sock) (.sendall []) k, ab, ba⟩ ⟨a, k (.ok ()), ab, ba⟩
  | bRecv {a rest ba} (n : Nat) (chunk : Bytes) (k : Except Err Bytes → IT sock β) : chunk ≠ [] → chunk.length ≤ n →
      StepB cap ⟨a, .op (S := sock) (.recv n) k, chunk ++ rest, ba⟩ ⟨a, k (.ok chunk), rest, ba⟩

/-- Some schedule and segmentation leads from one configuration to the other. -/
inductive ReachB (cap : Nat) : SockNet α β → SockNet α β → Prop
  | refl (x) : ReachB cap x x
  | step {x y z} : ReachB cap x y → StepB cap y z → ReachB cap x z

/-- Nothing more can happen. -/
def StuckB (cap : Nat) (x : SockNet α β) : Prop := ∀ y, ¬ StepB cap x y

/-- There is no infinite schedule. -/
def TerminatesB (cap : Nat) (x : SockNet α β) : Prop := Acc (fun y x => StepB cap x y) x

end SockNet

/-- The network with buffers of `cap` bytes ends, whatever the schedule and the segmentation, and always as the message
network ends in `y`. -/
def EndsLikeB {α β : Type} (cap : Nat) (y : Net α β) (X : SockNet α β) : Prop :=
  SockNet.TerminatesB cap X ∧ (∃ Y, SockNet.ReachB cap X Y ∧ SockNet.StuckB cap Y) ∧
  ∀ Y, SockNet.ReachB cap X Y → SockNet.StuckB cap Y → SockEnd y.a Y.a ∧ SockEnd y.b Y.b

/-- The program is about to write. -/
def Writing {α : Type} (p : IT appSig α) : Prop := ∃ ms l k, p = .op (S := appSig) (.write ms l) k

/-- The program is in a `sendall`. -/
def Sending {α : Type} (p : IT sock α) : Prop := ∃ d k, p = .op (S := sock) (.sendall d) k

/-- The two take turns, whatever the schedule: who is about to write has read all that the other one has written, and
the other one is not about to write. -/
def Net.HalfDuplex {α β : Type} (x : Net α β) : Prop := ∀ n z, Net.Run n x z →
  (Writing z.a → z.ba = [] ∧ ¬ Writing z.b) ∧ (Writing z.b → z.ab = [] ∧ ¬ Writing z.a)

end Salt.Spec
