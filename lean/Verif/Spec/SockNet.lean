import Verif.Spec.Net
import Verif.Spec.Framing

/-!
# Two programs joined by two byte streams

The links are now streams of bytes as TCP provides them: nothing is lost or reordered, but `recv` may return any
non-empty part of what has been sent and not yet received.  No end of file: neither side closes its socket (the
package never does).
-/

namespace Salt.Spec

open Salt

/-- Two programs on sockets and the bytes in flight between them. -/
structure SockNet (α β : Type) where
  a : IT sock α
  b : IT sock β
  /-- from `a` to `b` -/
  ab : Bytes
  /-- from `b` to `a` -/
  ba : Bytes

namespace SockNet

variable {α β : Type}

/-- One of the two performs its next socket call: `sendall` adds to the stream, `recv n` returns some of the bytes
in flight, at least one and at most `n`; it waits while there are none. -/
inductive Step : SockNet α β → SockNet α β → Prop
  | aSend {b ab ba} (d : Bytes) (k : Except Err Unit → IT sock α) :
      Step ⟨.op (S := sock) (.sendall d) k, b, ab, ba⟩ ⟨k (.ok ()), b, ab ++ d, ba⟩
  | aRecv {b ab rest} (n : Nat) (chunk : Bytes) (k : Except Err Bytes → IT sock α) : chunk ≠ [] → chunk.length ≤ n →
      Step ⟨.op (S := sock) (.recv n) k, b, ab, chunk ++ rest⟩ ⟨k (.ok chunk), b, ab, rest⟩
  | bSend {a ab ba} (d : Bytes) (k : Except Err Unit → IT sock β) :
      Step ⟨a, .op (S := sock) (.sendall d) k, ab, ba⟩ ⟨a, k (.ok ()), ab, ba ++ d⟩
  | bRecv {a rest ba} (n : Nat) (chunk : Bytes) (k : Except Err Bytes → IT sock β) : chunk ≠ [] → chunk.length ≤ n →
      Step ⟨a, .op (S := sock) (.recv n) k, chunk ++ rest, ba⟩ ⟨a, k (.ok chunk), rest, ba⟩

/-- Some schedule and segmentation leads from one configuration to the other. -/
inductive Reach : SockNet α β → SockNet α β → Prop
  | refl (x) : Reach x x
  | step {x y z} : Reach x y → Step y z → Reach x z

/-- Nothing more can happen. -/
def Stuck (x : SockNet α β) : Prop := ∀ y, ¬ Step x y

/-- The initial configuration. -/
def start (a : IT sock α) (b : IT sock β) : SockNet α β := ⟨a, b, [], []⟩

/-- The same network seen from the other side. -/
def swap (x : SockNet α β) : SockNet β α := ⟨x.b, x.a, x.ba, x.ab⟩

/-- There is no infinite schedule. -/
def Terminates (x : SockNet α β) : Prop := Acc (fun y x => Step x y) x

end SockNet

/-- A program using a `SocketChannel`. -/
def onSocket {β : Type} : IT appSig β → IT sock β
  | .ret b => .ret b
  | .op .read k => (SocketChannel.readSync ()).bind fun (r, _) => onSocket (k r)
  | .op (.write ms _) k => (SocketChannel.writeSync ms ()).bind fun (r, _) => onSocket (k r)

/-- How a side of a message network and the same side of the network of byte streams end: both return the same
result, or both wait for data. -/
inductive SockEnd {α : Type} : IT appSig α → IT sock α → Prop
  | ret (x) : SockEnd (.ret x) (.ret x)
  | wait (k n k') : SockEnd (.op (S := appSig) .read k) (.op (S := sock) (.recv n) k')

/-- The messages of a call are shorter than `2^31` bytes. -/
def Fits (ms : List Bytes) : Prop := ∀ m ∈ ms, m.length < 2 ^ 31

/-- The messages of a call, with two bytes added for each, take less than `2^31 - 26` bytes together: the packets a
session makes of them are shorter than `2^31` bytes. -/
def CallFits (ms : List Bytes) : Prop := (ms.map fun m => m.length + 2).sum ≤ 2 ^ 31 - 27

/-- All messages the program may write, whatever it reads, are shorter than `2^31` bytes. -/
def ShortWritesP {β : Type} : IT appSig β → Prop
  | .ret _ => True
  | .op .read k => ∀ r, ShortWritesP (k r)
  | .op (.write ms _) k => (∀ m ∈ ms, m.length < 2 ^ 31) ∧ ∀ r, ShortWritesP (k r)

/-- The messages of each write call, with two bytes added for each, take at most `n` bytes together. -/
def CallsWithin {β : Type} (n : Nat) : IT appSig β → Prop
  | .ret _ => True
  | .op .read k => ∀ r, CallsWithin n (k r)
  | .op (.write ms _) k => (ms.map fun m => m.length + 2).sum ≤ n ∧ ∀ r, CallsWithin n (k r)

/-- Encryption adds at most 16 bytes. -/
def BoxSize (L : Lib) : Prop := ∀ m n k c, L.box m n k = .ok c → c.length ≤ m.length + 16

/-- The byte-stream network ends, whatever the schedule and the segmentation, and always as the message network
ends in `y`. -/
def EndsLike {α β : Type} (y : Net α β) (X : SockNet α β) : Prop :=
  SockNet.Terminates X ∧ (∃ Y, SockNet.Reach X Y ∧ SockNet.Stuck Y) ∧
  ∀ Y, SockNet.Reach X Y → SockNet.Stuck Y → SockEnd y.a Y.a ∧ SockEnd y.b Y.b

end Salt.Spec
