import Verif.Spec.Broken
import Verif.Spec.SockNet

/-!
# TCP connections that break
-/

namespace Salt.Spec

open Salt

/-- Two programs on sockets, the bytes in flight, and whether the connection still works. -/
structure BreakSock (α β : Type) where
  net : SockNet α β
  alive : Bool
  /-- the first program is within a `sendall`, whose bytes are on their way -/
  inA : Bool
  /-- the second program is within a `sendall`, whose bytes are on their way -/
  inB : Bool

namespace BreakSock

variable {α β : Type}

/-- The same seen from the other side. -/
def swap (x : BreakSock α β) : BreakSock β α := ⟨x.net.swap, x.alive, x.inB, x.inA⟩

/-- The first program goes on. A `sendall` on a working connection hands over its bytes and returns, but the connection may break in
between, and then it may raise. `recv` returns some of the bytes that have arrived. On a broken connection it returns `b''` when
nothing is left, or it raises, and then the rest is gone; `sendall` sends nothing, and returns or raises. Exceptions are
arbitrary. -/
inductive Half : BreakSock α β → BreakSock α β → Prop
  | put {b ab ba w} (d : Bytes) (k : Except Err Unit → IT sock α) :
      Half ⟨⟨.op (S := sock) (.sendall d) k, b, ab, ba⟩, true, false, w⟩
        ⟨⟨.op (S := sock) (.sendall d) k, b, ab ++ d, ba⟩, true, true, w⟩
  | done {b ab ba v w} (d : Bytes) (k : Except Err Unit → IT sock α) :
      Half ⟨⟨.op (S := sock) (.sendall d) k, b, ab, ba⟩, v, true, w⟩ ⟨⟨k (.ok ()), b, ab, ba⟩, v, false, w⟩
  | lost {b ab ba w} (d : Bytes) (k : Except Err Unit → IT sock α) :
      Half ⟨⟨.op (S := sock) (.sendall d) k, b, ab, ba⟩, false, false, w⟩ ⟨⟨k (.ok ()), b, ab, ba⟩, false, false, w⟩
  | raise {b ab ba u w} (d : Bytes) (k : Except Err Unit → IT sock α) (e : Err) :
      Half ⟨⟨.op (S := sock) (.sendall d) k, b, ab, ba⟩, false, u, w⟩ ⟨⟨k (.error e), b, ab, ba⟩, false, false, w⟩
  | recv {b ab rest v w} (n : Nat) (chunk : Bytes) (k : Except Err Bytes → IT sock α) : chunk ≠ [] → chunk.length ≤ n →
      Half ⟨⟨.op (S := sock) (.recv n) k, b, ab, chunk ++ rest⟩, v, false, w⟩ ⟨⟨k (.ok chunk), b, ab, rest⟩, v, false, w⟩
  | eof {b ab w} (n : Nat) (k : Except Err Bytes → IT sock α) :
      Half ⟨⟨.op (S := sock) (.recv n) k, b, ab, []⟩, false, false, w⟩ ⟨⟨k (.ok []), b, ab, []⟩, false, false, w⟩
  | reset {b ab ba w} (n : Nat) (k : Except Err Bytes → IT sock α) (e : Err) :
      Half ⟨⟨.op (S := sock) (.recv n) k, b, ab, ba⟩, false, false, w⟩ ⟨⟨k (.error e), b, ab, []⟩, false, false, w⟩

/-- One of the two goes on, or the connection breaks: in each direction some of the bytes in flight still
arrive, the others are lost. -/
inductive Step : BreakSock α β → BreakSock α β → Prop
  | a {x y} : Half x y → Step x y
  | b {x y : BreakSock α β} : Half x.swap y.swap → Step x y
  | cut {a b ab ba u w} (i j : Nat) : Step ⟨⟨a, b, ab, ba⟩, true, u, w⟩ ⟨⟨a, b, ab.take i, ba.take j⟩, false, u, w⟩

/-- Some schedule leads from one configuration to the other. -/
inductive Reach : BreakSock α β → BreakSock α β → Prop
  | refl (x) : Reach x x
  | step {x y z} : Reach x y → Step y z → Reach x z

/-- Nothing more can happen. -/
def Stuck (x : BreakSock α β) : Prop := ∀ y, ¬ Step x y

/-- There is no infinite schedule. -/
def Terminates (x : BreakSock α β) : Prop := Acc (fun y x => Step x y) x

/-- The initial configuration. -/
def start (a : IT sock α) (b : IT sock β) : BreakSock α β := ⟨SockNet.start a b, true, false, false⟩

end BreakSock

end Salt.Spec
