import Verif.Spec.Broken
import Verif.Model.Socket

/-!
# asyncio streams whose connection breaks
-/

namespace Salt.Spec

open Salt

/-- A program using an `AsyncioChannel`. -/
def onAsyncio {β : Type} : IT appSig β → IT stream β
  | .ret b => .ret b
  | .op .read k => (AsyncioChannel.read ()).bind fun (r, _) => onAsyncio (k r)
  | .op (.write ms _) k => (AsyncioChannel.write ms ()).bind fun (r, _) => onAsyncio (k r)

/-- Two programs on streams, the bytes in flight in both directions, and whether the connection still works. -/
structure BreakStream (α β : Type) where
  a : IT stream α
  b : IT stream β
  ab : Bytes
  ba : Bytes
  alive : Bool

namespace BreakStream

variable {α β : Type}

/-- The same seen from the other side. -/
def swap (x : BreakStream α β) : BreakStream β α := ⟨x.b, x.a, x.ba, x.ab, x.alive⟩

/-- The first program goes on. `StreamWriter.write` never raises; on a broken connection its bytes are lost. `drain` may return at
any time, and on a broken connection it may raise. `readexactly` raises `ValueError` if the number is negative;
it returns as many bytes as asked for when they have arrived. If they have not, and the connection is broken, it
raises `IncompleteReadError`; or it raises at once what has broken the connection (CPython's asyncio/streams.py). In both
cases the bytes that are left are never seen. `E` are the exceptions that a broken connection raises. -/
inductive Half (E : Err → Prop) : BreakStream α β → BreakStream α β → Prop
  | write {b ab ba} (d : Bytes) (k : Except Err Unit → IT stream α) :
      Half E ⟨.op (S := stream) (.write d) k, b, ab, ba, true⟩ ⟨k (.ok ()), b, ab ++ d, ba, true⟩
  | lost {b ab ba} (d : Bytes) (k : Except Err Unit → IT stream α) :
      Half E ⟨.op (S := stream) (.write d) k, b, ab, ba, false⟩ ⟨k (.ok ()), b, ab, ba, false⟩
  | drain {b ab ba v} (k : Except Err Unit → IT stream α) :
      Half E ⟨.op (S := stream) .drain k, b, ab, ba, v⟩ ⟨k (.ok ()), b, ab, ba, v⟩
  | raise {b ab ba} (k : Except Err Unit → IT stream α) (e : Err) : E e →
      Half E ⟨.op (S := stream) .drain k, b, ab, ba, false⟩ ⟨k (.error e), b, ab, ba, false⟩
  | value {b ab ba v} (n : Int) (k : Except Err Bytes → IT stream α) : n < 0 →
      Half E ⟨.op (S := stream) (.readexactly n) k, b, ab, ba, v⟩ ⟨k (.error .valueError), b, ab, ba, v⟩
  | read {b ab rest v} (n : Int) (chunk : Bytes) (k : Except Err Bytes → IT stream α) : (chunk.length : Int) = n →
      Half E ⟨.op (S := stream) (.readexactly n) k, b, ab, chunk ++ rest, v⟩ ⟨k (.ok chunk), b, ab, rest, v⟩
  | eof {b ab ba} (n : Int) (k : Except Err Bytes → IT stream α) : (ba.length : Int) < n →
      Half E ⟨.op (S := stream) (.readexactly n) k, b, ab, ba, false⟩ ⟨k (.error .incompleteReadError), b, ab, [], false⟩
  | reset {b ab ba} (n : Int) (k : Except Err Bytes → IT stream α) (e : Err) : 0 ≤ n → E e →
      Half E ⟨.op (S := stream) (.readexactly n) k, b, ab, ba, false⟩ ⟨k (.error e), b, ab, [], false⟩

/-- One of the two goes on, or the connection breaks: in each direction some of the bytes in flight still arrive, the others are
lost.  Simplifications: the number of bytes that a `StreamReader` buffers before it stops receiving is not bounded, and `drain` does
not wait for the other side (C118 and C120 treat this); a `readexactly` that raises because of the break counts as the last
moment at which bytes arrive. -/
inductive Step (E : Err → Prop) : BreakStream α β → BreakStream α β → Prop
  | a {x y} : Half E x y → Step E x y
  | b {x y : BreakStream α β} : Half E x.swap y.swap → Step E x y
  | cut {a b ab ba} (i j : Nat) : Step E ⟨a, b, ab, ba, true⟩ ⟨a, b, ab.take i, ba.take j, false⟩

/-- Some schedule leads from one configuration to the other. -/
inductive Reach (E : Err → Prop) : BreakStream α β → BreakStream α β → Prop
  | refl (x) : Reach E x x
  | step {x y z} : Reach E x y → Step E y z → Reach E x z

/-- Nothing more can happen. -/
def Stuck (E : Err → Prop) (x : BreakStream α β) : Prop := ∀ y, ¬ Step E x y

/-- There is no infinite schedule. -/
def Terminates (E : Err → Prop) (x : BreakStream α β) : Prop := Acc (fun y x => Step E x y) x

/-- The initial configuration. -/
def start (a : IT stream α) (b : IT stream β) : BreakStream α β := ⟨a, b, [], [], true⟩

end BreakStream

end Salt.Spec
