import Verif.Model.Basic
import Mathlib.Data.Int.Bitwise

/-!
# Typed integers (saltchannel/saltlib/pure_pynacl/__init__.py and the classes of tweetnacl.py:12-53)

A value is a Python `int` together with its class.  Simplification: Python before 3.3 is left out
(`lt_py3`, `lt_py33` are false).  The width of `u32` is that of C's `unsigned long` on the platform
(`array('L').itemsize*8`, tweetnacl.py:25): 64 bits on Linux and macOS, 32 bits on Windows; it is part of
the class here, and theorems are about every width of at least 32.
-/

namespace Salt.Tweet

/-- The classes of integers: `u8`, `u32`, `u64`, `i64` (tweetnacl.py:12-53), `Int` (`cint` here) and the plain `int`
(pure_pynacl/__init__.py:12, 27-52). -/
inductive Ty
  | u8 | u32 (w : Nat) | u64 | cint | i64 | plain
  deriving DecidableEq, Repr

/-- `TypeEnum`, pure_pynacl/__init__.py:15-24. -/
def Ty.order : Ty → Nat
  | .u8 => 1
  | .u32 _ => 2
  | .u64 => 3
  | .cint => 5
  | .i64 => 7
  | .plain => 11

/-- The number of one bits in `mask` (pure_pynacl/__init__.py:32; tweetnacl.py:15, 26, 37, 48); 0 for the plain `int`,
which has no mask. -/
def Ty.bits : Ty → Nat
  | .u8 => 8
  | .u32 w => w
  | .u64 => 64
  | .cint => 31
  | .i64 => 63
  | .plain => 0

/-- `signed`, pure_pynacl/__init__.py:33; tweetnacl.py:16, 27, 38, 49. -/
def Ty.signed : Ty → Bool
  | .u8 => false
  | .u32 _ => false
  | .u64 => false
  | _ => true

/-- An integer and its class. -/
structure V where
  ty : Ty
  v : Int
  deriving DecidableEq, Repr

/-- `Int.__new__`, pure_pynacl/__init__.py:42-52, of the class `t`; `x & mask` of a nonnegative `x` is the remainder
modulo a power of two.  Of an unsigned class the absolute value of a negative number is taken. -/
def cast (t : Ty) (x : Int) : V :=
  match t with
  | .plain => ⟨.plain, x⟩
  | t =>
    if x < 0 then
      let residue := (-x) % 2 ^ t.bits
      ⟨t, if t.signed then -residue else residue⟩
    else ⟨t, x % 2 ^ t.bits⟩

/-- `__promote_type`, pure_pynacl/__init__.py:54-65, together with the rule that an operation on two plain
integers gives a plain one. -/
def promote (a b : Ty) (result : Int) : Ty :=
  if result < 0 ∧ a.order < 5 ∧ b.order < 5 then .cint
  else if a.order > b.order then a else b

/-- `__typed`, pure_pynacl/__init__.py:79-93. -/
def typed (oper : Int → Int → Int) (a b : V) : V :=
  cast (promote a.ty b.ty (oper a.v b.v)) (oper a.v b.v)

/-- `__unary_typed(__neg__)`, pure_pynacl/__init__.py:67-77, 141. -/
instance : Neg V := ⟨fun a => cast a.ty (-a.v)⟩
/-- `__add__` and `__radd__`, pure_pynacl/__init__.py:142-143. -/
instance : Add V := ⟨typed (· + ·)⟩
/-- `__sub__` and `__rsub__`, pure_pynacl/__init__.py:144-145. -/
instance : Sub V := ⟨typed (· - ·)⟩
/-- `__mul__` and `__rmul__`, pure_pynacl/__init__.py:148-149. -/
instance : Mul V := ⟨typed (· * ·)⟩
/-- `__and__` and `__rand__`, pure_pynacl/__init__.py:126-127. -/
instance : AndOp V := ⟨typed Int.land⟩
/-- `__or__` and `__ror__`, pure_pynacl/__init__.py:128-129. -/
instance : OrOp V := ⟨typed Int.lor⟩
/-- `__xor__` and `__rxor__`, pure_pynacl/__init__.py:130-131. -/
instance : XorOp V := ⟨typed Int.xor⟩
/-- `__lshift__`, pure_pynacl/__init__.py:95-105, 122 (the shift count is always a plain integer). -/
instance : HShiftLeft V Nat V := ⟨fun a k => cast a.ty (a.v * 2 ^ k)⟩
/-- `__rshift__`, pure_pynacl/__init__.py:95-105, 124; it rounds down. -/
instance : HShiftRight V Nat V := ⟨fun a k => cast a.ty (a.v / 2 ^ k)⟩

/-- `__invert__`, pure_pynacl/__init__.py:107-119, 132. -/
def V.inv (a : V) : V :=
  if a.ty.signed then cast a.ty (Int.lnot a.v)
  else cast a.ty (Int.xor a.v (2 ^ a.ty.bits - 1))

/-- A plain integer of the code. -/
instance (n : Nat) : OfNat V n := ⟨⟨.plain, n⟩⟩

/-- `u8(x)`, tweetnacl.py:12-20. -/
def u8 (x : V) : V := cast .u8 x.v
/-- `u32(x)`, tweetnacl.py:23-31. -/
def u32 (w : Nat) (x : V) : V := cast (.u32 w) x.v
/-- `u64(x)`, tweetnacl.py:34-42. -/
def u64 (x : V) : V := cast .u64 x.v
/-- `i64(x)`, tweetnacl.py:45-53. -/
def i64 (x : V) : V := cast .i64 x.v

/-- `x[i]`, where an index out of range gives 0; see `Chk.get` (Arrays.lean) for the item as in Python. -/
def at' (x : List V) (i : Nat) : V := x.getD i 0

/-- `IntArray(typ, size=n)`, pure_pynacl/__init__.py:159-179. -/
def intArray (t : Ty) (n : Nat) : List V := List.replicate n ⟨t, 0⟩

/-- `IntArray(typ, init=l)` of a list of the right size, pure_pynacl/__init__.py:159-179. -/
def intArrayOf (t : Ty) (l : List Int) : List V := l.map (cast t)

/-- The items of a `bytes` object. -/
def ofBytes (b : Bytes) : List V := b.map fun x => ⟨.plain, (x.toNat : Int)⟩

/-- `bytes(x)` of a list of integers. -/
def toBytes (x : List V) : Except Err Bytes :=
  if x.all (fun a => 0 ≤ a.v ∧ a.v < 256) then .ok (x.map fun a => UInt8.ofNat a.v.toNat) else .error .valueError

/-- `for i in range(n): s = body(i, s)`. -/
def forRange {α : Type} (n : Nat) (s : α) (body : Nat → α → α) : α := (List.range n).foldl (fun s i => body i s) s

end Salt.Tweet
