import Verif.Spec.Salsa20
import Mathlib.Data.ZMod.Basic

/-!
# Specification: X25519 (RFC 7748, sections 4.1, 5 and 6.1)

Independent of the model.
-/

namespace Salt.Spec

/-- The prime 2^255 - 19. -/
def p25519 : Nat := 2 ^ 255 - 19

/-- The integers modulo 2^255 - 19. -/
abbrev Fp := ZMod p25519

/-- `decodeScalar25519`: clear the three lowest bits and the highest bit, set the second highest bit. -/
def decodeScalar (k : Bytes) : Nat :=
  num ((k.set 0 (k.getD 0 0 &&& 248)).set 31 ((k.getD 31 0 &&& 127) ||| 64))

/-- `decodeUCoordinate`: the highest bit is ignored, and non-canonical values are accepted. -/
def decodeU (u : Bytes) : Fp := (num u % 2 ^ 255 : Nat)

/-- `encodeUCoordinate`. -/
def encodeU (u : Fp) : Bytes := digits 32 u.val

/-- The variables of the Montgomery ladder. -/
structure MLadder where
  x2 : Fp
  z2 : Fp
  x3 : Fp
  z3 : Fp
  swap : Bool

/-- `cswap`. -/
def cswap (swap : Bool) (a b : Fp) : Fp × Fp := if swap then (b, a) else (a, b)

/-- One step of the ladder for the bit `kt` of the scalar; `a24` is 121665. -/
def mladderStep (x1 : Fp) (s : MLadder) (kt : Bool) : MLadder :=
  let swap := s.swap ^^ kt
  let (x2, x3) := cswap swap s.x2 s.x3
  let (z2, z3) := cswap swap s.z2 s.z3
  let a := x2 + z2
  let aa := a ^ 2
  let b := x2 - z2
  let bb := b ^ 2
  let e := aa - bb
  let c := x3 + z3
  let d := x3 - z3
  let da := d * a
  let cb := c * b
  { x3 := (da + cb) ^ 2
    z3 := x1 * (da - cb) ^ 2
    x2 := aa * bb
    z2 := e * (aa + 121665 * e)
    swap := kt }

/-- The ladder over the bits `n - 1` to 0 of the scalar. -/
def mladder (x1 : Fp) (k : Nat) : Nat → MLadder → MLadder
  | 0, s => s
  | n + 1, s => mladder x1 k n (mladderStep x1 s (k.testBit n))

/-- The function X25519 of a scalar and a u-coordinate, of 32 bytes each. -/
def x25519 (k u : Bytes) : Bytes :=
  let x1 := decodeU u
  let s := mladder x1 (decodeScalar k) 255 ⟨1, 0, x1, 1, false⟩
  let (x2, _) := cswap s.swap s.x2 s.x3
  let (z2, _) := cswap s.swap s.z2 s.z3
  encodeU (x2 * z2 ^ (p25519 - 2))

/-- The u-coordinate of the base point, RFC 7748, section 6.1. -/
def base9 : Bytes := 9 :: List.replicate 31 0

/-- Powers by squaring of exponents of at most `f` bits, to evaluate the test vectors. -/
def fastPow : Nat → Fp → Nat → Fp
  | 0, _, _ => 1
  | f + 1, x, n => (if n % 2 = 1 then x else 1) * fastPow f (x * x) (n / 2)

theorem fastPow_eq (f : Nat) : ∀ (x : Fp) (n : Nat), n < 2 ^ f → fastPow f x n = x ^ n := by
  induction f with
  | zero =>
    intro x n h
    have : n = 0 := by simpa using h
    subst this
    rw [fastPow, pow_zero]
  | succ f ih =>
    intro x n h
    have h2 : n / 2 < 2 ^ f := by rw [Nat.pow_succ] at h; omega
    rw [fastPow, ih _ _ h2, ← pow_two, ← pow_mul]
    split
    · conv => rhs; rw [show n = 1 + 2 * (n / 2) by omega, pow_add, pow_one]
    · rw [one_mul]
      congr 1
      omega

end Salt.Spec
