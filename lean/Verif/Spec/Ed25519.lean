import Verif.Spec.X25519
import Verif.Spec.Sha512

/-!
# Specification: Ed25519 (RFC 8032, section 5.1)

Independent of the model.  Points are in affine coordinates, and multiples of a point are repeated sums.
-/

namespace Salt.Spec

/-- The order of the base point. -/
def orderL : Nat := 2 ^ 252 + 27742317777372353535851937790883648493

/-- The constant d of the curve, -121665/121666. -/
def edD : Fp := -121665 * 121666⁻¹

/-- A point (x, y) is on the curve: -x² + y² = 1 + d x² y². -/
def OnCurve (P : Fp × Fp) : Prop := -P.1 ^ 2 + P.2 ^ 2 = 1 + edD * P.1 ^ 2 * P.2 ^ 2

/-- The sum of two points (section 5.1.4). -/
def edAdd (P Q : Fp × Fp) : Fp × Fp :=
  ((P.1 * Q.2 + Q.1 * P.2) * (1 + edD * P.1 * Q.1 * P.2 * Q.2)⁻¹, (P.2 * Q.2 + P.1 * Q.1) * (1 - edD * P.1 * Q.1 * P.2 * Q.2)⁻¹)

/-- [n]P, the sum of `n` times the point P. -/
def edMul : Nat → Fp × Fp → Fp × Fp
  | 0, _ => (0, 1)
  | n + 1, P => edAdd P (edMul n P)

/-- The base point B. -/
def edBase : Fp × Fp :=
  (15112221349535400772501151409588531511454012693041857206046113283949847762202,
   46316835694926478169428394003475163141307993866256225615783033603165251855960)

/-- The encoding of a point (section 5.1.2): y in 32 bytes, little end first, with the lowest bit of x in the highest
bit. -/
def edEncode (P : Fp × Fp) : Bytes := digits 32 (P.2.val + 2 ^ 255 * (P.1.val % 2))

/-- The secret scalar: the clamped first half of the hash of the secret key (section 5.1.5). -/
def edScalar (seed : Bytes) : Nat := decodeScalar ((sha512 seed).take 32)

/-- The public key (section 5.1.5). -/
def edPublic (seed : Bytes) : Bytes := edEncode (edMul (edScalar seed) edBase)

/-- The signature (section 5.1.6), of 64 bytes; `pk` is the public key. -/
def edSign (seed pk m : Bytes) : Bytes :=
  let r := num (sha512 ((sha512 seed).drop 32 ++ m))
  let R := edEncode (edMul r edBase)
  let k := num (sha512 (R ++ pk ++ m))
  R ++ digits 32 ((r + k * edScalar seed) % orderL)

/-- The signature `sig` of `m` is valid (section 5.1.7): the public key and the first half of the signature are
encodings of points A and R, the second half encodes a number S below the order, and [c][S]B = [c]R + [c][k]A.  The RFC
has c = 8 and allows the stronger test with c = 1. -/
def EdValid (c : Nat) (pk m sig : Bytes) : Prop :=
  sig.length = 64 ∧ num (sig.drop 32) < orderL ∧
  ∃ A R : Fp × Fp, OnCurve A ∧ edEncode A = pk ∧ OnCurve R ∧ edEncode R = sig.take 32 ∧
    edMul c (edMul (num (sig.drop 32)) edBase) =
      edAdd (edMul c R) (edMul c (edMul (num (sha512 (sig.take 32 ++ pk ++ m))) A))

/-- A lenient way of decoding a point: y is taken modulo p, and the highest bit is ignored if x is 0.  RFC 8032 (section
5.1.3) has decoding fail in both cases; a point A that `pk` decodes to in its sense is one with `edEncode A = pk`. -/
def EdDecodes (pk : Bytes) (A : Fp × Fp) : Prop :=
  OnCurve A ∧ A.2 = decodeU pk ∧ (A.1 = 0 ∨ A.1.val % 2 = num pk / 2 ^ 255)

/-- A weaker condition than `EdValid 1`: the public key is decoded leniently, S may be any number of 32 bytes, and k is
taken modulo the order of the base point. -/
def EdLenient (pk m sig : Bytes) : Prop :=
  sig.length = 64 ∧
  ∃ A R : Fp × Fp, EdDecodes pk A ∧ OnCurve R ∧ edEncode R = sig.take 32 ∧
    edMul (num (sig.drop 32)) edBase = edAdd R (edMul (num (sha512 (sig.take 32 ++ pk ++ m)) % orderL) A)

end Salt.Spec
