import Verif.Spec.Ed25519
import Verif.Lemmas.Prime
import Verif.Lemmas.Edwards

/-! The group of points of Ed25519. -/

namespace Salt.Spec

open Salt.Edwards

/-- A number that is not a square, by Euler's criterion. -/
theorem not_square (a : Fp) (e : Nat) (he : 2 * e = p25519 - 1) (ha : a ^ e ≠ 1) (h0 : a ≠ 0) (s : Fp) : s * s ≠ a := by
  intro h
  apply ha
  rw [← h, ← pow_two, ← pow_mul, he]
  apply ZMod.pow_card_sub_one_eq_one
  intro hs
  rw [hs, mul_zero] at h
  exact h0 h.symm

theorem edD_num : edD = 37095705934669439343138083508754565189542113879843219016388785533085940283555 := by
  rw [edD, ← div_eq_mul_inv, div_eq_iff (by decide +kernel)]
  decide +kernel

/-- A square root of -1. -/
def sqrtM1 : Fp := 19681161376707505956807079304988542015446066515923890162744021073123829784752

theorem sqrtM1_sq : sqrtM1 * sqrtM1 = -1 := by decide +kernel

theorem edD_not_square (s : Fp) : s * s ≠ edD := by
  rw [edD_num]
  refine not_square _ ((p25519 - 1) / 2) (by decide +kernel) ?_ (by decide +kernel) s
  rw [← fastPow_eq 256 _ _ (by decide +kernel)]
  decide +kernel

/-- The curve of Ed25519. -/
def curve : Curve Fp := ⟨edD, sqrtM1, sqrtM1_sq, edD_not_square⟩

/-- A point on the curve. -/
abbrev EdPt := Pt curve

theorem on_iff (P : Fp × Fp) : OnCurve P ↔ On curve.d P := Iff.rfl

theorem edAdd_eq (P Q : Fp × Fp) : edAdd P Q = eadd curve.d P Q := rfl

theorem edMul_eq (n : Nat) (P : EdPt) : edMul n P.1 = (n • P).1 := by
  induction n with
  | zero => rw [zero_nsmul]; rfl
  | succ n ih => rw [edMul, ih, succ_nsmul', edAdd_eq]; rfl

theorem base_on : OnCurve edBase := by
  unfold OnCurve
  rw [edD_num]
  decide +kernel

/-- The base point. -/
def basePt : EdPt := ⟨edBase, base_on⟩

end Salt.Spec
