import Mathlib.Algebra.Field.Basic
import Mathlib.Algebra.Group.Basic
import Mathlib.Algebra.Group.Defs
import Mathlib.Tactic.FieldSimp
import Mathlib.Tactic.LinearCombination
import Mathlib.Tactic.Ring

/-! The points of a complete twisted Edwards curve -x² + y² = 1 + d x² y² are a commutative group. -/

namespace Salt.Edwards

variable {F : Type} [Field F]

/-- The curve: `d` is not a square and -1 is the square of `i`. -/
structure Curve (F : Type) [Field F] where
  d : F
  i : F
  hi : i * i = -1
  hd : ∀ s : F, s * s ≠ d

/-- The points on the curve. -/
def On (d : F) (P : F × F) : Prop := -P.1 ^ 2 + P.2 ^ 2 = 1 + d * P.1 ^ 2 * P.2 ^ 2

/-- The sum of two points. -/
def eadd (d : F) (P Q : F × F) : F × F :=
  ((P.1 * Q.2 + Q.1 * P.2) * (1 + d * P.1 * Q.1 * P.2 * Q.2)⁻¹, (P.2 * Q.2 + P.1 * Q.1) * (1 - d * P.1 * Q.1 * P.2 * Q.2)⁻¹)

/-- The sum is defined: the argument of Bernstein and Lange. -/
theorem complete (C : Curve F) {x1 y1 x2 y2 : F} (h1 : On C.d (x1, y1)) (h2 : On C.d (x2, y2)) (e : F) (he : e * e = 1) :
    C.d * x1 * x2 * y1 * y2 ≠ e := by
  obtain ⟨d, i, hi, hd⟩ := C
  simp only [On] at h1 h2 ⊢
  intro h
  have e0 : e ≠ 0 := fun h0 => by rw [h0, zero_mul] at he; exact zero_ne_one he
  have n1 : x1 ≠ 0 := fun h0 => e0 (by rw [← h, h0]; ring)
  have m1 : y1 ≠ 0 := fun h0 => e0 (by rw [← h, h0]; ring)
  have n2 : x2 ≠ 0 := fun h0 => e0 (by rw [← h, h0]; ring)
  have m2 : y2 ≠ 0 := fun h0 => e0 (by rw [← h, h0]; ring)
  have hh : (d * x1 * x2 * y1 * y2) ^ 2 = 1 := by rw [h, pow_two, he]
  have key : ∀ s : F, s * s = -1 → (x1 + e * s * y1) ^ 2 = d * (x1 * y1 * (x2 + s * y2)) ^ 2 := by
    intro s hs
    linear_combination (-1 : F) * h1 + d * x1 ^ 2 * y1 ^ 2 * h2 + (e ^ 2 * y1 ^ 2 - d * x1 ^ 2 * y1 ^ 2 * y2 ^ 2) * hs + (- y1 ^ 2) * he + hh + (-2 * s * x1 * y1) * h
  have two : ∀ s : F, s * s = -1 → x2 + s * y2 = 0 := by
    intro s hs
    by_contra hne
    have := key s hs
    apply hd ((x1 + e * s * y1) * (x1 * y1 * (x2 + s * y2))⁻¹)
    have hz : x1 * y1 * (x2 + s * y2) ≠ 0 := mul_ne_zero (mul_ne_zero n1 m1) hne
    field_simp
    linear_combination this
  have a1 := two i hi
  have a2 := two (-i) (by linear_combination hi)
  have hi0 : i ≠ 0 := fun h0 => by rw [h0, mul_zero] at hi; exact one_ne_zero (neg_eq_zero.mp hi.symm)
  by_cases h20 : (2 : F) = 0
  · -- in characteristic 2 every element here would be a square
    have : (1 : F) = -1 := by linear_combination h20
    apply hd ((1 + x1 + y1) * (x1 * y1)⁻¹)
    field_simp
    linear_combination h1 + (x1 ^ 2 + x1 + y1 + x1 * y1 + 1) * h20
  · have : 2 * (i * y2) = 0 := by linear_combination a1 - a2
    rcases mul_eq_zero.mp this with h | h
    · exact h20 h
    · exact (mul_ne_zero hi0 m2) h

variable (C : Curve F)

theorem den_p {P Q : F × F} (h1 : On C.d P) (h2 : On C.d Q) : 1 + C.d * P.1 * Q.1 * P.2 * Q.2 ≠ 0 := by
  intro h
  exact complete C h1 h2 (-1) (by ring) (by linear_combination h)

theorem den_m {P Q : F × F} (h1 : On C.d P) (h2 : On C.d Q) : 1 - C.d * P.1 * Q.1 * P.2 * Q.2 ≠ 0 := by
  intro h
  exact complete C h1 h2 1 (by ring) (by linear_combination -h)

/-- What the sum is, as an equation without division. -/
theorem eadd_iff {P Q : F × F} (h1 : On C.d P) (h2 : On C.d Q) (x y : F) :
    eadd C.d P Q = (x, y) ↔ x * (1 + C.d * P.1 * Q.1 * P.2 * Q.2) = P.1 * Q.2 + Q.1 * P.2 ∧
      y * (1 - C.d * P.1 * Q.1 * P.2 * Q.2) = P.2 * Q.2 + P.1 * Q.1 := by
  have hp := den_p C h1 h2
  have hm := den_m C h1 h2
  rw [eadd, Prod.mk.injEq, mul_inv_eq_iff_eq_mul₀ hp, mul_inv_eq_iff_eq_mul₀ hm]
  constructor
  · rintro ⟨a, b⟩; exact ⟨a.symm, b.symm⟩
  · rintro ⟨a, b⟩; exact ⟨a.symm, b.symm⟩

theorem on_add {P Q : F × F} (h1 : On C.d P) (h2 : On C.d Q) : On C.d (eadd C.d P Q) := by
  have hp := den_p C h1 h2
  have hm := den_m C h1 h2
  obtain ⟨x1, y1⟩ := P
  obtain ⟨x2, y2⟩ := Q
  obtain ⟨d, i, hi, hd⟩ := C
  simp only [On, eadd] at *
  generalize hdp : 1 + d * x1 * x2 * y1 * y2 = dp at *
  generalize hdm : 1 - d * x1 * x2 * y1 * y2 = dm at *
  field_simp
  rw [← hdp, ← hdm]
  linear_combination (x1^2*y1^2*x2^4*y2^4*d^3 - x1^2*x2^4*y2^4*d^2 - x1^2*x2^4*y2^2*d + x1^2*x2^2*y2^4*d + y1^2*x2^4*y2^4*d^2 + y1^2*x2^4*y2^2*d -
        y1^2*x2^2*y2^4*d - x2^4*y2^4*d^2 - 2*x2^4*y2^4*d - 2*x2^4*y2^2 + x2^4 + 2*x2^2*y2^4 - 2*x2^2*y2^2*d - 4*x2^2*y2^2 + y2^4) * h1 + (x1^4*x2^2*y2^2*d + 2*x1^2*x2^2*y2^2*d + 2*x1^2*x2^2*y2^2 - x1^2*x2^2 + x1^2*y2^2 + y1^4*x2^2*y2^2*d - 2*y1^2*x2^2*y2^2*d - 2*y1^2*x2^2*y2^2
        + y1^2*x2^2 - y1^2*y2^2 + x2^2*y2^2*d + 2*x2^2*y2^2 - x2^2 + y2^2 + 1) * h2

theorem eadd_comm (d : F) (P Q : F × F) : eadd d P Q = eadd d Q P := by
  unfold eadd
  rw [show P.1 * Q.2 + Q.1 * P.2 = Q.1 * P.2 + P.1 * Q.2 by ring, show P.2 * Q.2 + P.1 * Q.1 = Q.2 * P.2 + Q.1 * P.1 by ring,
    show d * P.1 * Q.1 * P.2 * Q.2 = d * Q.1 * P.1 * Q.2 * P.2 by ring]

theorem assoc_x {d x1 y1 x2 y2 x3 y3 : F} (h1 : -x1 ^ 2 + y1 ^ 2 = 1 + d * x1 ^ 2 * y1 ^ 2) (h2 : -x2 ^ 2 + y2 ^ 2 = 1 + d * x2 ^ 2 * y2 ^ 2)
    (h3 : -x3 ^ 2 + y3 ^ 2 = 1 + d * x3 ^ 2 * y3 ^ 2) :
    ((x1 * y2 + x2 * y1) * (1 - d * x1 * x2 * y1 * y2) * y3 + x3 * ((y1 * y2 + x1 * x2) * (1 + d * x1 * x2 * y1 * y2))) *
        ((1 + d * x2 * x3 * y2 * y3) * (1 - d * x2 * x3 * y2 * y3) + d * x1 * (x2 * y3 + x3 * y2) * y1 * (y2 * y3 + x2 * x3)) =
      (x1 * ((y2 * y3 + x2 * x3) * (1 + d * x2 * x3 * y2 * y3)) + (x2 * y3 + x3 * y2) * (1 - d * x2 * x3 * y2 * y3) * y1) *
        ((1 + d * x1 * x2 * y1 * y2) * (1 - d * x1 * x2 * y1 * y2) + d * (x1 * y2 + x2 * y1) * x3 * (y1 * y2 + x1 * x2) * y3) := by
  linear_combination (-x1*x2^4*y2^3*x3^2*y3*d^2 - x1*x2^4*y2*x3^2*y3*d - x1*x2^3*y2^4*x3*y3^2*d^2 - x1*x2^3*y2^2*x3^3*d - x1*x2^3*y2^2*x3*d + x1*x2^2*y2^3*y3^3*d
        - x1*x2^2*y2^3*y3*d + x1*x2*y2^4*x3*y3^2*d + y1*x2^4*y2^3*x3*y3^2*d^2 + y1*x2^4*y2*x3*y3^2*d + y1*x2^3*y2^4*x3^2*y3*d^2 +
        y1*x2^3*y2^2*y3^3*d - y1*x2^3*y2^2*y3*d - y1*x2^2*y2^3*x3^3*d - y1*x2^2*y2^3*x3*d - y1*x2*y2^4*x3^2*y3*d) * h1 +
      (x1^3*x2^2*y2*x3^2*y3*d + x1^3*x2*y2^2*x3*y3^2*d + x1^3*x2*x3^3*y3^2*d + x1^3*x2*x3^3 - x1^3*x2*x3*y3^2 + x1^3*x2*x3 + x1^3*y2*x3^2*y3^3*d +
        x1^3*y2*x3^2*y3 - x1^3*y2*y3^3 + x1^3*y2*y3 + x1^2*y1*x2^2*y2*x3^3*y3^2*d^2 - x1^2*y1*x2^2*y2*x3*y3^2*d - x1^2*y1*x2*y2^2*x3^2*y3^3*d^2 -
        x1^2*y1*x2*y2^2*x3^2*y3*d + x1^2*y1*x2*x3^2*y3^3*d + x1^2*y1*x2*x3^2*y3 - x1^2*y1*x2*y3^3 + x1^2*y1*x2*y3 + x1^2*y1*y2*x3^3*y3^2*d +
        x1^2*y1*y2*x3^3 - x1^2*y1*y2*x3*y3^2 + x1^2*y1*y2*x3 - x1*y1^2*x2^2*y2*x3^2*y3^3*d^2 - x1*y1^2*x2^2*y2*x3^2*y3*d +
        x1*y1^2*x2*y2^2*x3^3*y3^2*d^2 - x1*y1^2*x2*y2^2*x3*y3^2*d - x1*y1^2*x2*x3^3*y3^2*d - x1*y1^2*x2*x3^3 + x1*y1^2*x2*x3*y3^2 - x1*y1^2*x2*x3 -
        x1*y1^2*y2*x3^2*y3^3*d - x1*y1^2*y2*x3^2*y3 + x1*y1^2*y2*y3^3 - x1*y1^2*y2*y3 + x1*x2^2*y2*x3^2*y3*d + x1*x2*y2^2*x3*y3^2*d +
        x1*x2*x3^3*y3^2*d + x1*x2*x3^3 - x1*x2*x3*y3^2 + x1*x2*x3 + x1*y2*x3^2*y3^3*d + x1*y2*x3^2*y3 - x1*y2*y3^3 + x1*y2*y3 +
        y1^3*x2^2*y2*x3*y3^2*d + y1^3*x2*y2^2*x3^2*y3*d - y1^3*x2*x3^2*y3^3*d - y1^3*x2*x3^2*y3 + y1^3*x2*y3^3 - y1^3*x2*y3 - y1^3*y2*x3^3*y3^2*d -
        y1^3*y2*x3^3 + y1^3*y2*x3*y3^2 - y1^3*y2*x3 - y1*x2^2*y2*x3*y3^2*d - y1*x2*y2^2*x3^2*y3*d + y1*x2*x3^2*y3^3*d + y1*x2*x3^2*y3 - y1*x2*y3^3 +
        y1*x2*y3 + y1*y2*x3^3*y3^2*d + y1*y2*x3^3 - y1*y2*x3*y3^2 + y1*y2*x3) * h2 +
      (-x1^3*x2^3*x3 - x1^3*x2^2*y2*y3 + x1^3*x2*y2^2*x3 - x1^3*x2*x3 + x1^3*y2^3*y3 - x1^3*y2*y3 - x1^2*y1*x2^3*y3 - x1^2*y1*x2^2*y2*x3*d -
        x1^2*y1*x2^2*y2*x3 + x1^2*y1*x2*y2^2*y3*d + x1^2*y1*x2*y2^2*y3 - x1^2*y1*x2*y3 + x1^2*y1*y2^3*x3 - x1^2*y1*y2*x3 + x1*y1^2*x2^3*x3 +
        x1*y1^2*x2^2*y2*y3*d + x1*y1^2*x2^2*y2*y3 - x1*y1^2*x2*y2^2*x3*d - x1*y1^2*x2*y2^2*x3 + x1*y1^2*x2*x3 - x1*y1^2*y2^3*y3 + x1*y1^2*y2*y3 -
        x1*x2^3*x3 - x1*x2^2*y2*y3 + x1*x2*y2^2*x3 - x1*x2*x3 + x1*y2^3*y3 - x1*y2*y3 + y1^3*x2^3*y3 + y1^3*x2^2*y2*x3 - y1^3*x2*y2^2*y3 +
        y1^3*x2*y3 - y1^3*y2^3*x3 + y1^3*y2*x3 - y1*x2^3*y3 - y1*x2^2*y2*x3 + y1*x2*y2^2*y3 - y1*x2*y3 + y1*y2^3*x3 - y1*y2*x3) * h3

theorem assoc_y {d x1 y1 x2 y2 x3 y3 : F} (h1 : -x1 ^ 2 + y1 ^ 2 = 1 + d * x1 ^ 2 * y1 ^ 2) (h2 : -x2 ^ 2 + y2 ^ 2 = 1 + d * x2 ^ 2 * y2 ^ 2)
    (h3 : -x3 ^ 2 + y3 ^ 2 = 1 + d * x3 ^ 2 * y3 ^ 2) :
    ((y1 * y2 + x1 * x2) * (1 + d * x1 * x2 * y1 * y2) * y3 + (x1 * y2 + x2 * y1) * (1 - d * x1 * x2 * y1 * y2) * x3) *
        ((1 + d * x2 * x3 * y2 * y3) * (1 - d * x2 * x3 * y2 * y3) - d * x1 * (x2 * y3 + x3 * y2) * y1 * (y2 * y3 + x2 * x3)) =
      (y1 * ((y2 * y3 + x2 * x3) * (1 + d * x2 * x3 * y2 * y3)) + x1 * ((x2 * y3 + x3 * y2) * (1 - d * x2 * x3 * y2 * y3))) *
        ((1 + d * x1 * x2 * y1 * y2) * (1 - d * x1 * x2 * y1 * y2) - d * (x1 * y2 + x2 * y1) * x3 * (y1 * y2 + x1 * x2) * y3) := by
  linear_combination (x1*x2^4*y2^3*x3*y3^2*d^2 + x1*x2^4*y2*x3*y3^2*d + x1*x2^3*y2^4*x3^2*y3*d^2 + x1*x2^3*y2^2*y3^3*d - x1*x2^3*y2^2*y3*d - x1*x2^2*y2^3*x3^3*d -
        x1*x2^2*y2^3*x3*d - x1*x2*y2^4*x3^2*y3*d - y1*x2^4*y2^3*x3^2*y3*d^2 - y1*x2^4*y2*x3^2*y3*d - y1*x2^3*y2^4*x3*y3^2*d^2 - y1*x2^3*y2^2*x3^3*d
        - y1*x2^3*y2^2*x3*d + y1*x2^2*y2^3*y3^3*d - y1*x2^2*y2^3*y3*d + y1*x2*y2^4*x3*y3^2*d) * h1 +
      (-x1^3*x2^2*y2*x3*y3^2*d - x1^3*x2*y2^2*x3^2*y3*d + x1^3*x2*x3^2*y3^3*d + x1^3*x2*x3^2*y3 - x1^3*x2*y3^3 + x1^3*x2*y3 + x1^3*y2*x3^3*y3^2*d +
        x1^3*y2*x3^3 - x1^3*y2*x3*y3^2 + x1^3*y2*x3 + x1^2*y1*x2^2*y2*x3^2*y3^3*d^2 + x1^2*y1*x2^2*y2*x3^2*y3*d - x1^2*y1*x2*y2^2*x3^3*y3^2*d^2 +
        x1^2*y1*x2*y2^2*x3*y3^2*d + x1^2*y1*x2*x3^3*y3^2*d + x1^2*y1*x2*x3^3 - x1^2*y1*x2*x3*y3^2 + x1^2*y1*x2*x3 + x1^2*y1*y2*x3^2*y3^3*d +
        x1^2*y1*y2*x3^2*y3 - x1^2*y1*y2*y3^3 + x1^2*y1*y2*y3 - x1*y1^2*x2^2*y2*x3^3*y3^2*d^2 + x1*y1^2*x2^2*y2*x3*y3^2*d +
        x1*y1^2*x2*y2^2*x3^2*y3^3*d^2 + x1*y1^2*x2*y2^2*x3^2*y3*d - x1*y1^2*x2*x3^2*y3^3*d - x1*y1^2*x2*x3^2*y3 + x1*y1^2*x2*y3^3 - x1*y1^2*x2*y3 -
        x1*y1^2*y2*x3^3*y3^2*d - x1*y1^2*y2*x3^3 + x1*y1^2*y2*x3*y3^2 - x1*y1^2*y2*x3 - x1*x2^2*y2*x3*y3^2*d - x1*x2*y2^2*x3^2*y3*d +
        x1*x2*x3^2*y3^3*d + x1*x2*x3^2*y3 - x1*x2*y3^3 + x1*x2*y3 + x1*y2*x3^3*y3^2*d + x1*y2*x3^3 - x1*y2*x3*y3^2 + x1*y2*x3 -
        y1^3*x2^2*y2*x3^2*y3*d - y1^3*x2*y2^2*x3*y3^2*d - y1^3*x2*x3^3*y3^2*d - y1^3*x2*x3^3 + y1^3*x2*x3*y3^2 - y1^3*x2*x3 - y1^3*y2*x3^2*y3^3*d -
        y1^3*y2*x3^2*y3 + y1^3*y2*y3^3 - y1^3*y2*y3 + y1*x2^2*y2*x3^2*y3*d + y1*x2*y2^2*x3*y3^2*d + y1*x2*x3^3*y3^2*d + y1*x2*x3^3 - y1*x2*x3*y3^2 +
        y1*x2*x3 + y1*y2*x3^2*y3^3*d + y1*y2*x3^2*y3 - y1*y2*y3^3 + y1*y2*y3) * h2 +
      (-x1^3*x2^3*y3 - x1^3*x2^2*y2*x3 + x1^3*x2*y2^2*y3 - x1^3*x2*y3 + x1^3*y2^3*x3 - x1^3*y2*x3 - x1^2*y1*x2^3*x3 - x1^2*y1*x2^2*y2*y3*d -
        x1^2*y1*x2^2*y2*y3 + x1^2*y1*x2*y2^2*x3*d + x1^2*y1*x2*y2^2*x3 - x1^2*y1*x2*x3 + x1^2*y1*y2^3*y3 - x1^2*y1*y2*y3 + x1*y1^2*x2^3*y3 +
        x1*y1^2*x2^2*y2*x3*d + x1*y1^2*x2^2*y2*x3 - x1*y1^2*x2*y2^2*y3*d - x1*y1^2*x2*y2^2*y3 + x1*y1^2*x2*y3 - x1*y1^2*y2^3*x3 + x1*y1^2*y2*x3 -
        x1*x2^3*y3 - x1*x2^2*y2*x3 + x1*x2*y2^2*y3 - x1*x2*y3 + x1*y2^3*x3 - x1*y2*x3 + y1^3*x2^3*x3 + y1^3*x2^2*y2*y3 - y1^3*x2*y2^2*x3 +
        y1^3*x2*x3 - y1^3*y2^3*y3 + y1^3*y2*y3 - y1*x2^3*x3 - y1*x2^2*y2*y3 + y1*x2*y2^2*x3 - y1*x2*x3 + y1*y2^3*y3 - y1*y2*y3) * h3

theorem eadd_assoc {P Q R : F × F} (h1 : On C.d P) (h2 : On C.d Q) (h3 : On C.d R) :
    eadd C.d (eadd C.d P Q) R = eadd C.d P (eadd C.d Q R) := by
  have hpq := on_add C h1 h2
  have hqr := on_add C h2 h3
  have a1 := den_p C hpq h3
  have a2 := den_m C hpq h3
  have a3 := den_p C h1 hqr
  have a4 := den_m C h1 hqr
  have b1 := den_p C h1 h2
  have b2 := den_m C h1 h2
  have b3 := den_p C h2 h3
  have b4 := den_m C h2 h3
  obtain ⟨x1, y1⟩ := P
  obtain ⟨x2, y2⟩ := Q
  obtain ⟨x3, y3⟩ := R
  obtain ⟨d, i, hi, hd⟩ := C
  have ex := assoc_x h1 h2 h3
  have ey := assoc_y h1 h2 h3
  simp only [eadd] at *
  generalize hdp : 1 + d * x1 * x2 * y1 * y2 = dp at *
  generalize hdm : 1 - d * x1 * x2 * y1 * y2 = dm at *
  generalize hdp' : 1 + d * x2 * x3 * y2 * y3 = dp' at *
  generalize hdm' : 1 - d * x2 * x3 * y2 * y3 = dm' at *
  generalize x1 * y2 + x2 * y1 = n at *
  generalize y1 * y2 + x1 * x2 = m at *
  generalize x2 * y3 + x3 * y2 = n' at *
  generalize y2 * y3 + x2 * x3 = m' at *
  have c1 : 1 + d * (n * dp⁻¹) * x3 * (m * dm⁻¹) * y3 = (dp * dm + d * n * x3 * m * y3) * (dp * dm)⁻¹ := by field_simp
  have c2 : 1 - d * (n * dp⁻¹) * x3 * (m * dm⁻¹) * y3 = (dp * dm - d * n * x3 * m * y3) * (dp * dm)⁻¹ := by field_simp
  have c3 : 1 + d * x1 * (n' * dp'⁻¹) * y1 * (m' * dm'⁻¹) = (dp' * dm' + d * x1 * n' * y1 * m') * (dp' * dm')⁻¹ := by field_simp
  have c4 : 1 - d * x1 * (n' * dp'⁻¹) * y1 * (m' * dm'⁻¹) = (dp' * dm' - d * x1 * n' * y1 * m') * (dp' * dm')⁻¹ := by field_simp
  rw [c1] at a1 ⊢
  rw [c2] at a2 ⊢
  rw [c3] at a3 ⊢
  rw [c4] at a4 ⊢
  replace a1 := left_ne_zero_of_mul a1
  replace a2 := left_ne_zero_of_mul a2
  replace a3 := left_ne_zero_of_mul a3
  replace a4 := left_ne_zero_of_mul a4
  generalize dp * dm + d * n * x3 * m * y3 = D1 at *
  generalize dp * dm - d * n * x3 * m * y3 = D2 at *
  generalize dp' * dm' + d * x1 * n' * y1 * m' = D3 at *
  generalize dp' * dm' - d * x1 * n' * y1 * m' = D4 at *
  rw [Prod.mk.injEq]
  constructor
  · field_simp
    linear_combination ex
  · field_simp
    linear_combination ey

/-! ### The group -/

/-- The points as a type. -/
def Pt : Type := {P : F × F // On C.d P}

instance : Add (Pt C) := ⟨fun P Q => ⟨eadd C.d P.1 Q.1, on_add C P.2 Q.2⟩⟩
instance : Zero (Pt C) := ⟨⟨(0, 1), by simp [On]⟩⟩
instance : Neg (Pt C) := ⟨fun P => ⟨(-P.1.1, P.1.2), by have := P.2; simp only [On] at this ⊢; linear_combination this⟩⟩

instance : AddCommGroup (Pt C) where
  nsmul := nsmulRec
  zsmul := zsmulRec
  add_assoc P Q R := Subtype.ext (eadd_assoc C P.2 Q.2 R.2)
  zero_add P := Subtype.ext (by
    show eadd C.d (0, 1) P.1 = P.1
    simp [eadd])
  add_zero P := Subtype.ext (by
    show eadd C.d P.1 (0, 1) = P.1
    simp [eadd])
  neg_add_cancel P := Subtype.ext (by
    show eadd C.d (-P.1.1, P.1.2) P.1 = (0, 1)
    have h := P.2
    have hn : On C.d (-P.1.1, P.1.2) := by simp only [On] at h ⊢; linear_combination h
    rw [eadd_iff C hn h]
    simp only [On] at *
    constructor
    · ring
    · linear_combination -h)
  add_comm P Q := Subtype.ext (eadd_comm C.d P.1 Q.1)

theorem add_val (P Q : Pt C) : (P + Q).1 = eadd C.d P.1 Q.1 := rfl
theorem zero_val : (0 : Pt C).1 = (0, 1) := rfl
theorem neg_val (P : Pt C) : (-P).1 = (-P.1.1, P.1.2) := rfl

end Salt.Edwards
