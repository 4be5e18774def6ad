import Verif.Lemmas.Montgomery
import Verif.Lemmas.Ed25519
import Mathlib.NumberTheory.LegendreSymbol.Basic

/-! Every u-coordinate other than 0 is that of a point of Curve25519 or of its twist. -/

namespace Salt.Spec

open Salt.Edwards

theorem edD_ne : edD ≠ 0 := by
  rw [edD_num]
  decide +kernel

theorem edD_inv_not_square (s : Fp) : s * s ≠ edD⁻¹ := by
  intro h
  apply edD_not_square s⁻¹
  rw [← mul_inv, h, inv_inv]

/-- The Edwards curve birationally equivalent to the twist of Curve25519. -/
def twist : Curve Fp := ⟨edD⁻¹, sqrtM1, sqrtM1_sq, edD_inv_not_square⟩

theorem two_ne : (2 : Fp) ≠ 0 := by decide +kernel

theorem curve_a24 : 1 * (1 + curve.d) * (1 + 2 * 121665) = 1 - curve.d := by
  show 1 * (1 + edD) * (1 + 2 * 121665) = 1 - edD
  rw [edD_num]
  decide +kernel

theorem edD_inv_num : edD⁻¹ = -121666 * 121665⁻¹ := by
  unfold edD
  rw [mul_inv, inv_inv, inv_neg]
  ring

theorem twist_a24 : -1 * (1 + twist.d) * (1 + 2 * 121665) = 1 - twist.d := by
  show -1 * (1 + edD⁻¹) * (1 + 2 * 121665) = 1 - edD⁻¹
  have h : (121665 : Fp) ≠ 0 := by decide +kernel
  rw [edD_inv_num]
  apply mul_right_cancel₀ h
  have : (121665 : Fp)⁻¹ * 121665 = 1 := inv_mul_cancel₀ h
  generalize (121665 : Fp)⁻¹ = i at *
  have e1 : -1 * (1 + -121666 * i) * (1 + 2 * 121665) * 121665 = -1 * (121665 + -121666 * (i * 121665)) * (1 + 2 * 121665) := by ring
  have e2 : (1 - -121666 * i) * 121665 = 121665 + 121666 * (i * 121665) := by ring
  rw [e1, e2, this]
  decide +kernel

/-- The constant A of the curve. -/
def mA : Fp := 486662

/-- A² - 4 is not a square. -/
theorem disc_not_square (s : Fp) : s * s ≠ (mA + 2) * (mA - 2) := by
  intro h
  have h1 : (mA + 2 : Fp) ≠ 0 := by decide +kernel
  have h2 : edD * (mA + 2) = -(mA - 2) := by rw [edD_num]; decide +kernel
  apply edD_not_square (sqrtM1 * s * (mA + 2)⁻¹)
  have hi := sqrtM1_sq
  apply mul_right_cancel₀ (mul_ne_zero h1 h1)
  have h3 : (mA + 2) * (mA + 2)⁻¹ = 1 := mul_inv_cancel₀ h1
  generalize (mA + 2)⁻¹ = r at *
  linear_combination (sqrtM1 * sqrtM1 * s * s * ((mA + 2) * r + 1)) * h3 + s * s * hi - h - (mA + 2) * h2

theorem square_or {a b : Fp} (hab : ∀ s, s * s ≠ a * b) : (∃ s, s * s = a) ∨ (∃ s, s * s = b) := by
  by_cases ha : a = 0
  · exact .inl ⟨0, by rw [ha, zero_mul]⟩
  by_cases hb : b = 0
  · exact .inr ⟨0, by rw [hb, zero_mul]⟩
  have h1 : ∀ z : Fp, z ≠ 0 → (z ^ (p25519 / 2) = 1 → ∃ s, s * s = z) := by
    intro z hz h
    obtain ⟨s, hs⟩ := (ZMod.euler_criterion p25519 hz).mpr h
    exact ⟨s, hs.symm⟩
  have h2 : ∀ z : Fp, z ≠ 0 → z ^ (p25519 / 2) = 1 ∨ z ^ (p25519 / 2) = -1 := fun z hz => ZMod.pow_div_two_eq_neg_one_or_one p25519 hz
  rcases h2 a ha with h | h
  · exact .inl (h1 a ha h)
  rcases h2 b hb with h' | h'
  · exact .inr (h1 b hb h')
  have := h1 (a * b) (mul_ne_zero ha hb) (by rw [mul_pow, h, h']; ring)
  obtain ⟨s, hs⟩ := this
  exact absurd hs (hab s)

theorem quad_ne (u : Fp) : u ^ 2 + mA * u + 1 ≠ 0 := by
  intro h
  apply disc_not_square (2 * u + mA)
  linear_combination 4 * h

theorem twist_d : (1 + edD⁻¹) * (mA - 2) = -4 ∧ 2 * (1 - edD⁻¹) = -mA * (1 + edD⁻¹) := by
  have h : (121665 : Fp) ≠ 0 := by decide +kernel
  have hm : mA - 2 = 4 * 121665 := by decide +kernel
  have hm' : mA = 4 * 121665 + 2 := by decide +kernel
  rw [edD_inv_num]
  have h3 : (121665 : Fp)⁻¹ * 121665 = 1 := inv_mul_cancel₀ h
  have h4 : (121666 : Fp) = 121665 + 1 := by decide +kernel
  generalize (121665 : Fp)⁻¹ = i at *
  rw [hm, hm', h4]
  generalize (121665 : Fp) = c at *
  constructor
  · linear_combination (-4 * (c + 1)) * h3
  · linear_combination (-4 * (c + 1)) * h3

theorem on_of {C : Curve Fp} {x y : Fp} (h : x ^ 2 * (1 + C.d * y ^ 2) = y ^ 2 - 1) : On C.d (x, y) := by
  unfold On
  linear_combination -h

theorem exists_point (u : Fp) : (∃ Q : Pt curve, uOf 1 Q = u) ∨ (∃ Q : Pt twist, uOf (-1) Q = u) := by
  have g0 := quad_ne u
  have h2 := two_ne
  by_cases hu : u = 0
  · left
    refine ⟨0, ?_⟩
    unfold uOf
    rw [zero_val, sub_self, div_zero, hu]
  have hsq : (∃ s, s * s = -(mA + 2) * u * (u ^ 2 + mA * u + 1)) ∨ (∃ s, s * s = -(mA - 2) * u * (u ^ 2 + mA * u + 1)) := by
    apply square_or
    intro s hs
    have hne : u * (u ^ 2 + mA * u + 1) ≠ 0 := mul_ne_zero hu g0
    apply disc_not_square (s * (u * (u ^ 2 + mA * u + 1))⁻¹)
    have h3 : u * (u ^ 2 + mA * u + 1) * (u * (u ^ 2 + mA * u + 1))⁻¹ = 1 := mul_inv_cancel₀ hne
    generalize (u * (u ^ 2 + mA * u + 1))⁻¹ = r at *
    linear_combination r * r * hs + (mA + 2) * (mA - 2) * (u * (u ^ 2 + mA * u + 1) * r + 1) * h3
  have hi := sqrtM1_sq
  rcases hsq with ⟨s, hs⟩ | ⟨s, hs⟩
  · left
    have hd : (1 + edD) * (mA + 2) = 4 := by rw [edD_num]; decide +kernel
    have hd' : 2 * (1 - edD) = mA * (1 + edD) := by rw [edD_num]; decide +kernel
    have hu1 : u + 1 ≠ 0 := by
      intro h
      apply disc_not_square (sqrtM1 * s)
      have : u = -1 := by linear_combination h
      rw [this] at hs
      linear_combination s * s * hi - hs
    have hon : On curve.d (s / (u ^ 2 + mA * u + 1), (u - 1) / (u + 1)) := by
      apply on_of
      show _ * (1 + edD * _) = _
      generalize hg : u ^ 2 + mA * u + 1 = g at *
      rw [div_pow, div_pow]
      field_simp
      have k : (u + 1) ^ 2 + edD * (u - 1) ^ 2 = (1 + edD) * g := by linear_combination u * hd' + (1 + edD) * hg
      linear_combination s ^ 2 * k + (1 + edD) * g * hs - u * g ^ 2 * hd
    refine ⟨⟨_, hon⟩, ?_⟩
    show 1 * (1 + (u - 1) / (u + 1)) / (1 - (u - 1) / (u + 1)) = u
    have : 1 - (u - 1) / (u + 1) = 2 / (u + 1) := by field_simp; ring
    rw [this]
    field_simp
    ring
  · right
    obtain ⟨hd, hd'⟩ := twist_d
    have hu1 : u - 1 ≠ 0 := by
      intro h
      apply disc_not_square (sqrtM1 * s)
      have : u = 1 := by linear_combination h
      rw [this] at hs
      linear_combination s * s * hi - hs
    have hon : On twist.d (s / (u ^ 2 + mA * u + 1), (u + 1) / (u - 1)) := by
      apply on_of
      show _ * (1 + edD⁻¹ * _) = _
      generalize hg : u ^ 2 + mA * u + 1 = g at *
      generalize edD⁻¹ = r at *
      rw [div_pow, div_pow]
      field_simp
      have k : (u - 1) ^ 2 + r * (u + 1) ^ 2 = (1 + r) * g := by linear_combination -u * hd' + (1 + r) * hg
      linear_combination s ^ 2 * k + (1 + r) * g * hs - u * g ^ 2 * hd
    refine ⟨⟨_, hon⟩, ?_⟩
    show -1 * (1 + (u + 1) / (u - 1)) / (1 - (u + 1) / (u - 1)) = u
    have : 1 - (u + 1) / (u - 1) = -2 / (u - 1) := by field_simp; ring
    rw [this]
    field_simp
    ring

end Salt.Spec
