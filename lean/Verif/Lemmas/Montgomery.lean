import Verif.Lemmas.Edwards

/-! Differential addition and doubling on the Montgomery curve, in terms of the Edwards curves birationally equivalent to it
(e = 1) and to its twist (e = -1). -/

namespace Salt.Edwards

variable {F : Type} [Field F] (C : Curve F)

theorem den_y (y : F) : 1 + C.d * y ^ 2 ≠ 0 := by
  intro h
  have hi := C.hi
  by_cases hy : y = 0
  · rw [hy] at h
    apply one_ne_zero (α := F)
    linear_combination h
  · apply C.hd (C.i * y⁻¹)
    field_simp
    linear_combination hi - h

/-- The y-coordinates of P3 + P2 and P3 - P2. -/
theorem sum_y (P2 P3 : Pt C) :
    (1 + (P2 + P3).1.2) * (1 + (P3 - P2).1.2) * (P2.1.2 - P3.1.2) ^ 2 =
    (1 - (P2 + P3).1.2) * (1 - (P3 - P2).1.2) * (P2.1.2 + P3.1.2) ^ 2 := by
  have n1 := den_m C P2.2 P3.2
  have n2 := den_m C P3.2 (-P2).2
  rw [sub_eq_add_neg, add_val, add_val, neg_val]
  rw [neg_val] at n2
  obtain ⟨⟨x2, y2⟩, h2⟩ := P2
  obtain ⟨⟨x3, y3⟩, h3⟩ := P3
  have d2 := den_y C y2
  have d3 := den_y C y3
  simp only [On] at h2 h3
  simp only at n1 n2
  simp only [eadd]
  generalize C.d = d at *
  have n2' : 1 + d * x2 * x3 * y2 * y3 ≠ 0 := by
    intro h
    apply n2
    linear_combination h
  have e2 : (y3 * y2 + x3 * -x2) * (1 - d * x3 * -x2 * y3 * y2)⁻¹ = (y3 * y2 - x3 * x2) * (1 + d * x2 * x3 * y2 * y3)⁻¹ := by
    rw [show 1 - d * x3 * -x2 * y3 * y2 = 1 + d * x2 * x3 * y2 * y3 by ring]
    ring
  rw [e2]
  have k2 : x2 ^ 2 * (1 + d * y2 ^ 2) = y2 ^ 2 - 1 := by linear_combination -h2
  have k3 : x3 ^ 2 * (1 + d * y3 ^ 2) = y3 ^ 2 - 1 := by linear_combination -h3
  have kp : ((1 + y2 * y3) ^ 2 - x2 ^ 2 * x3 ^ 2 * (1 - d * y2 * y3) ^ 2) * ((1 + d * y2 ^ 2) * (1 + d * y3 ^ 2)) = (y2 + y3) ^ 2 * (1 + d) * (1 + d * (y2 * y3) ^ 2) := by
    linear_combination (-(1 - d * y2 * y3) ^ 2 * x3 ^ 2 * (1 + d * y3 ^ 2)) * k2 + (-(1 - d * y2 * y3) ^ 2 * (y2 ^ 2 - 1)) * k3
  have km : ((1 - y2 * y3) ^ 2 - x2 ^ 2 * x3 ^ 2 * (1 + d * y2 * y3) ^ 2) * ((1 + d * y2 ^ 2) * (1 + d * y3 ^ 2)) = (y2 - y3) ^ 2 * (1 + d) * (1 + d * (y2 * y3) ^ 2) := by
    linear_combination (-(1 + d * y2 * y3) ^ 2 * x3 ^ 2 * (1 + d * y3 ^ 2)) * k2 + (-(1 + d * y2 * y3) ^ 2 * (y2 ^ 2 - 1)) * k3
  have key : ((1 + y2 * y3) ^ 2 - x2 ^ 2 * x3 ^ 2 * (1 - d * y2 * y3) ^ 2) * (y2 - y3) ^ 2 = ((1 - y2 * y3) ^ 2 - x2 ^ 2 * x3 ^ 2 * (1 + d * y2 * y3) ^ 2) * (y2 + y3) ^ 2 := by
    apply mul_right_cancel₀ (mul_ne_zero d2 d3)
    linear_combination (y2 - y3) ^ 2 * kp - (y2 + y3) ^ 2 * km
  obtain ⟨y5, h5⟩ : ∃ y5, (y2 * y3 + x2 * x3) * (1 - d * x2 * x3 * y2 * y3)⁻¹ = y5 := ⟨_, rfl⟩
  obtain ⟨y1, h1⟩ : ∃ y1, (y3 * y2 - x3 * x2) * (1 + d * x2 * x3 * y2 * y3)⁻¹ = y1 := ⟨_, rfl⟩
  rw [h5, h1]
  rw [← div_eq_mul_inv, div_eq_iff n1] at h5
  rw [← div_eq_mul_inv, div_eq_iff n2'] at h1
  apply mul_right_cancel₀ (mul_ne_zero n1 n2')
  generalize hD : 1 - d * x2 * x3 * y2 * y3 = D at *
  generalize hE : 1 + d * x2 * x3 * y2 * y3 = E at *
  have a1 : (1 + y5) * (1 + y1) * (D * E) = (1 + y2 * y3) ^ 2 - x2 ^ 2 * x3 ^ 2 * (1 - d * y2 * y3) ^ 2 := by
    have : (1 + y5) * (1 + y1) * (D * E) = (D + (y2 * y3 + x2 * x3)) * (E + (y3 * y2 - x3 * x2)) := by rw [h5, h1]; ring
    rw [this, ← hD, ← hE]
    ring
  have a2 : (1 - y5) * (1 - y1) * (D * E) = (1 - y2 * y3) ^ 2 - x2 ^ 2 * x3 ^ 2 * (1 + d * y2 * y3) ^ 2 := by
    have : (1 - y5) * (1 - y1) * (D * E) = (D - (y2 * y3 + x2 * x3)) * (E - (y3 * y2 - x3 * x2)) := by rw [h5, h1]; ring
    rw [this, ← hD, ← hE]
    ring
  linear_combination key + (y2 - y3) ^ 2 * a1 - (y2 + y3) ^ 2 * a2

/-- The y-coordinate of 2 P. -/
theorem dbl_y (P : Pt C) : (1 + P.1.1 ^ 2) * (1 - (P + P).1.2) = (1 - P.1.2 ^ 2) * (1 + (P + P).1.2) := by
  have n1 := den_m C P.2 P.2
  rw [add_val]
  obtain ⟨⟨x, y⟩, h⟩ := P
  simp only [On] at h
  simp only at n1
  simp only [eadd]
  generalize C.d = d at *
  have n1' : 1 - d * x ^ 2 * y ^ 2 ≠ 0 := by
    intro h
    apply n1
    linear_combination h
  rw [show 1 - d * x * x * y * y = 1 - d * x ^ 2 * y ^ 2 by ring]
  obtain ⟨y', h'⟩ : ∃ y', (y * y + x * x) * (1 - d * x ^ 2 * y ^ 2)⁻¹ = y' := ⟨_, rfl⟩
  rw [h']
  rw [← div_eq_mul_inv, div_eq_iff n1'] at h'
  apply mul_right_cancel₀ n1'
  linear_combination (x ^ 2 + y ^ 2) * h + (2 + x ^ 2 - y ^ 2) * h'

/-- X : Z stands for the u-coordinate e (1 + y)/(1 - y) of P. -/
def Rep (e : F) (P : Pt C) (X Z : F) : Prop := ∃ l, l ≠ 0 ∧ X = l * (1 + P.1.2) ∧ Z = e * l * (1 - P.1.2)

variable {C}

/-- It is enough to look at the ratio. -/
theorem rep_of {e : F} (he : e * e = 1) (h2 : (2 : F) ≠ 0) {P : Pt C} {X Z : F} (h : X * (1 - P.1.2) = e * Z * (1 + P.1.2)) (h0 : X = 0 → Z ≠ 0) : Rep C e P X Z := by
  refine ⟨(X + e * Z) / 2, ?_, ?_, ?_⟩
  · intro hz
    have hx : X = -(e * Z) := by
      rw [div_eq_zero_iff] at hz
      rcases hz with hz | hz
      · linear_combination hz
      · exact absurd hz h2
    have h3 : 2 * X = 0 := by linear_combination h + (1 + P.1.2) * hx
    have h4 : X = 0 := by
      rcases mul_eq_zero.mp h3 with h | h
      · exact absurd h h2
      · exact h
    have h5 : e * Z = 0 := by linear_combination hx - h4
    apply h0 h4
    linear_combination e * h5 - Z * he
  · field_simp
    linear_combination h
  · field_simp
    linear_combination -e * h - (2 * Z) * he

theorem rep_zero (e : F) (h2 : (2 : F) ≠ 0) : Rep C e 0 1 0 := by
  refine ⟨2⁻¹, inv_ne_zero h2, ?_, ?_⟩
  · rw [zero_val]
    field_simp
    ring
  · rw [zero_val]
    ring

/-- Differential addition. -/
theorem rep_add {e : F} (he : e * e = 1) (h2 : (2 : F) ≠ 0) {P2 P3 : Pt C} {x1 X2 Z2 X3 Z3 : F} (r2 : Rep C e P2 X2 Z2) (r3 : Rep C e P3 X3 Z3)
    (h1 : x1 * (1 - (P3 - P2).1.2) = e * (1 + (P3 - P2).1.2)) (n1 : 1 - (P3 - P2).1.2 ≠ 0) (hx : x1 ≠ 0) :
    Rep C e (P2 + P3) (((X3 - Z3) * (X2 + Z2) + (X3 + Z3) * (X2 - Z2)) ^ 2) (x1 * ((X3 - Z3) * (X2 + Z2) - (X3 + Z3) * (X2 - Z2)) ^ 2) := by
  obtain ⟨l2, hl2, rfl, rfl⟩ := r2
  obtain ⟨l3, hl3, rfl, rfl⟩ := r3
  have key := sum_y C P2 P3
  have hd := den_y C
  have e1 : (l3 * (1 + P3.1.2) - e * l3 * (1 - P3.1.2)) * (l2 * (1 + P2.1.2) + e * l2 * (1 - P2.1.2)) +
      (l3 * (1 + P3.1.2) + e * l3 * (1 - P3.1.2)) * (l2 * (1 + P2.1.2) - e * l2 * (1 - P2.1.2)) = 4 * l2 * l3 * (P2.1.2 + P3.1.2) := by
    linear_combination (-2 * l2 * l3 * (1 - P2.1.2) * (1 - P3.1.2)) * he
  have e2 : (l3 * (1 + P3.1.2) - e * l3 * (1 - P3.1.2)) * (l2 * (1 + P2.1.2) + e * l2 * (1 - P2.1.2)) -
      (l3 * (1 + P3.1.2) + e * l3 * (1 - P3.1.2)) * (l2 * (1 + P2.1.2) - e * l2 * (1 - P2.1.2)) = 4 * e * l2 * l3 * (P3.1.2 - P2.1.2) := by
    ring
  rw [e1, e2]
  have h4 : (4 : F) ≠ 0 := by
    rw [show (4 : F) = 2 * 2 by norm_num]
    exact mul_ne_zero h2 h2
  have e0 : e ≠ 0 := fun h => by rw [h, zero_mul] at he; exact zero_ne_one he
  apply rep_of he h2
  · apply mul_right_cancel₀ n1
    linear_combination (-16 * l2 ^ 2 * l3 ^ 2) * key + (-16 * e * e * e * l2 ^ 2 * l3 ^ 2 * (P3.1.2 - P2.1.2) ^ 2 * (1 + (P2 + P3).1.2)) * h1 -
      (16 * l2 ^ 2 * l3 ^ 2 * (P3.1.2 - P2.1.2) ^ 2 * (1 + (P2 + P3).1.2) * (1 + (P3 - P2).1.2) * (1 + e * e)) * he
  · intro hs ht
    have s0 : P2.1.2 + P3.1.2 = 0 := by
      have := pow_eq_zero_iff (n := 2) (by omega) |>.mp hs
      rcases mul_eq_zero.mp this with h | h
      · exact absurd h (mul_ne_zero (mul_ne_zero h4 hl2) hl3)
      · exact h
    have t0 : P3.1.2 - P2.1.2 = 0 := by
      rcases mul_eq_zero.mp ht with h | h
      · exact absurd h hx
      · have := pow_eq_zero_iff (n := 2) (by omega) |>.mp h
        rcases mul_eq_zero.mp this with h | h
        · exact absurd h (mul_ne_zero (mul_ne_zero (mul_ne_zero h4 e0) hl2) hl3)
        · exact h
    have y3 : P3.1.2 = 0 := by
      have : 2 * P3.1.2 = 0 := by linear_combination s0 + t0
      exact (mul_eq_zero.mp this).resolve_left h2
    have y2 : P2.1.2 = 0 := by linear_combination s0 - y3
    have x3 : P3.1.1 ^ 2 = -1 := by
      have := P3.2
      unfold On at this
      rw [y3] at this
      linear_combination -this
    have x2 : P2.1.1 ^ 2 = -1 := by
      have := P2.2
      unfold On at this
      rw [y2] at this
      linear_combination -this
    have y1 : (P3 - P2).1.2 = - (P3.1.1 * P2.1.1) := by
      rw [sub_eq_add_neg, add_val, neg_val]
      unfold eadd
      simp only
      rw [y3, y2]
      simp
    rw [y1] at h1 n1
    have : (1 + P3.1.1 * P2.1.1) * (1 - P3.1.1 * P2.1.1) = 0 := by
      linear_combination (-P2.1.1 ^ 2) * x3 + x2
    rcases mul_eq_zero.mp this with h | h
    · apply n1
      linear_combination h
    · apply mul_ne_zero hx n1
      linear_combination h1 + e * h

/-- Doubling; `a` is (A - 2)/4. -/
theorem rep_dbl {e : F} (he : e * e = 1) (h2 : (2 : F) ≠ 0) {a : F} (ha : e * (1 + C.d) * (1 + 2 * a) = 1 - C.d) {P : Pt C} {X Z : F} (r : Rep C e P X Z) :
    Rep C e (P + P) ((X + Z) ^ 2 * (X - Z) ^ 2) (((X + Z) ^ 2 - (X - Z) ^ 2) * ((X + Z) ^ 2 + a * ((X + Z) ^ 2 - (X - Z) ^ 2))) := by
  obtain ⟨l, hl, rfl, rfl⟩ := r
  have key := dbl_y C P
  have hd := den_y C P.1.2
  have hon := P.2
  unfold On at hon
  have hx : P.1.1 ^ 2 * (1 + C.d * P.1.2 ^ 2) = P.1.2 ^ 2 - 1 := by linear_combination -hon
  have k : (1 + P.1.2 ^ 2 + e * (1 + 2 * a) * (1 - P.1.2 ^ 2)) * (1 + P.1.1 ^ 2) = 2 * P.1.2 ^ 2 := by
    apply mul_right_cancel₀ hd
    linear_combination (1 + P.1.2 ^ 2 + e * (1 + 2 * a) * (1 - P.1.2 ^ 2)) * hx + P.1.2 ^ 2 * (1 - P.1.2 ^ 2) * ha
  have e1 : (l * (1 + P.1.2) + e * l * (1 - P.1.2)) ^ 2 * (l * (1 + P.1.2) - e * l * (1 - P.1.2)) ^ 2 = 16 * l ^ 4 * P.1.2 ^ 2 := by
    have : (l * (1 + P.1.2) + e * l * (1 - P.1.2)) * (l * (1 + P.1.2) - e * l * (1 - P.1.2)) = 4 * l ^ 2 * P.1.2 := by
      linear_combination (-l ^ 2 * (1 - P.1.2) ^ 2) * he
    rw [← mul_pow, this]
    ring
  have e2 : (l * (1 + P.1.2) + e * l * (1 - P.1.2)) ^ 2 - (l * (1 + P.1.2) - e * l * (1 - P.1.2)) ^ 2 = 4 * l ^ 2 * e * (1 - P.1.2 ^ 2) := by
    ring
  have e3 : (l * (1 + P.1.2) + e * l * (1 - P.1.2)) ^ 2 + a * (4 * l ^ 2 * e * (1 - P.1.2 ^ 2)) = 2 * l ^ 2 * (1 + P.1.2 ^ 2 + e * (1 + 2 * a) * (1 - P.1.2 ^ 2)) := by
    linear_combination (l ^ 2 * (1 - P.1.2) ^ 2) * he
  rw [e1, e2, e3]
  have h8 : (8 : F) ≠ 0 := by
    rw [show (8 : F) = 2 * 2 * 2 by norm_num]
    exact mul_ne_zero (mul_ne_zero h2 h2) h2
  have h16 : (16 : F) ≠ 0 := by
    rw [show (16 : F) = 2 * 8 by norm_num]
    exact mul_ne_zero h2 h8
  have e0 : e ≠ 0 := fun h => by rw [h, zero_mul] at he; exact zero_ne_one he
  apply rep_of he h2
  · linear_combination (8 * l ^ 4 * (1 + P.1.2 ^ 2 + e * (1 + 2 * a) * (1 - P.1.2 ^ 2))) * key - (8 * l ^ 4 * (1 - (P + P).1.2)) * k -
      (8 * l ^ 4 * (1 - P.1.2 ^ 2) * (1 + P.1.2 ^ 2 + e * (1 + 2 * a) * (1 - P.1.2 ^ 2)) * (1 + (P + P).1.2)) * he
  · intro h
    have hl4 := pow_ne_zero 4 hl
    have y0 : P.1.2 = 0 := by
      have := (mul_eq_zero.mp h).resolve_left (mul_ne_zero h16 hl4)
      exact pow_eq_zero_iff (n := 2) (by omega) |>.mp this
    rw [y0]
    intro hz
    have h1 : 8 * l ^ 4 * e * (1 + e * (1 + 2 * a)) = 0 := by linear_combination hz
    have h3 := (mul_eq_zero.mp h1).resolve_left (mul_ne_zero (mul_ne_zero h8 hl4) e0)
    apply h2
    linear_combination (1 + C.d) * h3 - ha

/-- The u-coordinate; 0 for the neutral element. -/
def uOf (e : F) (P : Pt C) : F := e * (1 + P.1.2) / (1 - P.1.2)

theorem rep_u {e : F} (he : e * e = 1) {P : Pt C} {X Z : F} (r : Rep C e P X Z) : X * Z⁻¹ = uOf e P := by
  obtain ⟨l, hl, rfl, rfl⟩ := r
  have e0 : e ≠ 0 := fun h => by rw [h, zero_mul] at he; exact zero_ne_one he
  have ei : e⁻¹ = e := by
    rw [inv_eq_iff_eq_inv]
    exact eq_inv_of_mul_eq_one_left he
  unfold uOf
  rw [mul_inv, mul_inv, ei, div_eq_mul_inv, show l * (1 + P.1.2) * (e * l⁻¹ * (1 - P.1.2)⁻¹) = l * l⁻¹ * (e * (1 + P.1.2) * (1 - P.1.2)⁻¹) by ring, mul_inv_cancel₀ hl, one_mul]

/-- A point with a u-coordinate other than 0. -/
theorem u_rep {e : F} (he : e * e = 1) (h2 : (2 : F) ≠ 0) {P : Pt C} (h : uOf e P ≠ 0) : uOf e P * (1 - P.1.2) = e * (1 + P.1.2) ∧ 1 - P.1.2 ≠ 0 ∧ Rep C e P (uOf e P) 1 := by
  have hn : 1 - P.1.2 ≠ 0 := fun h0 => h (by unfold uOf; rw [h0, div_zero])
  have h1 : uOf e P * (1 - P.1.2) = e * (1 + P.1.2) := by
    unfold uOf
    rw [div_mul_cancel₀ _ hn]
  exact ⟨h1, hn, rep_of he h2 (by rw [h1]; ring) (fun h0 => absurd h0 h)⟩

/-- A u-coordinate of 0: the neutral element or the point of order 2. -/
theorem u_zero {e : F} (he : e * e = 1) {P : Pt C} : uOf e P = 0 ↔ P.1.1 = 0 := by
  have e0 : e ≠ 0 := fun h => by rw [h, zero_mul] at he; exact zero_ne_one he
  have hon := P.2
  unfold On at hon
  have hx : P.1.1 ^ 2 * (1 + C.d * P.1.2 ^ 2) = P.1.2 ^ 2 - 1 := by linear_combination -hon
  unfold uOf
  rw [div_eq_zero_iff, mul_eq_zero]
  constructor
  · rintro ((h | h) | h)
    · exact absurd h e0
    · have h3 : P.1.1 ^ 2 * (1 + C.d * P.1.2 ^ 2) = 0 := by linear_combination hx + (P.1.2 - 1) * h
      exact pow_eq_zero_iff (n := 2) (by omega) |>.mp ((mul_eq_zero.mp h3).resolve_right (den_y C _))
    · have h3 : P.1.1 ^ 2 * (1 + C.d * P.1.2 ^ 2) = 0 := by linear_combination hx - (1 + P.1.2) * h
      exact pow_eq_zero_iff (n := 2) (by omega) |>.mp ((mul_eq_zero.mp h3).resolve_right (den_y C _))
  · intro h
    rw [h] at hx
    have h3 : (1 + P.1.2) * (1 - P.1.2) = 0 := by linear_combination hx
    rcases mul_eq_zero.mp h3 with h | h
    · exact .inl (.inr h)
    · exact .inr h

/-- These points are a subgroup. -/
theorem mul_x_zero {P : Pt C} (h : P.1.1 = 0) (n : Nat) : (n • P).1.1 = 0 := by
  induction n with
  | zero => rw [zero_nsmul, zero_val]
  | succ n ih =>
    rw [succ_nsmul, add_val]
    unfold eadd
    simp only
    rw [ih, h]
    ring

end Salt.Edwards
