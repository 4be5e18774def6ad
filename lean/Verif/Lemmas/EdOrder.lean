import Verif.Lemmas.EdExt
import Mathlib.GroupTheory.OrderOfElement
import Mathlib.Data.Fintype.Prod

/-! The order of the group is 8 L, where L is prime. -/

namespace Salt.Spec

open Salt.Edwards

theorem prime_7 : Nat.Prime 14741173 :=
  pratt _ 2 [2, 2, 3, 3, 409477]
    (by norm_num)
    (by norm_num) (by norm_num) (by norm_num) (by decide +kernel) (by decide +kernel)

theorem prime_8 : Nat.Prime 58964693 :=
  pratt _ 2 [2, 2, 14741173]
    (by simp only [List.forall_mem_cons]; exact ⟨by norm_num, by norm_num, prime_7, by simp⟩)
    (by norm_num) (by norm_num) (by norm_num) (by decide +kernel) (by decide +kernel)

theorem prime_9 : Nat.Prime 3044861653679985063343 :=
  pratt _ 5 [2, 3, 11, 30703, 82163, 132667, 137849]
    (by norm_num)
    (by norm_num) (by norm_num) (by norm_num) (by decide +kernel) (by decide +kernel)

theorem prime_10 : Nat.Prime 198211423230930754013084525763697 :=
  pratt _ 5 [2, 2, 2, 2, 3, 23, 58964693, 3044861653679985063343]
    (by simp only [List.forall_mem_cons]; exact ⟨by norm_num, by norm_num, by norm_num, by norm_num, by norm_num, by norm_num, prime_8, prime_9, by simp⟩)
    (by norm_num) (by norm_num) (by norm_num) (by decide +kernel) (by decide +kernel)

theorem prime_11 : Nat.Prime 292386187 :=
  pratt _ 2 [2, 3, 3, 3, 3, 307, 5879]
    (by norm_num)
    (by norm_num) (by norm_num) (by norm_num) (by decide +kernel) (by decide +kernel)

theorem prime_12 : Nat.Prime 213441916511 :=
  pratt _ 13 [2, 5, 73, 292386187]
    (by simp only [List.forall_mem_cons]; exact ⟨by norm_num, by norm_num, by norm_num, prime_11, by simp⟩)
    (by norm_num) (by norm_num) (by norm_num) (by decide +kernel) (by decide +kernel)

theorem prime_13 : Nat.Prime 1257559732178653 :=
  pratt _ 2 [2, 2, 3, 7, 23, 531581, 1224481]
    (by norm_num)
    (by norm_num) (by norm_num) (by norm_num) (by decide +kernel) (by decide +kernel)

theorem prime_14 : Nat.Prime 4434155615661930479 :=
  pratt _ 17 [2, 41, 43, 1257559732178653]
    (by simp only [List.forall_mem_cons]; exact ⟨by norm_num, by norm_num, by norm_num, prime_13, by simp⟩)
    (by norm_num) (by norm_num) (by norm_num) (by decide +kernel) (by decide +kernel)

theorem prime_15 : Nat.Prime 172054593956031949258510691 :=
  pratt _ 2 [2, 5, 1361, 2851, 4434155615661930479]
    (by simp only [List.forall_mem_cons]; exact ⟨by norm_num, by norm_num, by norm_num, by norm_num, prime_14, by simp⟩)
    (by norm_num) (by norm_num) (by norm_num) (by decide +kernel) (by decide +kernel)

theorem prime_16 : Nat.Prime 19757330305831588566944191468367130476339 :=
  pratt _ 2 [2, 269, 213441916511, 172054593956031949258510691]
    (by simp only [List.forall_mem_cons]; exact ⟨by norm_num, by norm_num, prime_12, prime_15, by simp⟩)
    (by norm_num) (by norm_num) (by norm_num) (by decide +kernel) (by decide +kernel)

theorem prime_17 : Nat.Prime 276602624281642239937218680557139826668747 :=
  pratt _ 2 [2, 7, 19757330305831588566944191468367130476339]
    (by simp only [List.forall_mem_cons]; exact ⟨by norm_num, by norm_num, prime_16, by simp⟩)
    (by norm_num) (by norm_num) (by norm_num) (by decide +kernel) (by decide +kernel)

theorem orderL_prime : Nat.Prime orderL :=
  pratt _ 2 [2, 2, 3, 11, 198211423230930754013084525763697, 276602624281642239937218680557139826668747]
    (by simp only [List.forall_mem_cons]; exact ⟨by norm_num, by norm_num, by norm_num, by norm_num, prime_10, prime_17, by simp⟩)
    (by decide +kernel) (by decide +kernel) (by decide +kernel) (by decide +kernel) (by decide +kernel)

/-! ### A point is known by y and the lowest bit of x -/

theorem neg_parity {z : Fp} (h : z ≠ 0) : (-z).val % 2 ≠ z.val % 2 := by
  have : NeZero z := ⟨h⟩
  have hl := ZMod.val_lt z
  rw [ZMod.neg_val, if_neg h]
  have hp : p25519 % 2 = 1 := by decide +kernel
  have : 0 < z.val := Nat.pos_of_ne_zero (by rwa [Ne, ZMod.val_eq_zero])
  omega

theorem den_ne (y : Fp) : 1 + edD * y ^ 2 ≠ 0 := by
  intro h
  by_cases hy : y = 0
  · rw [hy] at h
    apply one_ne_zero (α := Fp)
    linear_combination h
  · apply edD_not_square (sqrtM1 * y⁻¹)
    have hs := sqrtM1_sq
    field_simp
    linear_combination hs - h

theorem on_iff_sq (x y : Fp) : OnCurve (x, y) ↔ x ^ 2 * (1 + edD * y ^ 2) = y ^ 2 - 1 := by
  unfold OnCurve
  constructor <;> intro h <;> linear_combination -h

theorem sq_eq {x x' y : Fp} (h : OnCurve (x, y)) (h' : OnCurve (x', y)) : x' = x ∨ x' = -x := by
  rw [on_iff_sq] at h h'
  have : x' ^ 2 = x ^ 2 := mul_right_cancel₀ (den_ne y) (h'.trans h.symm)
  exact sq_eq_sq_iff_eq_or_eq_neg.mp this

theorem point_ext {P Q : Fp × Fp} (hP : OnCurve P) (hQ : OnCurve Q) (hy : P.2 = Q.2) (hx : P.1.val % 2 = Q.1.val % 2) : P = Q := by
  obtain ⟨x, y⟩ := P
  obtain ⟨x', y'⟩ := Q
  simp only at hy hx
  subst hy
  rcases sq_eq hP hQ with h | h
  · rw [h]
  · by_cases h0 : x = 0
    · rw [h, h0, neg_zero]
    · rw [h] at hx
      exact absurd hx.symm (neg_parity h0)

/-! ### The order -/

noncomputable instance : Fintype EdPt := by
  classical
  exact Subtype.fintype (fun P => On curve.d P)

theorem card_le : Fintype.card EdPt ≤ 2 * p25519 := by
  have hc : Nat.card Fp = p25519 := Nat.card_zmod p25519
  have : Finite Fp := Nat.finite_of_card_ne_zero (by rw [hc]; decide)
  let f : EdPt → Fp × Bool := fun P => (P.1.2, decide (P.1.1.val % 2 = 1))
  have hf : Function.Injective f := by
    intro P Q h
    have h1 : P.1.2 = Q.1.2 := congrArg Prod.fst h
    have h2 : decide (P.1.1.val % 2 = 1) = decide (Q.1.1.val % 2 = 1) := congrArg Prod.snd h
    apply Subtype.ext
    apply point_ext P.2 Q.2 h1
    have := decide_eq_decide.mp h2
    omega
  have h := Nat.card_le_card_of_injective f hf
  rw [Nat.card_prod, hc, Nat.card_eq_fintype_card, Nat.card_eq_fintype_card, Fintype.card_bool, Nat.mul_comm] at h
  exact h

theorem base_ne : basePt ≠ 0 := by
  intro h
  have : edBase.1 = 0 := congrArg (fun P : EdPt => P.1.1) h
  revert this
  decide +kernel

theorem addOrder_base : addOrderOf basePt = orderL :=
  haveI : Fact orderL.Prime := ⟨orderL_prime⟩
  addOrderOf_eq_prime order_base base_ne

/-- A point of order 8. -/
def ext8 : Ext :=
  ⟨14399317868200118260347934320527232580618823971194345261214217575416788799818,
   55188659117513257062467267217118295137698188065244968500265048394206261417927, 1,
   49249569669750663008941572433996126643240416652669157144375776867115012622209⟩

theorem on8 : OnCurve (ext8.X, ext8.Y) := by
  unfold OnCurve
  rw [edD_num]
  decide +kernel

def pt8 : EdPt := ⟨(ext8.X, ext8.Y), on8⟩

theorem ext8_is : ext8.Is pt8 := by
  refine ⟨one_ne_zero, by simp [ext8, pt8], by simp [ext8, pt8], by decide +kernel⟩

theorem addOrder_8 : addOrderOf pt8 = 8 := by
  have h2 := extAdd_is ext8_is ext8_is
  have h4 := extAdd_is h2 h2
  have h8 := extAdd_is h4 h4
  rw [← two_nsmul] at h2
  rw [← two_nsmul, ← two_nsmul, ← mul_nsmul] at h4
  rw [← two_nsmul, ← two_nsmul, ← two_nsmul, ← mul_nsmul, ← mul_nsmul] at h8
  have e8 : 8 • pt8 = 0 := by
    refine ext_unique h8 ⟨h8.1, ?_, ?_, ?_⟩
    · rw [zero_val]; decide +kernel
    · rw [zero_val]; decide +kernel
    · rw [zero_val]; decide +kernel
  have e4 : 4 • pt8 ≠ 0 := by
    intro h
    rw [show 2 * 2 = 4 from rfl, h] at h4
    have := h4.2.2.1
    rw [zero_val] at this
    revert this
    decide +kernel
  exact addOrderOf_eq_prime_pow (p := 2) (n := 2) e4 e8

theorem card_eq : Fintype.card EdPt = 8 * orderL := by
  have h1 : orderL ∣ Fintype.card EdPt := addOrder_base ▸ addOrderOf_dvd_card
  have h2 : 8 ∣ Fintype.card EdPt := addOrder_8 ▸ addOrderOf_dvd_card
  have h3 : Nat.Coprime 8 orderL := by decide +kernel
  obtain ⟨k, hk⟩ := h3.mul_dvd_of_dvd_of_dvd h2 h1
  have h4 := card_le
  have h5 : 0 < Fintype.card EdPt := Fintype.card_pos_iff.mpr ⟨0⟩
  have h6 : 2 * p25519 < 8 * orderL * 2 := by decide +kernel
  have : k < 2 := by
    by_contra h
    have : 8 * orderL * 2 ≤ 8 * orderL * k := Nat.mul_le_mul_left _ (by omega)
    omega
  have : k ≠ 0 := by
    intro h
    rw [h, Nat.mul_zero] at hk
    omega
  rw [hk, show k = 1 by omega, Nat.mul_one]

/-- Every point is a torsion point of order 8 L. -/
theorem mul_8L (P : EdPt) : (8 * orderL) • P = 0 := by
  rw [← card_eq]
  exact card_nsmul_eq_zero

end Salt.Spec
