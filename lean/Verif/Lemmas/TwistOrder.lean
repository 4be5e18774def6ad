import Verif.Lemmas.Ladder
import Verif.Lemmas.EdOrder

/-! The order of the twist of Curve25519 divides 8 L', where L' is prime. -/

namespace Salt.Spec

open Salt.Edwards

theorem tprime_0 : Nat.Prime 5171003929967 :=
  pratt _ 5 [2, 7, 31, 181, 2281, 28859]
    (by norm_num)
    (by norm_num) (by norm_num) (by norm_num) (by decide +kernel) (by decide +kernel)

theorem tprime_1 : Nat.Prime 22561162540501040539 :=
  pratt _ 3 [2, 3, 727169, 5171003929967]
    (by simp only [List.forall_mem_cons]; exact ⟨by norm_num, by norm_num, by norm_num, tprime_0, by simp⟩)
    (by norm_num) (by norm_num) (by norm_num) (by decide +kernel) (by decide +kernel)

theorem tprime_2 : Nat.Prime 1013266244677 :=
  pratt _ 2 [2, 2, 3, 7, 383, 3911, 8053]
    (by norm_num)
    (by norm_num) (by norm_num) (by norm_num) (by decide +kernel) (by decide +kernel)

theorem tprime_3 : Nat.Prime 743104567 :=
  pratt _ 6 [2, 3, 3, 3637, 11351]
    (by norm_num)
    (by norm_num) (by norm_num) (by norm_num) (by decide +kernel) (by decide +kernel)

theorem tprime_4 : Nat.Prime 203852586375664218368381551393371968928013 :=
  pratt _ 2 [2, 2, 3, 743104567, 1013266244677, 22561162540501040539]
    (by simp only [List.forall_mem_cons]; exact ⟨by norm_num, by norm_num, by norm_num, tprime_3, tprime_2, tprime_1, by simp⟩)
    (by norm_num) (by norm_num) (by norm_num) (by decide +kernel) (by decide +kernel)

theorem tprime_5 : Nat.Prime 104719073621178708975837602950775180438320278101 :=
  pratt _ 2 [2, 2, 5, 5, 11, 467, 203852586375664218368381551393371968928013]
    (by simp only [List.forall_mem_cons]; exact ⟨by norm_num, by norm_num, by norm_num, by norm_num, by norm_num, by norm_num, tprime_4, by simp⟩)
    (by norm_num) (by norm_num) (by norm_num) (by decide +kernel) (by decide +kernel)

theorem tprime_6 : Nat.Prime 27413359092552162435694767700453926735143482401279781 :=
  pratt _ 2 [2, 2, 3, 5, 4363, 104719073621178708975837602950775180438320278101]
    (by simp only [List.forall_mem_cons]; exact ⟨by norm_num, by norm_num, by norm_num, by norm_num, by norm_num, tprime_5, by simp⟩)
    (by norm_num) (by norm_num) (by norm_num) (by decide +kernel) (by decide +kernel)

theorem tprime_7 : Nat.Prime 1110318119 :=
  pratt _ 7 [2, 7, 13, 487, 12527]
    (by norm_num)
    (by norm_num) (by norm_num) (by norm_num) (by decide +kernel) (by decide +kernel)

theorem tprime_8 : Nat.Prime 2220636239 :=
  pratt _ 23 [2, 1110318119]
    (by simp only [List.forall_mem_cons]; exact ⟨by norm_num, tprime_7, by simp⟩)
    (by norm_num) (by norm_num) (by norm_num) (by decide +kernel) (by decide +kernel)

/-- The large prime factor of the order of the twist. -/
def orderT : Nat := 14474011154664524427946373126085988481603263447650325797860494125407373907997

theorem orderT_prime : Nat.Prime orderT :=
  pratt _ 2 [2, 2, 79, 117223, 6418733, 2220636239, 27413359092552162435694767700453926735143482401279781]
    (by simp only [List.forall_mem_cons]; exact ⟨by norm_num, by norm_num, by norm_num, by norm_num, by norm_num, tprime_8, tprime_6, by simp⟩)
    (by decide +kernel) (by decide +kernel) (by decide +kernel) (by decide +kernel) (by decide +kernel)

theorem edD_inv_const : edD⁻¹ = 29203323570479832313932222820853031755424015489030106335172286495629888845891 := by
  have : edD * 29203323570479832313932222820853031755424015489030106335172286495629888845891 = 1 := by
    rw [edD_num]
    decide +kernel
  exact inv_eq_of_mul_eq_one_right this

/-- A point of the twist with the u-coordinate 2. -/
def ptT : Pt twist := ⟨(31032289694609897211506876138432520350600170318412686932649907045479471720574, 3), by
  show _ = 1 + edD⁻¹ * _ * _
  rw [edD_inv_const]
  decide +kernel⟩

theorem ptT_u : uOf (-1) ptT = 2 := by
  unfold uOf
  show -1 * (1 + 3) / (1 - 3) = (2 : Fp)
  have : (1 - 3 : Fp) ≠ 0 := by decide +kernel
  rw [div_eq_iff this]
  norm_num

theorem neg_one_sq' : (-1 : Fp) * -1 = 1 := by ring

theorem mul_zero_x {C : Curve Fp} {P : Pt C} (h : P.1.1 = 0) : 2 • P = 0 := by
  have hon := P.2
  unfold On at hon
  rw [two_nsmul]
  apply Subtype.ext
  rw [add_val, zero_val]
  unfold eadd
  rw [h] at hon ⊢
  have : P.1.2 * P.1.2 = 1 := by linear_combination hon
  simp [this]

theorem orderT_ptT : (2 * orderT) • ptT = 0 := by
  have h := ladder_mul (C := twist) neg_one_sq' twist_a24 (Q := ptT) (x1 := 2) two_ne ptT_u (n := 254) (k := orderT) (by decide +kernel)
  have h0 : ladderOut 254 orderT 2 = 0 := by
    have hz : (cswap (mladder 2 orderT 254 ⟨1, 0, 2, 1, false⟩).swap (mladder 2 orderT 254 ⟨1, 0, 2, 1, false⟩).z2 (mladder 2 orderT 254 ⟨1, 0, 2, 1, false⟩).z3).1 = 0 := by
      decide +kernel
    unfold ladderOut
    simp only
    rw [hz, inv_zero, mul_zero]
  rw [h0] at h
  rw [Nat.mul_comm, mul_nsmul]
  exact mul_zero_x ((u_zero neg_one_sq').mp h.symm)

theorem two_ptT_ne : 2 • ptT ≠ 0 := by
  intro h
  have : ptT = -ptT := by
    rw [two_nsmul] at h
    exact eq_neg_of_add_eq_zero_left h
  have hx : ptT.1.1 = -ptT.1.1 := by
    conv_lhs => rw [this, neg_val]
  revert hx
  show (31032289694609897211506876138432520350600170318412686932649907045479471720574 : Fp) = -31032289694609897211506876138432520350600170318412686932649907045479471720574 → False
  decide +kernel

theorem addOrder_T : addOrderOf (2 • ptT) = orderT :=
  haveI : Fact orderT.Prime := ⟨orderT_prime⟩
  addOrderOf_eq_prime (by rw [← mul_nsmul]; exact orderT_ptT) two_ptT_ne

/-- A point of order 4. -/
def pt4 : Pt twist := ⟨(sqrtM1, 0), by
  show -sqrtM1 ^ 2 + 0 ^ 2 = 1 + _ * _ * 0 ^ 2
  have := sqrtM1_sq
  linear_combination -this⟩

theorem addOrder_4 : addOrderOf pt4 = 4 := by
  have h2 : (2 • pt4).1 = (0, -1) := by
    rw [two_nsmul, add_val]
    unfold eadd pt4
    simp only
    rw [sqrtM1_sq]
    simp
  refine addOrderOf_eq_prime_pow (p := 2) (n := 1) ?_ ?_
  · intro h
    rw [pow_one] at h
    rw [h, zero_val] at h2
    have : (1 : Fp) = -1 := congrArg Prod.snd h2
    revert this
    decide +kernel
  · rw [show 2 ^ (1 + 1) = 2 * 2 from rfl, mul_nsmul]
    exact mul_zero_x (by rw [h2])

noncomputable instance : Fintype (Pt twist) := by
  classical
  exact Subtype.fintype (fun P => On twist.d P)

theorem twist_sq_eq {x x' y : Fp} (h : On twist.d (x, y)) (h' : On twist.d (x', y)) : x' = x ∨ x' = -x := by
  unfold On at h h'
  have h1 : x ^ 2 * (1 + twist.d * y ^ 2) = y ^ 2 - 1 := by linear_combination -h
  have h2 : x' ^ 2 * (1 + twist.d * y ^ 2) = y ^ 2 - 1 := by linear_combination -h'
  exact sq_eq_sq_iff_eq_or_eq_neg.mp (mul_right_cancel₀ (den_y twist y) (h2.trans h1.symm))

theorem twist_ext {P Q : Fp × Fp} (hP : On twist.d P) (hQ : On twist.d Q) (hy : P.2 = Q.2) (hx : P.1.val % 2 = Q.1.val % 2) : P = Q := by
  obtain ⟨x, y⟩ := P
  obtain ⟨x', y'⟩ := Q
  simp only at hy hx
  subst hy
  rcases twist_sq_eq hP hQ with h | h
  · rw [h]
  · by_cases h0 : x = 0
    · rw [h, h0, neg_zero]
    · rw [h] at hx
      exact absurd hx.symm (neg_parity h0)

theorem twist_card_le : Fintype.card (Pt twist) ≤ 2 * p25519 := by
  have hc : Nat.card Fp = p25519 := Nat.card_zmod p25519
  have : Finite Fp := Nat.finite_of_card_ne_zero (by rw [hc]; decide)
  let f : Pt twist → Fp × Bool := fun P => (P.1.2, decide (P.1.1.val % 2 = 1))
  have hf : Function.Injective f := by
    intro P Q h
    have h1 : P.1.2 = Q.1.2 := congrArg Prod.fst h
    have h2 : decide (P.1.1.val % 2 = 1) = decide (Q.1.1.val % 2 = 1) := congrArg Prod.snd h
    apply Subtype.ext
    apply twist_ext P.2 Q.2 h1
    have := decide_eq_decide.mp h2
    omega
  have h := Nat.card_le_card_of_injective f hf
  rw [Nat.card_prod, hc, Nat.card_eq_fintype_card, Nat.card_eq_fintype_card, Fintype.card_bool, Nat.mul_comm] at h
  exact h

/-- The order of the twist is 4 L' (or 8 L', which is not excluded here). -/
theorem twist_card_dvd : Fintype.card (Pt twist) ∣ 8 * orderT := by
  have h1 : orderT ∣ Fintype.card (Pt twist) := addOrder_T ▸ addOrderOf_dvd_card
  have h2 : 4 ∣ Fintype.card (Pt twist) := addOrder_4 ▸ addOrderOf_dvd_card
  have h3 : Nat.Coprime 4 orderT := by decide +kernel
  obtain ⟨k, hk⟩ := h3.mul_dvd_of_dvd_of_dvd h2 h1
  have h4 := twist_card_le
  have h5 : 0 < Fintype.card (Pt twist) := Fintype.card_pos_iff.mpr ⟨0⟩
  have h6 : 2 * p25519 < 4 * orderT * 3 := by decide +kernel
  have : k < 3 := by
    by_contra h
    have : 4 * orderT * 3 ≤ 4 * orderT * k := Nat.mul_le_mul_left _ (by omega)
    omega
  have : k ≠ 0 := by
    intro h
    rw [h, Nat.mul_zero] at hk
    omega
  rw [hk]
  rcases (show k = 1 ∨ k = 2 by omega) with h | h
  · rw [h]
    exact ⟨2, by ring⟩
  · rw [h]
    exact ⟨1, by ring⟩

theorem mul_8T (P : Pt twist) : (8 * orderT) • P = 0 := by
  obtain ⟨j, hj⟩ := twist_card_dvd
  rw [hj, mul_nsmul, card_nsmul_eq_zero, nsmul_zero]

/-! ### Points of small order -/

/-- The points whose order divides 8. -/
theorem eight_iff {C : Curve Fp} (P : Pt C) : 8 • P = 0 ↔ P.1.1 = 0 ∨ P.1.2 = 0 ∨ P.1.1 ^ 2 + P.1.2 ^ 2 = 0 := by
  have hx2 : ∀ R : Pt C, (2 • R).1.1 = 0 ↔ R.1.1 = 0 ∨ R.1.2 = 0 := by
    intro R
    have hd := den_p C R.2 R.2
    rw [two_nsmul, add_val]
    unfold eadd
    simp only
    rw [mul_eq_zero, inv_eq_zero]
    constructor
    · rintro (h | h)
      · have : 2 * (R.1.1 * R.1.2) = 0 := by linear_combination h
        exact mul_eq_zero.mp ((mul_eq_zero.mp this).resolve_left two_ne)
      · exact absurd h hd
    · rintro (h | h) <;> left <;> rw [h] <;> ring
  have hy2 : ∀ R : Pt C, (2 • R).1.2 = 0 ↔ R.1.1 ^ 2 + R.1.2 ^ 2 = 0 := by
    intro R
    have hd := den_m C R.2 R.2
    rw [two_nsmul, add_val]
    unfold eadd
    simp only
    rw [mul_eq_zero, inv_eq_zero]
    constructor
    · rintro (h | h)
      · linear_combination h
      · exact absurd h hd
    · intro h
      left
      linear_combination h
  have h2 : ∀ R : Pt C, 2 • R = 0 ↔ R.1.1 = 0 := by
    intro R
    constructor
    · intro h
      have : R = -R := by
        rw [two_nsmul] at h
        exact eq_neg_of_add_eq_zero_left h
      have hx : R.1.1 = -R.1.1 := by
        conv_lhs => rw [this, neg_val]
      have : 2 * R.1.1 = 0 := by linear_combination hx
      exact (mul_eq_zero.mp this).resolve_left two_ne
    · exact mul_zero_x
  rw [show 8 • P = 2 • 2 • 2 • P by rw [← mul_nsmul, ← mul_nsmul], h2, hx2, hx2, hy2, or_assoc]

/-- 1 + d has a root. -/
def rootD : Fp := 28684908821141429758912547916212233914183938327803420948194326298794999701186

/-- The second coordinate of the points of order 8 of the curve. -/
def y8 : Fp := 2707385501144840649318225287225658788936804267575313519463743609750303402022

/-- The u-coordinates of the points of order 8. -/
def u8a : Fp := 39382357235489614581723060781553021112529911719440698176882885853963445705823

def u8b : Fp := 325606250916557431795983626356110631294008115727848805560023387167927233504

theorem order8_curve (P : EdPt) (h : P.1.1 ^ 2 + P.1.2 ^ 2 = 0) : P.1.2 = y8 ∨ P.1.2 = -y8 := by
  have hon := P.2
  unfold On at hon
  generalize P.1.1 = x at *
  generalize P.1.2 = y at *
  have hd : curve.d = edD := rfl
  rw [hd] at hon
  have e1 : (edD * y ^ 2 + 1) ^ 2 = rootD ^ 2 := by
    have : rootD ^ 2 = 1 + edD := by rw [edD_num]; decide +kernel
    rw [this]
    linear_combination edD * hon + (edD * (1 + edD * y ^ 2)) * h
  have hn : ∀ s : Fp, s * s ≠ edD * (rootD - 1) := by
    refine not_square _ (p25519 / 2) (by decide +kernel) ?_ ?_
    · rw [edD_num, ← fastPow_eq 255 _ _ (by decide +kernel)]
      decide +kernel
    · rw [edD_num]
      decide +kernel
  have hd0 := edD_ne
  rcases sq_eq_sq_iff_eq_or_eq_neg.mp e1 with h1 | h1
  · exact absurd (show (edD * y) * (edD * y) = edD * (rootD - 1) by linear_combination edD * h1) (hn _)
  · apply sq_eq_sq_iff_eq_or_eq_neg.mp
    apply mul_left_cancel₀ hd0
    have : edD * y8 ^ 2 = -rootD - 1 := by rw [edD_num]; decide +kernel
    rw [this]
    linear_combination h1

theorem order8_twist (P : Pt twist) (h : P.1.1 ^ 2 + P.1.2 ^ 2 = 0) : False := by
  have hon := P.2
  unfold On at hon
  generalize P.1.1 = x at *
  generalize P.1.2 = y at *
  have hd : twist.d = edD⁻¹ := rfl
  rw [hd] at hon
  have hn : ∀ s : Fp, s * s ≠ 1 + edD⁻¹ := by
    refine not_square _ (p25519 / 2) (by decide +kernel) ?_ ?_
    · rw [edD_inv_const, ← fastPow_eq 255 _ _ (by decide +kernel)]
      decide +kernel
    · rw [edD_inv_const]
      decide +kernel
  apply hn (edD⁻¹ * y ^ 2 + 1)
  linear_combination edD⁻¹ * hon + (edD⁻¹ * (1 + edD⁻¹ * y ^ 2)) * h

/-- The u-coordinates of the points whose order divides 8. -/
theorem small_curve (P : EdPt) : 8 • P = 0 ↔ uOf 1 P = 0 ∨ uOf 1 P = 1 ∨ uOf 1 P = u8a ∨ uOf 1 P = u8b := by
  rw [eight_iff, u_zero (mul_one 1)]
  by_cases h0 : P.1.1 = 0
  · exact ⟨fun _ => .inl h0, fun _ => .inl h0⟩
  have hn : 1 - P.1.2 ≠ 0 := by
    intro h
    apply h0
    rw [← u_zero (mul_one (1 : Fp))]
    unfold uOf
    rw [h, div_zero]
  have hu : ∀ u : Fp, uOf 1 P = u ↔ 1 + P.1.2 = u * (1 - P.1.2) := by
    intro u
    unfold uOf
    rw [one_mul, div_eq_iff hn]
  refine or_congr Iff.rfl (or_congr ?_ ?_)
  · rw [hu]
    constructor
    · intro h
      rw [h]
      ring
    · intro h
      have : 2 * P.1.2 = 0 := by linear_combination h
      exact (mul_eq_zero.mp this).resolve_left two_ne
  · have ha : ∀ y : Fp, 1 + y = u8a * (1 - y) ↔ y = y8 := by
      intro y
      have h1 : 1 + u8a ≠ 0 := by decide +kernel
      have h2 : y8 * (1 + u8a) = u8a - 1 := by decide +kernel
      constructor
      · intro h
        apply mul_right_cancel₀ h1
        linear_combination h - h2
      · intro h
        rw [h]
        linear_combination h2
    have hb : ∀ y : Fp, 1 + y = u8b * (1 - y) ↔ y = -y8 := by
      intro y
      have h1 : 1 + u8b ≠ 0 := by decide +kernel
      have h2 : -y8 * (1 + u8b) = u8b - 1 := by decide +kernel
      constructor
      · intro h
        apply mul_right_cancel₀ h1
        linear_combination h - h2
      · intro h
        rw [h]
        linear_combination h2
    rw [hu, hu, ha, hb]
    refine ⟨order8_curve P, ?_⟩
    intro h
    have hy : P.1.2 ^ 2 = y8 ^ 2 := sq_eq_sq_iff_eq_or_eq_neg.mpr h
    have hon : -P.1.1 ^ 2 + P.1.2 ^ 2 = 1 + edD * P.1.1 ^ 2 * P.1.2 ^ 2 := P.2
    generalize P.1.1 ^ 2 = t at *
    have h1 : 1 + edD * y8 ^ 2 ≠ 0 := by rw [edD_num]; decide +kernel
    have h2 : (y8 ^ 2 : Fp) * (1 + edD * y8 ^ 2) = 1 - y8 ^ 2 := by rw [edD_num]; decide +kernel
    apply mul_right_cancel₀ h1
    linear_combination h2 - hon + (2 + edD * y8 ^ 2 - edD * t) * hy

theorem small_twist (P : Pt twist) : 8 • P = 0 ↔ uOf (-1) P = 0 ∨ uOf (-1) P = -1 := by
  rw [eight_iff, u_zero neg_one_sq']
  by_cases h0 : P.1.1 = 0
  · exact ⟨fun _ => .inl h0, fun _ => .inl h0⟩
  have hn : 1 - P.1.2 ≠ 0 := by
    intro h
    apply h0
    rw [← u_zero neg_one_sq']
    unfold uOf
    rw [h, div_zero]
  refine or_congr Iff.rfl ?_
  unfold uOf
  rw [div_eq_iff hn]
  constructor
  · rintro (h | h)
    · rw [h]
      ring
    · exact (order8_twist P h).elim
  · intro h
    left
    have : 2 * P.1.2 = 0 := by linear_combination -h
    exact (mul_eq_zero.mp this).resolve_left two_ne

end Salt.Spec
