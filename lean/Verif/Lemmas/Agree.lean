import Verif.Lemmas.TwistOrder
import Verif.Lemmas.Unpack
import Verif.Spec.X25519Small

/-! Consequences for X25519: agreement of the two sides, and the inputs for which the output is 0. -/

namespace Salt.Spec

open Salt.Edwards Salt.Tweet

/-! ### Scalars and coordinates -/

theorem scalar_bits (k : Bytes) (i : Nat) :
    (decodeScalar k).testBit i = (((k.set 0 (k.getD 0 0 &&& 248)).set 31 ((k.getD 31 0 &&& 127) ||| 64)).getD (i / 8) 0).toNat.testBit (i % 8) :=
  testBit_num _ _

theorem getD_set (b : Bytes) (i j : Nat) (x : UInt8) (h : i < b.length) : (b.set i x).getD j 0 = if i = j then x else b.getD j 0 := by
  rw [List.getD_eq_getElem?_getD, List.getElem?_set, List.getD_eq_getElem?_getD]
  split
  · simp
  · rfl

theorem scalar_byte (k : Bytes) (h : k.length = 32) (i : Nat) :
    ((k.set 0 (k.getD 0 0 &&& 248)).set 31 ((k.getD 31 0 &&& 127) ||| 64)).getD i 0 =
      if i = 31 then (k.getD 31 0 &&& 127) ||| 64 else if i = 0 then k.getD 0 0 &&& 248 else k.getD i 0 := by
  rw [getD_set _ _ _ _ (by rw [List.length_set]; omega), getD_set _ _ _ _ (by omega)]
  simp only [eq_comm]

theorem scalar_lt (k : Bytes) (h : k.length = 32) : decodeScalar k < 2 ^ 255 := by
  apply Nat.lt_pow_two_of_testBit
  intro i hi
  rw [scalar_bits k, scalar_byte k h]
  by_cases hb : i / 8 = 31
  · rw [if_pos hb, show i % 8 = 7 by omega]
    generalize k.getD 31 0 = b
    rw [UInt8.toNat_or, UInt8.toNat_and, Nat.testBit_or, Nat.testBit_and, show (127 : UInt8).toNat.testBit 7 = false by decide, show (64 : UInt8).toNat.testBit 7 = false by decide, Bool.and_false, Bool.or_false]
  · rw [if_neg hb, if_neg (by omega), List.getD_eq_getElem?_getD, List.getElem?_eq_none (by omega)]
    exact Nat.zero_testBit _

theorem scalar_ge (k : Bytes) (h : k.length = 32) : 2 ^ 254 ≤ decodeScalar k := by
  apply Nat.ge_two_pow_of_testBit
  rw [scalar_bits k, scalar_byte k h]
  rw [if_pos (by rfl)]
  generalize k.getD 31 0 = b
  rw [UInt8.toNat_or, Nat.testBit_or, show (64 : UInt8).toNat.testBit (254 % 8) = true by decide, Bool.or_true]

theorem scalar_mod (k : Bytes) (h : k.length = 32) : decodeScalar k % 8 = 0 := by
  have hb : ∀ i, i < 3 → (decodeScalar k).testBit i = false := by
    intro i hi
    rw [scalar_bits k, scalar_byte k h, if_neg (by omega), if_pos (by omega), Nat.mod_eq_of_lt (by omega)]
    generalize k.getD 0 0 = b
    have : ∀ i, i < 3 → (248 : UInt8).toNat.testBit i = false := by decide
    rw [UInt8.toNat_and, Nat.testBit_and, this i hi, Bool.and_false]
  apply Nat.eq_of_testBit_eq
  intro i
  rw [show (8 : Nat) = 2 ^ 3 from rfl, Nat.testBit_mod_two_pow, Nat.zero_testBit]
  by_cases hi : i < 3
  · rw [hb i hi, Bool.and_false]
  · rw [decide_eq_false hi, Bool.false_and]

/-- The scalars are 8 times a number between 2^251 and 2^252. -/
theorem scalar_form (k : Bytes) (h : k.length = 32) : ∃ c, decodeScalar k = 8 * c ∧ 2 ^ 251 ≤ c ∧ c < 2 ^ 252 := by
  refine ⟨decodeScalar k / 8, ?_, ?_, ?_⟩
  · have := scalar_mod k h
    omega
  · have := scalar_ge k h
    omega
  · have := scalar_lt k h
    omega

theorem decode_encodeU (z : Fp) : decodeU (encodeU z) = z := by
  have h1 := fp_val_lt z
  unfold decodeU encodeU
  rw [num_digits, Nat.mod_eq_of_lt (a := z.val) (by rw [show (256 : Nat) ^ 32 = 2 ^ 255 + 2 ^ 255 from by norm_num]; omega), Nat.mod_eq_of_lt h1, ZMod.natCast_zmod_val]

theorem encodeU_inj {x y : Fp} (h : encodeU x = encodeU y) : x = y := digits_val_inj h

theorem encodeU_zero : encodeU 0 = List.replicate 32 0 := by decide +kernel

theorem encodeU_zero_iff (x : Fp) : encodeU x = List.replicate 32 0 ↔ x = 0 := by
  rw [← encodeU_zero]
  exact ⟨encodeU_inj, fun h => by rw [h]⟩

/-! ### Agreement -/

theorem x25519_comm (a b u : Bytes) (ha : a.length = 32) (hb : b.length = 32) : x25519 a (x25519 b u) = x25519 b (x25519 a u) := by
  rw [x25519_out a (x25519 b u), x25519_out b (x25519 a u), x25519_out b u, x25519_out a u, decode_encodeU, decode_encodeU]
  rw [ladder_comm (by omega) (scalar_lt a ha) (scalar_lt b hb)]

/-! ### Output 0 -/

theorem uOf_zero {C : Curve Fp} (e : Fp) : uOf e (0 : Pt C) = 0 := by
  unfold uOf
  rw [zero_val, sub_self, div_zero]

theorem u_two {C : Curve Fp} {e : Fp} (he : e * e = 1) (P : Pt C) : uOf e P = 0 ↔ 2 • P = 0 := by
  rw [u_zero he]
  constructor
  · exact mul_zero_x
  · intro h
    have : P = -P := by
      rw [two_nsmul] at h
      exact eq_neg_of_add_eq_zero_left h
    have hx : P.1.1 = -P.1.1 := by
      conv_lhs => rw [this, neg_val]
    have : 2 * P.1.1 = 0 := by linear_combination hx
    exact (mul_eq_zero.mp this).resolve_left two_ne

theorem mul_iff {C : Curve Fp} {e : Fp} (he : e * e = 1) {q : Nat} (hq : q.Prime) (h2 : q ≠ 2) (Q : Pt C) (h8 : (8 * q) • Q = 0) {c : Nat} (hc : 0 < c) (hcq : c < q) :
    uOf e ((8 * c) • Q) = 0 ↔ 8 • Q = 0 := by
  constructor
  · intro h
    rw [u_two he, ← mul_nsmul] at h
    have d1 := addOrderOf_dvd_of_nsmul_eq_zero h
    have d2 := addOrderOf_dvd_of_nsmul_eq_zero h8
    have hg : Nat.gcd (8 * c * 2) (8 * q) = 8 := by
      rw [Nat.mul_assoc, Nat.gcd_mul_left]
      have : Nat.Coprime (c * 2) q := by
        apply Nat.Coprime.mul_left
        · exact (Nat.coprime_of_lt_prime (by omega) hcq hq).symm
        · exact (Nat.coprime_primes Nat.prime_two hq).mpr (Ne.symm h2)
      rw [this, Nat.mul_one]
    have d3 := Nat.dvd_gcd d1 d2
    rw [hg] at d3
    exact addOrderOf_dvd_iff_nsmul_eq_zero.mp d3
  · intro h
    rw [mul_nsmul, h, nsmul_zero, uOf_zero]

theorem orderL_gt : 2 ^ 252 ≤ orderL := by decide +kernel

theorem orderT_gt : 2 ^ 252 ≤ orderT := by decide +kernel

/-- Whether the output is 0 does not depend on the scalar. -/
theorem ladder_zero_iff {n m c d : Nat} (hc : 0 < c) (hc' : c < 2 ^ 252) (hd : 0 < d) (hd' : d < 2 ^ 252) (hn : 8 * c < 2 ^ n) (hm : 8 * d < 2 ^ m) (u : Fp) :
    ladderOut n (8 * c) u = 0 ↔ ladderOut m (8 * d) u = 0 := by
  have n0 : n ≠ 0 := by rintro rfl; omega
  have m0 : m ≠ 0 := by rintro rfl; omega
  have h1 := orderL_gt
  have h2 := orderT_gt
  rcases exists_point u with ⟨Q, rfl⟩ | ⟨Q, rfl⟩
  · rw [ladder_point (one_mul 1) curve_a24 Q n0 hn, ladder_point (one_mul 1) curve_a24 Q m0 hm,
      mul_iff (one_mul 1) orderL_prime (by decide +kernel) Q (mul_8L Q) hc (by omega), mul_iff (one_mul 1) orderL_prime (by decide +kernel) Q (mul_8L Q) hd (by omega)]
  · rw [ladder_point neg_one_sq' twist_a24 Q n0 hn, ladder_point neg_one_sq' twist_a24 Q m0 hm,
      mul_iff neg_one_sq' orderT_prime (by decide +kernel) Q (mul_8T Q) hc (by omega), mul_iff neg_one_sq' orderT_prime (by decide +kernel) Q (mul_8T Q) hd (by omega)]

theorem u8_eq : u8a = 39382357235489614581723060781553021112529911719440698176882885853963445705823 ∧
    u8b = 325606250916557431795983626356110631294008115727848805560023387167927233504 := ⟨rfl, rfl⟩

theorem ladderOut_zero_of {n k : Nat} {u : Fp} (s : MLadder) (hs : mladder u k n ⟨1, 0, u, 1, false⟩ = s) (h : (cswap s.swap s.x2 s.x3).1 = 0 ∨ (cswap s.swap s.z2 s.z3).1 = 0) :
    ladderOut n k u = 0 := by
  unfold ladderOut
  rw [hs]
  simp only
  rcases h with h | h
  · rw [h, zero_mul]
  · generalize (cswap s.swap s.x2 s.x3).1 = x
    rw [h, inv_zero, mul_zero]

def ladderNum (u : Fp) : Fp := (cswap (mladder u (8 * 1) 4 ⟨1, 0, u, 1, false⟩).swap (mladder u (8 * 1) 4 ⟨1, 0, u, 1, false⟩).x2 (mladder u (8 * 1) 4 ⟨1, 0, u, 1, false⟩).x3).1

def ladderDen (u : Fp) : Fp := (cswap (mladder u (8 * 1) 4 ⟨1, 0, u, 1, false⟩).swap (mladder u (8 * 1) 4 ⟨1, 0, u, 1, false⟩).z2 (mladder u (8 * 1) 4 ⟨1, 0, u, 1, false⟩).z3).1

theorem ladder_8 (u : Fp) : ladderOut 4 (8 * 1) u = 0 ↔ u ∈ smallOrderU := by
  constructor
  · rcases exists_point u with ⟨Q, rfl⟩ | ⟨Q, rfl⟩
    · rw [ladder_point (one_mul 1) curve_a24 Q (n := 4) (k := 8 * 1) (by omega) (by omega), mul_iff (one_mul 1) orderL_prime (by decide +kernel) Q (mul_8L Q) (c := 1) (by omega) (by decide +kernel), small_curve]
      unfold smallOrderU
      rw [← u8_eq.1, ← u8_eq.2]
      generalize uOf 1 Q = u
      generalize u8a = a
      generalize u8b = b
      simp only [List.mem_cons]
      tauto
    · rw [ladder_point neg_one_sq' twist_a24 Q (n := 4) (k := 8 * 1) (by omega) (by omega), mul_iff neg_one_sq' orderT_prime (by decide +kernel) Q (mul_8T Q) (c := 1) (by omega) (by decide +kernel), small_twist]
      unfold smallOrderU
      rw [← u8_eq.1, ← u8_eq.2]
      generalize uOf (-1) Q = u
      generalize u8a = a
      generalize u8b = b
      simp only [List.mem_cons]
      tauto
  · intro h
    have key : ∀ v : Fp, ladderNum v = 0 ∨ ladderDen v = 0 → ladderOut 4 (8 * 1) v = 0 := fun v hv => ladderOut_zero_of _ rfl hv
    unfold smallOrderU at h
    simp only [List.mem_cons, List.not_mem_nil, or_false] at h
    rcases h with h | h | h | h | h
    · rw [h]; exact key _ (by decide +kernel)
    · rw [h]; exact key _ (by decide +kernel)
    · rw [h]; exact key _ (by decide +kernel)
    · rw [h]; exact key _ (by decide +kernel)
    · rw [h]; exact key _ (by decide +kernel)

/-- The shared secret is 0 exactly for the u-coordinates of small order, whatever the scalar. -/
theorem x25519_zero_iff (k u : Bytes) (hk : k.length = 32) : x25519 k u = List.replicate 32 0 ↔ decodeU u ∈ smallOrderU := by
  obtain ⟨c, hc, h1, h2⟩ := scalar_form k hk
  have h3 := scalar_lt k hk
  rw [hc] at h3
  have h4 : 0 < 2 ^ 251 := Nat.two_pow_pos _
  rw [x25519_out, encodeU_zero_iff, hc, ladder_zero_iff (by omega) h2 (by omega) (by omega) h3 (m := 4) (d := 1) (by omega), ladder_8]

/-! ### Multiples of the base point -/

theorem base_u : uOf 1 basePt = 9 := by
  unfold uOf
  have h1 : (1 - edBase.2) ≠ 0 := by decide +kernel
  show 1 * (1 + edBase.2) / (1 - edBase.2) = 9
  rw [div_eq_iff h1]
  decide +kernel

theorem decode_base9 : decodeU base9 = 9 := by decide +kernel

theorem x25519_base (k : Bytes) (hk : k.length = 32) : x25519 k base9 = encodeU (uOf 1 (decodeScalar k • basePt)) := by
  rw [x25519_out, decode_base9, ← base_u, ladder_point (one_mul 1) curve_a24 basePt (by omega) (scalar_lt k hk)]

theorem base_mul_ne {m : Nat} (h : ¬ orderL ∣ m) : m • basePt ≠ 0 := by
  intro h0
  apply h
  rw [← addOrder_base]
  exact addOrderOf_dvd_of_nsmul_eq_zero h0

/-- A public key is never of small order. -/
theorem public_not_small (k : Bytes) (hk : k.length = 32) : decodeU (x25519 k base9) ∉ smallOrderU := by
  obtain ⟨c, hc, h1, h2⟩ := scalar_form k hk
  rw [x25519_base k hk, decode_encodeU, ← ladder_8, ladder_point (one_mul 1) curve_a24 _ (n := 4) (k := 8 * 1) (by omega) (by omega),
    mul_iff (one_mul 1) orderL_prime (by decide +kernel) _ (mul_8L _) (c := 1) (by omega) (by decide +kernel), ← mul_nsmul, hc]
  apply base_mul_ne
  intro hd
  have h3 := orderL_gt
  have h4 : 0 < 2 ^ 251 := Nat.two_pow_pos _
  rw [show 8 * c * 8 = 64 * c by ring] at hd
  rcases (Nat.Prime.dvd_mul orderL_prime).mp hd with h | h
  · have := Nat.le_of_dvd (by omega) h
    omega
  · have := Nat.le_of_dvd (by omega) h
    omega

theorem den_of_ne {P : EdPt} (h : P ≠ 0) : 1 - P.1.2 ≠ 0 := by
  intro h1
  apply h
  have hy : P.1.2 = 1 := by linear_combination -h1
  have hx : P.1.1 = 0 := by
    rw [← u_zero (e := (1 : Fp)) (one_mul 1)]
    unfold uOf
    rw [h1, div_zero]
  apply Subtype.ext
  rw [zero_val]
  exact Prod.ext hx hy

theorem u_eq_iff {P Q : EdPt} (hP : P ≠ 0) (hQ : Q ≠ 0) : uOf 1 P = uOf 1 Q ↔ P = Q ∨ P = -Q := by
  have dP := den_of_ne hP
  have dQ := den_of_ne hQ
  constructor
  · intro h
    unfold uOf at h
    rw [div_eq_div_iff dP dQ] at h
    have hy : P.1.2 = Q.1.2 := by
      have : 2 * (P.1.2 - Q.1.2) = 0 := by linear_combination h
      linear_combination (mul_eq_zero.mp this).resolve_left two_ne
    have hP2 : OnCurve (P.1.1, Q.1.2) := by rw [← hy]; exact P.2
    rcases sq_eq (x := Q.1.1) (y := Q.1.2) Q.2 hP2 with h1 | h1
    · exact .inl (Subtype.ext (Prod.ext h1 hy))
    · right
      apply Subtype.ext
      rw [neg_val]
      exact Prod.ext h1 hy
  · rintro (h | h)
    · rw [h]
    · rw [h]
      unfold uOf
      rw [neg_y]

/-- Two secret keys have the same public key if and only if their scalars are equal or add up to 8 L. -/
theorem public_eq_iff (a b : Bytes) (ha : a.length = 32) (hb : b.length = 32) :
    x25519 a base9 = x25519 b base9 ↔ decodeScalar a = decodeScalar b ∨ decodeScalar a + decodeScalar b = 8 * orderL := by
  obtain ⟨c, hc, h1, h2⟩ := scalar_form a ha
  obtain ⟨d, hd, h3, h4⟩ := scalar_form b hb
  have hL := orderL_gt
  have h0 : 0 < 2 ^ 251 := Nat.two_pow_pos _
  have nz : ∀ m, 0 < m → m < 2 ^ 252 → (8 * m) • basePt ≠ 0 := by
    intro m hm hm' 
    apply base_mul_ne
    intro hd
    rcases (Nat.Prime.dvd_mul orderL_prime).mp hd with h | h
    · have := Nat.le_of_dvd (by omega) h
      omega
    · have := Nat.le_of_dvd (by omega) h
      omega
  have cop : ∀ m, orderL ∣ 8 * m → orderL ∣ m := by
    intro m hm
    rcases (Nat.Prime.dvd_mul orderL_prime).mp hm with h | h
    · have := Nat.le_of_dvd (by omega) h
      omega
    · exact h
  rw [x25519_base a ha, x25519_base b hb, hc, hd]
  have e1 : encodeU (uOf 1 ((8 * c) • basePt)) = encodeU (uOf 1 ((8 * d) • basePt)) ↔ uOf 1 ((8 * c) • basePt) = uOf 1 ((8 * d) • basePt) :=
    ⟨encodeU_inj, fun h => by rw [h]⟩
  rw [e1, u_eq_iff (nz c (by omega) h2) (nz d (by omega) h4)]
  refine or_congr ?_ ?_
  · constructor
    · intro h
      have hm : 8 * c ≡ 8 * d [MOD orderL] := by
        rw [← addOrder_base]
        exact nsmul_eq_nsmul_iff_modEq.mp h
      rcases Nat.le_total c d with hcd | hcd
      · have h5 := cop (d - c) (by rw [Nat.mul_sub]; exact (Nat.modEq_iff_dvd' (by omega)).mp hm)
        rcases Nat.eq_zero_or_pos (d - c) with h6 | h6
        · omega
        · have := Nat.le_of_dvd h6 h5
          omega
      · have h5 := cop (c - d) (by rw [Nat.mul_sub]; exact (Nat.modEq_iff_dvd' (by omega)).mp hm.symm)
        rcases Nat.eq_zero_or_pos (c - d) with h6 | h6
        · omega
        · have := Nat.le_of_dvd h6 h5
          omega
    · intro h
      rw [h]
  · rw [eq_neg_iff_add_eq_zero, ← add_nsmul]
    constructor
    · intro h
      have h5 := addOrderOf_dvd_of_nsmul_eq_zero h
      rw [addOrder_base, ← Nat.mul_add] at h5
      obtain ⟨j, hj⟩ := cop _ h5
      have : j = 1 := by
        have j0 : j ≠ 0 := by
          rintro rfl
          rw [Nat.mul_zero] at hj
          omega
        by_contra h6
        have : orderL * 2 ≤ orderL * j := Nat.mul_le_mul_left _ (by omega)
        omega
      rw [this] at hj
      omega
    · intro h
      rw [h, Nat.mul_comm, mul_nsmul, order_base, nsmul_zero]

end Salt.Spec
