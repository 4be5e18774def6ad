import Verif.Lemmas.Twist
import Verif.Spec.X25519

/-! The Montgomery ladder of RFC 7748 computes multiples of a point. -/

namespace Salt.Spec

open Salt.Edwards

/-- Before the swap that is still to be done, the ladder holds the multiples m and m + 1 of Q. -/
def LInv {C : Curve Fp} (e : Fp) (Q : Pt C) (m : Nat) (s : MLadder) : Prop :=
  if s.swap then Rep C e (m • Q) s.x3 s.z3 ∧ Rep C e ((m + 1) • Q) s.x2 s.z2
  else Rep C e (m • Q) s.x2 s.z2 ∧ Rep C e ((m + 1) • Q) s.x3 s.z3

theorem neg_y {C : Curve Fp} (P : Pt C) : (-P).1.2 = P.1.2 := by rw [neg_val]

theorem step_core {C : Curve Fp} {e x1 : Fp} (he : e * e = 1) (ha : e * (1 + C.d) * (1 + 2 * 121665) = 1 - C.d) {Q : Pt C} (hx : x1 ≠ 0)
    (hq : uOf e Q = x1) {P2 P3 : Pt C} (hd : P3 - P2 = Q ∨ P3 - P2 = -Q) {x2 z2 x3 z3 : Fp} (r2 : Rep C e P2 x2 z2) (r3 : Rep C e P3 x3 z3) (kt : Bool) :
    Rep C e (P2 + P2) (mladderStep x1 ⟨x2, z2, x3, z3, kt⟩ kt).x2 (mladderStep x1 ⟨x2, z2, x3, z3, kt⟩ kt).z2 ∧
    Rep C e (P2 + P3) (mladderStep x1 ⟨x2, z2, x3, z3, kt⟩ kt).x3 (mladderStep x1 ⟨x2, z2, x3, z3, kt⟩ kt).z3 := by
  obtain ⟨h1, hn, -⟩ := u_rep he two_ne (P := Q) (by rw [hq]; exact hx)
  have hy : (P3 - P2).1.2 = Q.1.2 := by
    rcases hd with h | h
    · rw [h]
    · rw [h, neg_y]
  have a1 := rep_dbl he two_ne ha r2
  have a2 := rep_add he two_ne r2 r3 (x1 := x1) (by rw [hy, ← hq]; exact h1) (by rw [hy]; exact hn) hx
  unfold mladderStep
  simp only [Bool.xor_self, cswap, Bool.false_eq_true, if_false]
  exact ⟨a1, a2⟩

theorem step_swap (x1 : Fp) (s : MLadder) (kt : Bool) :
    mladderStep x1 s kt = mladderStep x1 ⟨(cswap (s.swap ^^ kt) s.x2 s.x3).1, (cswap (s.swap ^^ kt) s.z2 s.z3).1, (cswap (s.swap ^^ kt) s.x2 s.x3).2, (cswap (s.swap ^^ kt) s.z2 s.z3).2, kt⟩ kt := by
  unfold mladderStep
  simp only [Bool.xor_self]
  rfl

theorem step_inv {C : Curve Fp} {e x1 : Fp} (he : e * e = 1) (ha : e * (1 + C.d) * (1 + 2 * 121665) = 1 - C.d) {Q : Pt C} (hx : x1 ≠ 0)
    (hq : uOf e Q = x1) {m : Nat} {s : MLadder} (h : LInv e Q m s) (kt : Bool) : LInv e Q (2 * m + kt.toNat) (mladderStep x1 s kt) := by
  have hs : (mladderStep x1 s kt).swap = kt := rfl
  rw [step_swap] at hs ⊢
  unfold LInv
  rw [hs]
  obtain ⟨x2, z2, x3, z3, sw⟩ := s
  unfold LInv at h
  cases kt
  · have hr : Rep C e (m • Q) (cswap (sw ^^ false) x2 x3).1 (cswap (sw ^^ false) z2 z3).1 ∧ Rep C e ((m + 1) • Q) (cswap (sw ^^ false) x2 x3).2 (cswap (sw ^^ false) z2 z3).2 := by
      cases sw
      · exact h
      · exact h
    have hc := step_core he ha hx hq (.inl (by rw [succ_nsmul, add_sub_cancel_left])) hr.1 hr.2 false
    simp only [Bool.false_eq_true, if_false, Bool.toNat_false, Nat.add_zero]
    rw [show m • Q + m • Q = (2 * m) • Q by rw [← add_nsmul, two_mul], show m • Q + (m + 1) • Q = (2 * m + 1) • Q by rw [← add_nsmul]; congr 1; omega] at hc
    exact hc
  · have hr : Rep C e ((m + 1) • Q) (cswap (sw ^^ true) x2 x3).1 (cswap (sw ^^ true) z2 z3).1 ∧ Rep C e (m • Q) (cswap (sw ^^ true) x2 x3).2 (cswap (sw ^^ true) z2 z3).2 := by
      cases sw
      · exact ⟨h.2, h.1⟩
      · exact ⟨h.2, h.1⟩
    have hc := step_core he ha hx hq (.inr (by rw [succ_nsmul, sub_add_cancel_left])) hr.1 hr.2 true
    simp only [if_true, Bool.toNat_true]
    rw [show (m + 1) • Q + (m + 1) • Q = (2 * m + 1 + 1) • Q by rw [← add_nsmul]; congr 1; omega, show (m + 1) • Q + m • Q = (2 * m + 1) • Q by rw [← add_nsmul]; congr 1; omega] at hc
    exact ⟨hc.2, hc.1⟩

theorem ladder_inv {C : Curve Fp} {e x1 : Fp} (he : e * e = 1) (ha : e * (1 + C.d) * (1 + 2 * 121665) = 1 - C.d) {Q : Pt C} (hx : x1 ≠ 0)
    (hq : uOf e Q = x1) (k n : Nat) : ∀ s, LInv e Q (k / 2 ^ n) s → LInv e Q k (mladder x1 k n s) := by
  induction n with
  | zero =>
    intro s h
    rw [pow_zero, Nat.div_one] at h
    exact h
  | succ n ih =>
    intro s h
    apply ih
    have := step_inv he ha hx hq h (k.testBit n)
    have hk : 2 * (k / 2 ^ (n + 1)) + (k.testBit n).toNat = k / 2 ^ n := by
      rw [Nat.toNat_testBit, Nat.pow_succ, ← Nat.div_div_eq_div_mul]
      omega
    rw [hk] at this
    exact this

/-- The output of a ladder of `n` steps, before it is encoded. -/
def ladderOut (n k : Nat) (x1 : Fp) : Fp :=
  let s := mladder x1 k n ⟨1, 0, x1, 1, false⟩
  let (x2, _) := cswap s.swap s.x2 s.x3
  let (z2, _) := cswap s.swap s.z2 s.z3
  x2 * z2⁻¹

theorem x25519_out (k u : Bytes) : x25519 k u = encodeU (ladderOut 255 (decodeScalar k) (decodeU u)) := by
  unfold x25519 ladderOut
  simp only
  rw [pow_p2 _ _ rfl]

theorem ladder_mul {C : Curve Fp} {e x1 : Fp} (he : e * e = 1) (ha : e * (1 + C.d) * (1 + 2 * 121665) = 1 - C.d) {Q : Pt C} (hx : x1 ≠ 0)
    (hq : uOf e Q = x1) {n k : Nat} (hk : k < 2 ^ n) : ladderOut n k x1 = uOf e (k • Q) := by
  obtain ⟨-, -, hr⟩ := u_rep he two_ne (P := Q) (by rw [hq]; exact hx)
  have h0 : LInv e Q (k / 2 ^ n) ⟨1, 0, x1, 1, false⟩ := by
    rw [Nat.div_eq_of_lt hk]
    unfold LInv
    simp only [Bool.false_eq_true, if_false, zero_nsmul, Nat.zero_add, one_nsmul]
    refine ⟨rep_zero e two_ne, ?_⟩
    rw [← hq]
    exact hr
  have h := ladder_inv he ha hx hq k n _ h0
  unfold ladderOut
  generalize mladder x1 k n _ = s at h
  unfold LInv at h
  rcases s with ⟨x2, z2, x3, z3, sw⟩
  cases sw
  · exact rep_u he h.1
  · exact rep_u he h.1

/-- For a u-coordinate of 0 both z are 0 after a step, or one of the x and the other z. -/
theorem ladder_zero_inv (k n : Nat) : ∀ s : MLadder, (s.z2 = 0 ∧ s.z3 = 0 ∨ (s.x2 = 1 ∧ s.z2 = 0 ∧ s.x3 = 0 ∧ s.swap = false)) →
    (mladder 0 k n s).z2 = 0 ∧ (mladder 0 k n s).z3 = 0 ∨ n = 0 := by
  induction n with
  | zero => intro s _; exact .inr rfl
  | succ n ih =>
    intro s h
    left
    have h1 : (mladderStep 0 s (k.testBit n)).z2 = 0 ∧ (mladderStep 0 s (k.testBit n)).z3 = 0 := by
      rcases s with ⟨x2, z2, x3, z3, sw⟩
      unfold mladderStep
      simp only at h
      simp only [zero_mul, and_true]
      rcases h with ⟨h1, h2⟩ | ⟨h1, h2, h3, h4⟩
      · rw [h1, h2]
        unfold cswap
        split <;> ring
      · rw [h1, h2, h3, h4]
        unfold cswap
        split <;> ring
    by_cases hn : n = 0
    · subst hn
      exact h1
    · exact (ih _ (.inl h1)).resolve_right hn

theorem ladder_zero {n : Nat} (hn : n ≠ 0) (k : Nat) : ladderOut n k 0 = 0 := by
  have h := (ladder_zero_inv k n ⟨1, 0, 0, 1, false⟩ (.inr ⟨rfl, rfl, rfl, rfl⟩)).resolve_right hn
  unfold ladderOut
  generalize mladder 0 k n _ = s at h
  rcases s with ⟨x2, z2, x3, z3, sw⟩
  simp only at h
  rw [h.1, h.2]
  cases sw <;> simp [cswap]

/-- The ladder multiplies, on the curve or on its twist, whichever has a point with this u-coordinate. -/
theorem ladder_point {C : Curve Fp} {e : Fp} (he : e * e = 1) (ha : e * (1 + C.d) * (1 + 2 * 121665) = 1 - C.d) (Q : Pt C) {n k : Nat} (hn : n ≠ 0) (hk : k < 2 ^ n) :
    ladderOut n k (uOf e Q) = uOf e (k • Q) := by
  by_cases hx : uOf e Q = 0
  · rw [hx, ladder_zero hn]
    exact ((u_zero he).mpr (mul_x_zero ((u_zero he).mp hx) k)).symm
  · exact ladder_mul he ha hx rfl hk

theorem ladder_comm {n a b : Nat} (hn : n ≠ 0) (ha : a < 2 ^ n) (hb : b < 2 ^ n) (u : Fp) : ladderOut n a (ladderOut n b u) = ladderOut n b (ladderOut n a u) := by
  rcases exists_point u with ⟨Q, rfl⟩ | ⟨Q, rfl⟩
  · have h1 : (1 : Fp) * 1 = 1 := one_mul _
    rw [ladder_point h1 curve_a24 Q hn ha, ladder_point h1 curve_a24 Q hn hb, ladder_point h1 curve_a24 _ hn ha, ladder_point h1 curve_a24 _ hn hb, ← mul_nsmul, ← mul_nsmul, mul_comm]
  · have h1 : (-1 : Fp) * -1 = 1 := by ring
    rw [ladder_point h1 twist_a24 Q hn ha, ladder_point h1 twist_a24 Q hn hb, ladder_point h1 twist_a24 _ hn ha, ladder_point h1 twist_a24 _ hn hb, ← mul_nsmul, ← mul_nsmul, mul_comm]

end Salt.Spec
