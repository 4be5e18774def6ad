import Verif.Spec.X25519
import Mathlib.NumberTheory.LucasPrimality
import Mathlib.FieldTheory.Finite.Basic
import Mathlib.Tactic.NormNum.Prime

/-! 2^255 - 19 is a prime number (a certificate of Pratt). -/

namespace Salt.Spec

/-- Powers modulo `m`, of exponents of at most `f` bits. -/
def powMod (m : Nat) : Nat → Nat → Nat → Nat
  | 0, _, _ => 1 % m
  | f + 1, x, n => ((if n % 2 = 1 then x else 1) * powMod m f (x * x % m) (n / 2)) % m

theorem powMod_eq (m f : Nat) : ∀ x n, n < 2 ^ f → powMod m f x n = x ^ n % m := by
  induction f with
  | zero =>
    intro x n h
    have : n = 0 := by simpa using h
    subst this
    rw [powMod, pow_zero]
  | succ f ih =>
    intro x n h
    have h2 : n / 2 < 2 ^ f := by rw [Nat.pow_succ] at h; omega
    rw [powMod, ih _ _ h2, ← Nat.pow_mod, ← pow_two, ← pow_mul, Nat.mul_mod_mod]
    split
    · rw [← pow_succ', show 2 * (n / 2) + 1 = n by omega]
    · rw [one_mul, show 2 * (n / 2) = n by omega]

theorem pratt (p a : Nat) (l : List Nat) (hl : ∀ q ∈ l, q.Prime) (hp : 1 < p) (hlt : p < 2 ^ 256) (hprod : l.prod = p - 1)
    (h1 : powMod p 256 a (p - 1) = 1) (h2 : ∀ q ∈ l, powMod p 256 a ((p - 1) / q) ≠ 1) : p.Prime := by
  have key : ∀ n, n ≤ p - 1 → ((a : ZMod p) ^ n = 1 ↔ powMod p 256 a n = 1) := by
    intro n hn
    rw [powMod_eq p 256 a n (by omega), ← Nat.cast_pow, ← Nat.cast_one, ZMod.natCast_eq_natCast_iff', Nat.mod_eq_of_lt hp]
  refine lucas_primality p a ((key _ le_rfl).mpr h1) ?_
  intro q hq hd e
  rw [← hprod, Prime.dvd_prod_iff hq.prime] at hd
  obtain ⟨r, hr, hqr⟩ := hd
  have := (Nat.prime_dvd_prime_iff_eq hq (hl r hr)).mp hqr
  subst this
  exact h2 q hr ((key _ (Nat.div_le_self _ _)).mp e)

theorem prime_1 : Nat.Prime 31757755568855353 :=
  pratt _ 10 [2, 2, 2, 3, 31, 107, 223, 4153, 430751] (by norm_num) (by norm_num) (by norm_num) (by norm_num) (by decide +kernel) (by decide +kernel)

theorem prime_2 : Nat.Prime 2773320623 :=
  pratt _ 5 [2, 2437, 569003] (by norm_num) (by norm_num) (by norm_num) (by norm_num) (by decide +kernel) (by decide +kernel)

theorem prime_3 : Nat.Prime 72106336199 :=
  pratt _ 7 [2, 13, 2773320623] (by simp only [List.forall_mem_cons]; exact ⟨by norm_num, by norm_num, prime_2, by simp⟩)
    (by norm_num) (by norm_num) (by norm_num) (by decide +kernel) (by decide +kernel)

theorem prime_4 : Nat.Prime 1919519569386763 :=
  pratt _ 2 [2, 3, 7, 19, 47, 47, 127, 8574133] (by norm_num) (by norm_num) (by norm_num) (by norm_num) (by decide +kernel) (by decide +kernel)

theorem prime_5 : Nat.Prime 75445702479781427272750846543864801 :=
  pratt _ 7 [2, 2, 2, 2, 2, 3, 3, 5, 5, 75707, 72106336199, 1919519569386763]
    (by
      simp only [List.forall_mem_cons]
      exact ⟨by norm_num, by norm_num, by norm_num, by norm_num, by norm_num, by norm_num, by norm_num, by norm_num, by norm_num, by norm_num,
        prime_3, prime_4, by simp⟩)
    (by norm_num) (by norm_num) (by norm_num) (by decide +kernel) (by decide +kernel)

theorem prime_6 : Nat.Prime 74058212732561358302231226437062788676166966415465897661863160754340907 :=
  pratt _ 2 [2, 3, 353, 57467, 132049, 1923133, 31757755568855353, 75445702479781427272750846543864801]
    (by
      simp only [List.forall_mem_cons]
      exact ⟨by norm_num, by norm_num, by norm_num, by norm_num, by norm_num, by norm_num, prime_1, prime_5, by simp⟩)
    (by norm_num) (by norm_num) (by norm_num) (by decide +kernel) (by decide +kernel)

theorem p25519_prime : Nat.Prime p25519 :=
  pratt _ 2 [2, 2, 3, 65147, 74058212732561358302231226437062788676166966415465897661863160754340907]
    (by
      simp only [List.forall_mem_cons]
      exact ⟨by norm_num, by norm_num, by norm_num, by norm_num, prime_6, by simp⟩)
    (by decide +kernel) (by decide +kernel) (by decide +kernel) (by decide +kernel) (by decide +kernel)

instance : Fact (Nat.Prime p25519) := ⟨p25519_prime⟩

/-- The inverse is a power. -/
theorem pow_p2 (z : Fp) (e : Nat) (he : e = p25519 - 2) : z ^ e = z⁻¹ := by
  by_cases hz : z = 0
  · subst hz
    rw [inv_zero, zero_pow]
    rw [he]
    decide +kernel
  · apply eq_inv_of_mul_eq_one_left
    rw [← pow_succ, show e + 1 = p25519 - 1 by rw [he]; decide +kernel]
    exact ZMod.pow_card_sub_one_eq_one hz

end Salt.Spec
