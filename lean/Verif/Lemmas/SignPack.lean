import Verif.Lemmas.SignPt

/-! The encoding of points. -/

namespace Salt.Tweet

open Salt.Spec

theorem fp_val_lt (z : Fp) : z.val < 2 ^ 255 := Nat.lt_trans (ZMod.val_lt z) (by decide +kernel)

theorem xor_bit (a b : Nat) (ha : a < 128) (hb : b < 2) : a ^^^ b * 128 = a + b * 128 := by
  have : ∀ a, a < 128 → ∀ b, b < 2 → a ^^^ b * 128 = a + b * 128 := by decide
  exact this a ha b hb

theorem digits_sign (m b i : Nat) (hm : m < 2 ^ 255) (hb : b < 2) (hi : i < 32) :
    (m + 2 ^ 255 * b) / 256 ^ i % 256 = if i = 31 then m / 256 ^ 31 + b * 128 else m / 256 ^ i % 256 := by
  split
  · rename_i h
    subst h
    omega
  · rename_i h
    have e : 2 ^ 255 * b = 256 ^ i * (256 * (256 ^ (30 - i) * 128 * b)) := by
      have : (2 : Nat) ^ 255 = 256 ^ i * (256 * 256 ^ (30 - i)) * 128 := by
        rw [← Nat.pow_succ', ← Nat.pow_add, show i + (30 - i + 1) = 31 by omega]
        norm_num
      rw [this]
      ring
    rw [e, Nat.add_mul_div_left _ _ (Nat.pow_pos (by omega)), Nat.add_mul_mod_self_left]

theorem pack_sign {y : List V} {m b : Nat} (h : AreBytes y (digits 32 m)) (hm : m < 2 ^ 255) (hb : b < 2) :
    AreBytes (y.set 31 (at' y 31 ^^^ pl b <<< 7)) (digits 32 (m + 2 ^ 255 * b)) := by
  have hl : y.length = 32 := by rw [h.length, digits_length]
  apply areBytes_of_at
  · rw [List.length_set, hl, digits_length]
  · intro i hi
    rw [digits_length] at hi
    have hd := digits_getD 32 m i hi
    have hd2 := digits_getD 32 (m + 2 ^ 255 * b) i hi
    rw [digits_sign m b i hm hb hi] at hd2
    rw [at'_set _ _ _ _ (by omega)]
    by_cases e : i = 31
    · subst e
      rw [if_pos rfl] at hd2 ⊢
      have h31 := h.at' 31
      have hmm : m / 256 ^ 31 < 128 := by omega
      rw [Nat.mod_eq_of_lt (by omega)] at hd
      have e1 : pl (b : Int) <<< 7 = pl ((b * 128 : Nat) : Int) := by
        rw [shl_pl]
        push_cast
        rfl
      have e2 : at' y 31 ^^^ pl ((b * 128 : Nat) : Int) = pl (Int.xor (at' y 31).v ((b * 128 : Nat) : Int)) := typed_right _ _ _ rfl
      rw [e1, e2, h31.2, hd]
      refine ⟨.inr rfl, ?_⟩
      rw [hd2, ← xor_bit _ _ hmm hb]
      rfl
    · rw [if_neg e] at hd2 ⊢
      have := h.at' i
      refine ⟨this.1, ?_⟩
      rw [this.2, hd, hd2]

theorem pack_point {r : List V} {p : Pt} {P : EdPt} (hp : PtIs p P) (hr : 32 ≤ r.length) :
    ∃ y, pack r p = y ++ r.drop 32 ∧ AreBytes y (edEncode P.1) := by
  obtain ⟨⟨X, Y, Z, T⟩, ⟨h0, h1, h2, h3⟩, hz, hx, hy, -⟩ := hp
  simp only at h0 h1 h2 hz hx hy
  have hi := (inv_fe (o := gf []) h2 (by omega) gf_len).1
  have hinv := pow_p2 Z _ rfl
  generalize p25519 - 2 = e at hi hinv
  rw [hinv] at hi
  have tx := (M_fe gf_len h0 hi (by omega)).1
  have ty := (M_fe gf_len h1 hi (by omega)).1
  rw [hx, mul_assoc, mul_inv_cancel₀ hz, mul_one] at tx
  rw [hy, mul_assoc, mul_inv_cancel₀ hz, mul_one] at ty
  unfold pack
  simp only
  generalize inv25519 (gf []) p.p2 = zi at *
  generalize M (gf []) p.p0 zi = tx' at *
  generalize M (gf []) p.p1 zi = ty' at *
  obtain ⟨y, e1, hb⟩ := pack_eq (o := r) (by omega) ty hr
  have hl : y.length = 32 := by rw [hb.length, digits_length]
  rw [e1, par_fe (by omega) tx]
  have e2 : at' (y ++ r.drop 32) 31 = at' y 31 := by
    unfold at'
    rw [List.getD_append _ _ _ _ (by omega)]
  rw [e2, List.set_append_left _ _ (by omega)]
  exact ⟨_, rfl, pack_sign hb (fp_val_lt _) (Nat.mod_lt _ (by omega))⟩

theorem edEncode_length (P : Fp × Fp) : (edEncode P).length = 32 := digits_length _ _

end Salt.Tweet
