import Verif.Lemmas.Sign
import Verif.Lemmas.Box
import Verif.Lemmas.EdOrder

/-! `unpackneg`: square roots in the field, and decoding a point. -/

namespace Salt.Spec

theorem pow_half (z : Fp) (n : Nat) (hn : 2 * n = p25519 - 1) (h : z ≠ 0) : z ^ n = 1 ∨ z ^ n = -1 := by
  have h1 : (z ^ n) ^ 2 = 1 := by
    rw [← pow_mul, Nat.mul_comm, hn]
    exact ZMod.pow_card_sub_one_eq_one h
  have : (z ^ n - 1) * (z ^ n + 1) = 0 := by linear_combination h1
  rcases mul_eq_zero.mp this with h | h
  · left; linear_combination h
  · right; linear_combination h

/-- The candidate for the square root of u/v. -/
def rootCand (e : Nat) (u v : Fp) : Fp := (v ^ 6 * u * v) ^ e * u * v * v * v

theorem root_eq (u v : Fp) (e n : Nat) (hn : 2 * n = p25519 - 1) (he : 2 * e + 1 + (2 * e + 1) = n) (x : Fp) (h : x ^ 2 * v = u) :
    rootCand e u v ^ 2 * v = u ∨ (rootCand e u v * sqrtM1) ^ 2 * v = u := by
  by_cases hz : x * v ^ 4 = 0
  · left
    have hu : u = 0 := by
      rcases mul_eq_zero.mp hz with h0 | h0
      · rw [← h, h0]; ring
      · rw [← h, pow_eq_zero_iff (by omega) |>.mp h0]; ring
    rw [rootCand, hu]
    ring
  · have hw := pow_half _ n hn hz
    have hc : rootCand e u v ^ 2 * v = (x * v ^ 4) ^ n * u := by
      have e1 : v ^ 6 * u * v = (x * v ^ 4) ^ 2 := by rw [← h]; ring
      have e2 : (x * v ^ 4) ^ n = ((x * v ^ 4) ^ 2) ^ (2 * e) * (x * v ^ 4) ^ 2 := by
        rw [← pow_succ, ← pow_mul, ← he]
        congr 1
        omega
      rw [rootCand, e1, e2, ← h, pow_mul _ 2 e]
      ring
    rcases hw with hw | hw
    · left
      rw [hc, hw, one_mul]
    · right
      have hs := sqrtM1_sq
      rw [hw] at hc
      linear_combination sqrtM1 ^ 2 * hc - u * hs

end Salt.Spec

namespace Salt.Tweet

open Salt.Spec

theorem digits_val_inj {x y : Fp} (h : digits 32 x.val = digits 32 y.val) : x = y := by
  have e : ∀ z : Fp, num (digits 32 z.val) = z.val := fun z => by
    rw [num_digits, Nat.mod_eq_of_lt]
    exact Nat.lt_trans (fp_val_lt z) (by decide +kernel)
  apply ZMod.val_injective
  rw [← e x, ← e y, h]

theorem neq_fe {w : Nat} (hw : 32 ≤ w) {B C : Int} (hB : B ≤ 2 ^ 24) (hC : C ≤ 2 ^ 24) {a b : List V} {x y : Fp} (ha : Fe B a x) (hb : Fe C b y) :
    (neq25519 w a b).v ≠ 0 ↔ x ≠ y := by
  obtain ⟨r, e, h⟩ := pack_eq (o := intArray .u8 32) hB ha (by simp [intArray])
  obtain ⟨r', e', h'⟩ := pack_eq (o := intArray .u8 32) hC hb (by simp [intArray])
  unfold neq25519 verify32
  rw [show (intArray .u8 32).drop 32 = [] by simp [intArray], List.append_nil] at e e'
  rw [e, e', vn_eq hw h h' 32 (by rw [digits_length]) (by rw [digits_length]), List.take_of_length_le (by rw [digits_length]),
    List.take_of_length_le (by rw [digits_length])]
  constructor
  · intro h1 h2
    rw [h2] at h1
    simp at h1
  · intro h1
    rw [if_neg (fun h2 => h1 (digits_val_inj h2))]
    decide

theorem num_top {pb : Bytes} (hl : pb.length = 32) : num pb / 2 ^ 255 = (pb.getD 31 0).toNat / 128 := by
  have e : pb = pb.take 31 ++ [pb.getD 31 0] := by
    conv_lhs => rw [← List.take_append_drop 31 pb]
    rw [List.drop_eq_getElem_cons (by omega), List.drop_of_length_le (by omega), List.getD_eq_getElem?_getD, List.getElem?_eq_getElem (by omega)]
    rfl
  have hlt := num_lt (pb.take 31)
  have l : (pb.take 31).length = 31 := by simp; omega
  have e2 : num pb = num (pb.take 31) + 256 ^ 31 * (pb.getD 31 0).toNat := by
    conv_lhs => rw [e]
    rw [num_append, l]
    simp [num]
  rw [l] at hlt
  rw [e2, show 2 ^ 255 = 256 ^ 31 * 128 by norm_num, ← Nat.div_div_eq_div_mul, Nat.add_mul_div_left _ _ (by norm_num), Nat.div_eq_of_lt hlt, Nat.zero_add]

theorem top_bit {p : List V} {pb : Bytes} (hp : AreBytes p pb) (hl : pb.length = 32) : (at' p 31 >>> 7).v = ((num pb / 2 ^ 255 : Nat) : Int) := by
  rw [num_top hl]
  have h := hp.at' 31
  generalize pb.getD 31 0 = b at h ⊢
  have hb := b.toNat_lt
  obtain ⟨h1, h2⟩ := h
  generalize at' p 31 = x at h1 h2 ⊢
  obtain ⟨t, v⟩ := x
  simp only at h1 h2
  subst h2
  show (cast t ((b.toNat : Int) / 2 ^ 7)).v = _
  rw [show (b.toNat : Int) / 2 ^ 7 = ((b.toNat / 2 ^ 7 : Nat) : Int) by push_cast; rfl]
  rcases h1 with rfl | rfl
  · rw [cast_nat _ (by simp)]
    show ((_ % 2 ^ 8 : Nat) : Int) = _
    rw [Nat.mod_eq_of_lt (by omega)]
    rfl
  · rfl

theorem gf0_fe0 : Fe 0 gf0 0 := by
  refine ⟨by decide, ?_, by decide +kernel⟩
  have : ∀ i, i < 16 → ((at' gf0 i).ty = .plain ∨ (at' gf0 i).ty = .i64) ∧ -0 ≤ (at' gf0 i).v ∧ (at' gf0 i).v ≤ 0 := by decide
  exact this

theorem num_lt' {b : Bytes} (h : b.length = 32) : num b < 2 ^ 256 := by
  have := num_take_lt b
  rw [List.take_of_length_le (by omega)] at this
  exact this

theorem pow2523_e {o i : List V} {x : Fp} {B : Int} (e : Nat) (he : e = (p25519 - 5) / 8) (hi : Fe B i x) (hB : B ≤ 2 ^ 20) (ho : 16 ≤ o.length) :
    Fe (2 ^ 20) (pow2523 o i) (x ^ e) := by
  rw [he]
  exact (pow2523_fe hi hB ho).1

section
attribute [local irreducible] gf M A Z set25519 unpack25519 pow2523 neq25519 par25519 Fe

/-- The value of `unpackneg`. -/
theorem unpackneg_eq {w : Nat} (hw : 32 ≤ w) (e : Nat) (he : e = (p25519 - 5) / 8) {r : Pt} {p : List V} {pb : Bytes} (hp : AreBytes p pb) (hl : pb.length = 32)
    (l0 : 16 ≤ r.p0.length) (l1 : 16 ≤ r.p1.length) (l2 : 16 ≤ r.p2.length) (l3 : 16 ≤ r.p3.length) :
    (∃ q, ∃ A : EdPt, unpackneg w r p = (0, q) ∧ PtIs q (-A) ∧ A.1.2 = decodeU pb ∧ (A.1.1 = 0 ∨ A.1.1.val % 2 = num pb / 2 ^ 255)) ∨
    (∃ q, unpackneg w r p = (-1, q) ∧ ∀ x, ¬ OnCurve (x, decodeU pb)) := by
  have g := gf_len
  have htop := top_bit hp hl
  obtain ⟨res, hres⟩ : ∃ res, res = unpackneg w r p := ⟨_, rfl⟩
  rw [← hres]
  unfold unpackneg S at hres
  extract_lets r2 r1 n1 d1 nu de de2 de4 de6 t1 t2 t3 t4 t5 t6 r0 c1 c2 r0' c3 c4 r0'' at hres
  have hr2 : Fe (2 ^ 17) r2 1 := (set_fe l2 gf1_fe).1
  have hr1 : Fe (2 ^ 17) r1 (decodeU pb) := (unpack_fe (o := r.p1) hp hl l1).1.mono (by omega : (65535 : Int) ≤ 2 ^ 17)
  clear_value r1 r2
  generalize decodeU pb = y at *
  have hn1 : Fe (2 ^ 17) n1 (y * y) := M18 g (up hr1) (up hr1)
  clear_value n1
  have hd1 : Fe (2 ^ 17) d1 (y * y * edD) := M18 g (up hn1) (up cD_fe)
  clear_value d1
  have hn : Fe (2 ^ 18) nu (y * y - 1) := Z17 (fe_len hn1) hn1 hr2
  have hd : Fe (2 ^ 18) de (1 + y * y * edD) := A17 (fe_len hd1) hr2 hd1
  clear_value nu de
  have hv : 1 + y * y * edD ≠ 0 := by
    have := den_ne y
    intro h
    apply this
    linear_combination h
  have hon : ∀ x, OnCurve (x, y) ↔ x ^ 2 * (1 + y * y * edD) = y * y - 1 := by
    intro x
    rw [on_iff_sq]
    constructor <;> intro h <;> linear_combination h
  generalize hu : y * y - 1 = u at *
  generalize hvv : 1 + y * y * edD = v at *
  have hd2 : Fe (2 ^ 17) de2 (v * v) := M18 g hd hd
  clear_value de2
  have hd4 : Fe (2 ^ 17) de4 (v * v * (v * v)) := M18 g (up hd2) (up hd2)
  clear_value de4
  have hd6 : Fe (2 ^ 17) de6 (v * v * (v * v) * (v * v)) := M18 g (up hd4) (up hd2)
  clear_value de6
  have ht1 : Fe (2 ^ 17) t1 (v ^ 6 * u) := by
    rw [show v ^ 6 * u = v * v * (v * v) * (v * v) * u by ring]
    exact M18 g (up hd6) hn
  clear_value t1
  have ht2 : Fe (2 ^ 17) t2 (v ^ 6 * u * v) := M18 (fe_len ht1) (up ht1) hd
  clear_value t2
  have ht3 : Fe (2 ^ 20) t3 ((v ^ 6 * u * v) ^ e) := pow2523_e (o := t2) e he ht2 (by omega) (fe_len ht2)
  clear_value t3
  have ht4 : Fe (2 ^ 17) t4 ((v ^ 6 * u * v) ^ e * u) := (M_fe (fe_len ht3) ht3 hn (by omega)).1.mono (by omega)
  clear_value t4
  have ht5 : Fe (2 ^ 17) t5 ((v ^ 6 * u * v) ^ e * u * v) := M18 (fe_len ht4) (up ht4) hd
  clear_value t5
  have ht6 : Fe (2 ^ 17) t6 ((v ^ 6 * u * v) ^ e * u * v * v) := M18 (fe_len ht5) (up ht5) hd
  clear_value t6
  have hr0 : Fe (2 ^ 17) r0 (rootCand e u v) := M18 l0 (up ht6) hd
  clear_value r0
  have hroot := root_eq u v e
  generalize rootCand e u v = b at *
  have hc1 : Fe (2 ^ 17) c1 (b * b) := M18 g (up hr0) (up hr0)
  clear_value c1
  have hc2 : Fe (2 ^ 17) c2 (b * b * v) := M18 (fe_len hc1) (up hc1) hd
  clear_value c2
  obtain ⟨s, hr0', hs⟩ : ∃ s, Fe (2 ^ 17) r0' s ∧ ((∃ x, x ^ 2 * v = u) → s ^ 2 * v = u) := by
    have hne := neq_fe hw (by omega) (by omega) hc2 hn
    by_cases h : b * b * v = u
    · have : r0' = r0 := if_neg (by rw [hne]; exact not_not.mpr h)
      rw [this]
      refine ⟨b, hr0, fun _ => ?_⟩
      rw [← h]
      ring
    · have : r0' = M r0 r0 cI := if_pos (by rw [hne]; exact h)
      rw [this]
      refine ⟨b * sqrtM1, M18 (fe_len hr0) (up hr0) (up cI_fe), fun ⟨x, hx⟩ => ?_⟩
      rcases hroot (2 * e + 1 + (2 * e + 1)) (by rw [he]; decide +kernel) rfl x hx with h1 | h1
      · exact absurd (by rw [← h1]; ring) h
      · exact h1
  clear_value r0'
  have hc3 : Fe (2 ^ 17) c3 (s * s) := M18 (fe_len hc2) (up hr0') (up hr0')
  clear_value c3
  have hc4 : Fe (2 ^ 17) c4 (s * s * v) := M18 (fe_len hc3) (up hc3) hd
  clear_value c4
  have hne := neq_fe hw (by omega) (by omega) hc4 hn
  by_cases h : s * s * v = u
  · left
    rw [if_neg (by rw [hne]; exact not_not.mpr h)] at hres
    have hon1 : OnCurve (s, y) := (hon s).mpr (by rw [← h]; ring)
    have hpar := par_fe (by omega) hr0'
    obtain ⟨s', h0, hs', hA⟩ : ∃ s', Fe (2 ^ 17) r0'' s' ∧ OnCurve (-s', y) ∧ (-s' = 0 ∨ (-s').val % 2 = num pb / 2 ^ 255) := by
      by_cases h : (par25519 r0').v = (at' p 31 >>> 7).v
      · have : r0'' = Z r0' gf0 r0' := if_pos h
        rw [this]
        refine ⟨0 - s, (Z_fe (fe_len hr0') gf0_fe0 hr0' (by omega)).1.mono (by omega), ?_⟩
        rw [zero_sub, neg_neg]
        refine ⟨hon1, .inr ?_⟩
        rw [hpar, htop, pl_v] at h
        exact_mod_cast h
      · have : r0'' = r0' := if_neg h
        rw [this]
        refine ⟨s, hr0', (hon _).mpr (by rw [neg_sq]; exact (hon s).mp hon1), ?_⟩
        by_cases h0 : s = 0
        · left; rw [h0, neg_zero]
        · right
          have := neg_parity h0
          have hb : num pb / 2 ^ 255 < 2 := Nat.div_lt_of_lt_mul (by
            have := num_lt' hl
            rw [show 2 ^ 255 * 2 = 2 ^ 256 by rw [← Nat.pow_succ]]
            exact this)
          rw [hpar, htop, pl_v] at h
          have h : ¬ s.val % 2 = num pb / 2 ^ 255 := fun h1 => h (by exact_mod_cast h1)
          omega
    clear_value r0''
    have h3 : Fe (2 ^ 17) (M r.p3 r0'' r1) (s' * y) := M18 l3 (up h0) (up hr1)
    refine ⟨_, ⟨(-s', y), hs'⟩, hres, ⟨⟨s', y, 1, s' * y⟩, ⟨h0, hr1, hr2, h3⟩, ?_⟩, rfl, hA⟩
    refine ⟨one_ne_zero, ?_, ?_, ?_⟩
    · show s' = - -s' * 1
      ring
    · show y = y * 1
      ring
    · show s' * y = - -s' * y * 1
      ring
  · right
    rw [if_pos (by rw [hne]; exact h)] at hres
    refine ⟨_, hres, fun x hx => h ?_⟩
    have := hs ⟨x, (hon x).mp hx⟩
    rw [← this]
    ring

end
end Salt.Tweet
