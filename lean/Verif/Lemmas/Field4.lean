import Verif.Lemmas.Field3

/-! Lemmas on `pack25519` and `unpack25519`. -/

namespace Salt.Tweet

open Salt.Spec

/-! ### Conditional subtraction -/

theorem pl_mask (x : Int) (k : Nat) (m : V) (hm : m = pl ((2 ^ k - 1 : Nat) : Int)) : pl x &&& m = pl (x % 2 ^ k) := by
  subst hm
  refine (typed_right _ _ _ rfl).trans ?_
  show pl (Int.land x _) = _
  rw [show (pl ((2 ^ k - 1 : Nat) : Int)).v = ((2 ^ k - 1 : Nat) : Int) from rfl, land_mask]

theorem pl_shr (x : Int) (k : Nat) : pl x >>> k = pl (x / 2 ^ k) := rfl

theorem sub_pl (x : V) (y : Int) : x - pl y = pl (x.v - y) := typed_right _ _ _ rfl

theorem packStep_mid (t pre post : List V) (x : Int) (y : V) (i : Nat) (hi : pre.length = i) :
    packStep t i (pre ++ pl x :: y :: post) =
      pre ++ pl (x % 65536) :: pl ((at' t (i + 1)).v - 65535 - x / 65536 % 2) :: post := by
  subst hi
  unfold packStep
  have hsplit : ∀ z : V, pre ++ pl x :: z :: post = (pre ++ [pl x]) ++ z :: post := by intro z; simp
  have hset : ∀ z, (pre ++ pl x :: y :: post).set (pre.length + 1) z = pre ++ pl x :: z :: post := by
    intro z
    rw [hsplit, show pre.length + 1 = (pre ++ [pl x]).length by simp, set_mid]
    simp
  simp only [at'_mid, hset, set_mid]
  rw [pl_mask x 16 0xffff rfl, pl_shr, pl_mask _ 1 1 rfl]
  have e : at' t (pre.length + 1) - (0xffff : V) = pl ((at' t (pre.length + 1)).v - 65535) := sub_pl _ _
  rw [e, sub_pl]
  rfl

/-- The differences of digits in `pack25519`. -/
def diffs (t : List V) (k : Nat) : List Int :=
  (List.range k).map fun i => (at' t i).v - if i = 0 then 65517 else 65535

theorem diffs_succ (t : List V) (k : Nat) (hk : 0 < k) : diffs t (k + 1) = diffs t k ++ [(at' t k).v - 65535] := by
  unfold diffs
  rw [List.range_succ, List.map_append, List.map_cons, List.map_nil, if_neg (by omega : ¬ k = 0)]

theorem chain_borrow (l : List Int) : ∀ q, (∀ d ∈ l, -65535 ≤ d ∧ d < 65536) → -1 ≤ q → q ≤ 0 →
    -1 ≤ (chain q l).2 ∧ (chain q l).2 ≤ 0 := by
  induction l with
  | nil => intro q _ h1 h2; exact ⟨h1, h2⟩
  | cons x l ih =>
    intro q h h1 h2
    obtain ⟨h3, h4⟩ := h x (by simp)
    exact ih _ (fun d hd => h d (by simp [hd])) (by omega) (by omega)

theorem diffs_range (t : List V) (h : ∀ i, i < 16 → Dig (at' t i).v) (k : Nat) (hk : k ≤ 16) :
    ∀ d ∈ diffs t k, -65535 ≤ d ∧ d < 65536 := by
  intro d hd
  obtain ⟨i, hi, rfl⟩ := List.mem_map.mp hd
  have := h i (by have := List.mem_range.mp hi; omega)
  unfold Dig at this
  split <;> omega

theorem pack_run (t : List V) (h : ∀ i, i < 16 → Dig (at' t i).v) (k : Nat) (hk : k ≤ 14) : ∀ rest : List V, k ≤ rest.length →
    forRange k (pl ((at' t 0).v - 65517) :: rest) (packStep t) =
      (chain 0 (diffs t k)).1.map pl ++ pl ((at' t k).v - (if k = 0 then 65517 else 65535) + (chain 0 (diffs t k)).2) :: rest.drop k := by
  induction k with
  | zero =>
    intro rest _
    rw [forRange_zero]
    simp [diffs, chain]
  | succ k ih =>
    intro rest hr
    rw [forRange_succ, ih (by omega) rest (by omega), List.drop_eq_getElem_cons (by omega : k < rest.length)]
    have hlen : (chain 0 (diffs t k)).1.length = k := by rw [chain_length]; simp [diffs]
    rw [packStep_mid _ _ _ _ _ _ (by simp [hlen])]
    have hq := chain_borrow (diffs t k) 0 (diffs_range t h k (by omega)) (by omega) (by omega)
    have hd := h k (by omega)
    unfold Dig at hd
    have he : diffs t (k + 1) = diffs t k ++ [(at' t k).v - if k = 0 then 65517 else 65535] := by
      unfold diffs
      rw [List.range_succ, List.map_append, List.map_cons, List.map_nil]
    rw [he, chain_append, if_neg (by omega : ¬ k + 1 = 0)]
    have hb : -65535 ≤ (at' t k).v - (if k = 0 then 65517 else 65535) ∧ (at' t k).v - (if k = 0 then 65517 else 65535) ≤ 18 := by
      split <;> omega
    generalize (at' t k).v - (if k = 0 then 65517 else 65535) = e at hb ⊢
    generalize (chain 0 (diffs t k)).2 = c at hq ⊢
    rw [show (at' t (k + 1)).v - 65535 - (e + c) / 65536 % 2 = (at' t (k + 1)).v - 65535 + (e + c) / 65536 by omega]
    simp

theorem num16_range (l : List Int) (h : ∀ d ∈ l, Dig d) : 0 ≤ num16 l ∧ num16 l < 65536 ^ l.length := by
  induction l with
  | nil => simp [num16]
  | cons x l ih =>
    obtain ⟨h1, h2⟩ := ih (fun d hd => h d (by simp [hd]))
    obtain ⟨h3, h4⟩ := h x (by simp)
    simp only [num16, List.length_cons, pow_succ]
    generalize (65536 : Int) ^ l.length = K at *
    omega

theorem diffs_num (t : List V) : num16 (diffs t 15 ++ [(at' t 15).v - 32767]) = part t 16 - p25519 := by
  have e : diffs t 15 ++ [(at' t 15).v - 32767] =
      (List.range 16).map fun i => (at' t i).v - (if i = 0 then 65517 else if i = 15 then 32767 else 65535) := rfl
  rw [e, num16_map_sub]
  unfold part
  congr 1

/-- The number is reduced once if possible. -/
theorem packRound_spec {t m : List V} (ht : t.length = 16) (hm : m.length = 16) (ot : ∀ i, i < 16 → (at' t i).ty = .plain)
    (h : ∀ i, i < 16 → Dig (at' t i).v) :
    (packRound (t, m)).1.length = 16 ∧ (packRound (t, m)).2.length = 16 ∧
    (∀ i, i < 16 → (at' (packRound (t, m)).1 i).ty = .plain ∧ Dig (at' (packRound (t, m)).1 i).v) ∧
    part (packRound (t, m)).1 16 = if part t 16 < p25519 then part t 16 else part t 16 - p25519 := by
  obtain ⟨x, rest, rfl⟩ : ∃ x rest, m = x :: rest := by
    cases m with
    | nil => simp at hm
    | cons a l => exact ⟨a, l, rfl⟩
  have hr : rest.length = 15 := by simpa using hm
  obtain ⟨y, hy⟩ : ∃ y, rest.drop 14 = [y] := by
    have : (rest.drop 14).length = 1 := by simp [hr]
    exact List.length_eq_one_iff.mp this
  unfold packRound
  simp only
  have e0 : at' t 0 - (0xffed : V) = pl ((at' t 0).v - 65517) := sub_pl _ _
  rw [List.set_cons_zero, e0, pack_run t h 14 (Nat.le_refl _) rest (by omega), hy, if_neg (by omega)]
  have hd14 := h 14 (by omega)
  have hd15 := h 15 (by omega)
  unfold Dig at hd14 hd15
  have hq := chain_borrow (diffs t 14) 0 (diffs_range t h 14 (by omega)) (by omega) (by omega)
  have hlen : ((chain 0 (diffs t 14)).1.map pl).length = 14 := by rw [List.length_map, chain_length]; simp [diffs]
  have hdf : diffs t 15 = diffs t 14 ++ [(at' t 14).v - 65535] := diffs_succ t 14 (by omega)
  have hch := chain_append (diffs t 14) ((at' t 14).v - 65535) 0
  rw [← hdf] at hch
  have hnum := chain_num (diffs t 15) 0
  have hlen15 : (diffs t 15).length = 15 := by simp [diffs]
  have hrng := num16_range (chain 0 (diffs t 15)).1 (chain_range _ _)
  rw [chain_length, hlen15] at hrng
  rw [hlen15] at hnum
  have htot := diffs_num t
  rw [num16_append, hlen15] at htot
  simp only [num16, Int.mul_zero, Int.add_zero] at htot
  have hdig := chain_range (diffs t 15) 0
  have hlen15' := chain_length (diffs t 15) 0
  rw [hlen15] at hlen15'
  -- the items of `m`
  generalize hA : (chain 0 (diffs t 14)).1.map pl = pre at hlen ⊢
  generalize hc : (chain 0 (diffs t 14)).2 = c at *
  have hset15 : ∀ u v z : V, (pre ++ u :: [v]).set 15 z = pre ++ u :: [z] := by
    intro u v z
    have := set_mid (pre ++ [u]) [] v z
    rw [show (pre ++ [u]).length = 15 by simp [hlen]] at this
    simpa using this
  have hat15 : ∀ u v : V, at' (pre ++ u :: [v]) 15 = v := by
    intro u v
    have := at'_mid (pre ++ [u]) [] v
    rw [show (pre ++ [u]).length = 15 by simp [hlen]] at this
    simpa using this
  have hset14 : ∀ u v z : V, (pre ++ u :: [v]).set 14 z = pre ++ z :: [v] := by
    intro u v z
    have := set_mid pre [v] u z
    rwa [hlen] at this
  have hat14 : ∀ u v : V, at' (pre ++ u :: [v]) 14 = u := by
    intro u v
    have := at'_mid pre [v] u
    rwa [hlen] at this
  simp only [hset15, hat15, hset14, hat14]
  rw [pl_mask _ 16 0xffff rfl, pl_shr, pl_mask _ 1 1 rfl]
  have e1 : at' t 15 - (0x7fff : V) = pl ((at' t 15).v - 32767) := sub_pl _ _
  rw [e1, sub_pl, pl_shr, pl_mask _ 1 1 rfl]
  simp only [show ∀ a : Int, (pl a).v = a from fun _ => rfl, show (2 : Int) ^ 16 = 65536 from rfl, show (2 : Int) ^ 1 = 2 from rfl]
  have e2 : (1 : V) - pl (((at' t 15).v - 32767 - ((at' t 14).v - 65535 + c) / 65536 % 2) / 65536 % 2) =
      pl (1 - ((at' t 15).v - 32767 - ((at' t 14).v - 65535 + c) / 65536 % 2) / 65536 % 2) := sub_pl _ _
  rw [e2]
  have e3 : (at' t 15).v - 32767 - ((at' t 14).v - 65535 + c) / 65536 % 2 = (at' t 15).v - 32767 + ((at' t 14).v - 65535 + c) / 65536 := by omega
  rw [e3]
  -- the list of items
  have hM : pre ++ [pl (((at' t 14).v - 65535 + c) % 65536), pl ((at' t 15).v - 32767 + ((at' t 14).v - 65535 + c) / 65536)] =
      ((chain 0 (diffs t 15)).1 ++ [(at' t 15).v - 32767 + (chain 0 (diffs t 15)).2]).map pl := by
    rw [hch, ← hA]
    simp
  rw [hM]
  have hc15 : (chain 0 (diffs t 15)).2 = ((at' t 14).v - 65535 + c) / 65536 := by rw [hch]
  rw [← hc15]
  have hcr : -1 ≤ (chain 0 (diffs t 15)).2 ∧ (chain 0 (diffs t 15)).2 ≤ 0 := by rw [hc15]; omega
  clear hM hch hc15 e1 e2 e3 hset15 hat15 hset14 hat14 hA hlen hc hq hdf
  generalize chain 0 (diffs t 15) = C at *
  obtain ⟨D, q⟩ := C
  simp only at *
  generalize hT : (at' t 15).v - 32767 + q = top at *
  have htopb : -32768 ≤ top ∧ top ≤ 32768 := by omega
  have hs : (pl (1 - top / 65536 % 2)).v = if decide (0 ≤ top) = true then 1 else 0 := by
    show 1 - top / 65536 % 2 = _
    by_cases h0 : 0 ≤ top
    · rw [if_pos (by simpa using h0)]; omega
    · rw [if_neg (by simpa using h0)]; omega
  have hml : ((D ++ [top]).map pl).length = 16 := by simp [hlen15']
  have hat : ∀ i, i < 16 → at' ((D ++ [top]).map pl) i = pl ((D ++ [top]).getD i 0) := by
    intro i hi
    have := at'_pl (D ++ [top]) [] i (by simp [hlen15']; omega)
    rwa [List.append_nil] at this
  have hmv : ∀ i, i < 16 → -32768 ≤ (D ++ [top]).getD i 0 ∧ (D ++ [top]).getD i 0 < 65536 ∧ (0 ≤ top → 0 ≤ (D ++ [top]).getD i 0) := by
    intro i hi
    by_cases h1 : i < 15
    · rw [List.getD_append _ _ _ _ (by omega), List.getD_eq_getElem?_getD, List.getElem?_eq_getElem (by omega)]
      have := hdig _ (List.getElem_mem (by omega : i < D.length))
      simp only [Option.getD_some]
      omega
    · have : i = 15 := by omega
      subst this
      rw [List.getD_append_right _ _ _ _ (by omega), hlen15']
      simp only [Nat.sub_self, List.getD_cons_zero]
      omega
  obtain ⟨s1, s2, s3⟩ := sel_vals (B := 65536) (by omega) (p := t) (q := (D ++ [top]).map pl) (by omega) (by omega)
    (fun i hi => ⟨.inl (ot i hi), by have := h i hi; unfold Dig at this; omega⟩)
    (fun i hi => by rw [hat i hi]; exact ⟨.inl rfl, by have := hmv i hi; show -65536 ≤ (D ++ [top]).getD i 0; omega,
      by have := hmv i hi; show (D ++ [top]).getD i 0 ≤ 65536; omega⟩) hs
  have hpart : part ((D ++ [top]).map pl) 16 = part t 16 - p25519 := by
    have := part_length ((D ++ [top]).map pl)
    rw [hml] at this
    rw [this, List.map_map, show (V.v ∘ pl) = id from rfl, List.map_id, num16_append, hlen15', ← htot]
    simp only [num16, Int.mul_zero, Int.add_zero]
    rw [← hT, ← Int.zero_add (num16 (diffs t 15)), ← hnum]
    ring
  have hiff : 0 ≤ top ↔ ¬ part t 16 < p25519 := by
    have h1 : part t 16 - p25519 = num16 D + 65536 ^ 15 * top := by rw [← htot, ← hT, ← Int.zero_add (num16 (diffs t 15)), ← hnum]; ring
    constructor
    · intro h0
      have : (0 : Int) ≤ 65536 ^ 15 * top := Int.mul_nonneg (by omega) h0
      omega
    · intro h0
      by_cases h2 : 0 ≤ top
      · exact h2
      · exfalso
        have : (65536 ^ 15 : Int) * top ≤ 65536 ^ 15 * (-1) := Int.mul_le_mul_of_nonneg_left (by omega) (by omega)
        omega
  refine ⟨by rw [s1, ht], by rw [s2, hml], ?_, ?_⟩
  · intro i hi
    obtain ⟨o1, _, o3, _⟩ := s3 i hi
    refine ⟨sel_plain (by omega) (by omega) _ i hi (ot i hi), ?_⟩
    rw [o3]
    by_cases h0 : 0 ≤ top
    · rw [if_pos (by simpa using h0), hat i hi]
      exact ⟨(hmv i hi).2.2 h0, (hmv i hi).2.1⟩
    · rw [if_neg (by simpa using h0)]
      exact h i hi
  · rw [part_congr (fun i hi => (s3 i hi).2.2.1)]
    by_cases h0 : 0 ≤ top
    · rw [if_pos (by simpa using h0), if_neg (hiff.mp h0), hpart]
    · rw [if_neg (by simpa using h0), if_pos (by by_contra h2; exact h0 (hiff.mpr h2))]

end Salt.Tweet
