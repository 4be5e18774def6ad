import Verif.Lemmas.Field4

/-! Lemmas on `pack25519`, `unpack25519` and powers. -/

namespace Salt.Tweet

open Salt.Spec

/-! ### Packing -/

theorem pack_store (n : Nat) (o : List V) (f g : Nat → V) (h : 2 * n ≤ o.length) :
    (forRange n o fun i o => (o.set (2 * i) (f i)).set (2 * i + 1) (g i)) =
      (List.range n).flatMap (fun i => [f i, g i]) ++ o.drop (2 * n) := by
  induction n with
  | zero => rfl
  | succ n ih =>
    rw [forRange_succ, ih (by omega), List.drop_eq_getElem_cons (by omega : 2 * n < o.length),
      List.drop_eq_getElem_cons (by omega : 2 * n + 1 < o.length), List.range_succ, List.flatMap_append]
    have hl : ((List.range n).flatMap (fun i => [f i, g i])).length = 2 * n := by simp; omega
    generalize (List.range n).flatMap (fun i => [f i, g i]) = pre at hl ⊢
    have h1 := set_mid pre (o[2 * n + 1] :: o.drop (2 * n + 1 + 1)) o[2 * n] (f n)
    rw [hl] at h1
    rw [h1]
    have h2 := set_mid (pre ++ [f n]) (o.drop (2 * n + 1 + 1)) o[2 * n + 1] (g n)
    rw [show (pre ++ [f n]).length = 2 * n + 1 by simp [hl]] at h2
    simp only [List.append_assoc, List.singleton_append] at h2
    rw [h2]
    simp [Nat.mul_add]

theorem bytes_of_digits (l : List Int) (h : ∀ d ∈ l, Dig d) :
    AreBytes (l.flatMap fun d => [pl (d % 256), pl (d / 256)]) (digits (2 * l.length) (num16 l).toNat) := by
  induction l with
  | nil => exact .nil
  | cons x l ih =>
    obtain ⟨h1, h2⟩ := h x (by simp)
    have h3 := (num16_range l (fun d hd => h d (by simp [hd]))).1
    have ih := ih (fun d hd => h d (by simp [hd]))
    rw [List.flatMap_cons, List.length_cons, show 2 * (l.length + 1) = 2 * l.length + 1 + 1 by omega]
    simp only [digits, num16]
    have e1 : (x + 65536 * num16 l).toNat = x.toNat + 65536 * (num16 l).toNat := by omega
    rw [e1]
    have e2 : (x.toNat + 65536 * (num16 l).toNat) / 256 / 256 = (num16 l).toNat := by omega
    rw [e2]
    refine .cons ⟨.inr rfl, ?_⟩ (.cons ⟨.inr rfl, ?_⟩ ih)
    · show x % 256 = _
      rw [UInt8.toNat_ofNat']
      omega
    · show x / 256 = _
      rw [UInt8.toNat_ofNat']
      omega

theorem val_of_int {z : Fp} {n : Int} (h1 : 0 ≤ n) (h2 : n < p25519) (h : ((n : Int) : Fp) = z) : n.toNat = z.val := by
  obtain ⟨m, rfl⟩ := Int.eq_ofNat_of_zero_le h1
  rw [← h]
  rw [Int.cast_natCast, ZMod.val_natCast_of_lt (by omega)]
  rfl

theorem flatMap_congr' {α β : Type} (l : List α) (f g : α → List β) (h : ∀ i ∈ l, f i = g i) : l.flatMap f = l.flatMap g := by
  induction l with
  | nil => rfl
  | cons a l ih => rw [List.flatMap_cons, List.flatMap_cons, h a (by simp), ih (fun i hi => h i (by simp [hi]))]

theorem reduce_twice (x P r : Int) (hx : 0 ≤ x) (hx2 : x < 3 * P)
    (h : r = if (if x < P then x else x - P) < P then (if x < P then x else x - P) else (if x < P then x else x - P) - P) :
    0 ≤ r ∧ r < P ∧ ∃ k : Int, r = x - k * P := by
  by_cases h1 : x < P
  · rw [if_pos h1, if_pos h1] at h
    exact ⟨by omega, by omega, 0, by omega⟩
  · rw [if_neg h1] at h
    by_cases h2 : x - P < P
    · rw [if_pos h2] at h
      exact ⟨by omega, by omega, 1, by omega⟩
    · rw [if_neg h2] at h
      exact ⟨by omega, by omega, 2, by omega⟩

/-- `pack25519` writes the canonical encoding. -/
theorem pack_eq {B : Int} (hB : B ≤ 2 ^ 24) {o n : List V} {z : Fp} (hn : Fe B n z) (ho : 32 ≤ o.length) :
    ∃ y, pack25519 o n = y ++ o.drop 32 ∧ AreBytes y (digits 32 z.val) := by
  obtain ⟨t0, e0, l0, f0, z0⟩ : ∃ t0 : List V, (forRange 16 (gf []) fun i t => t.set i (at' n i)) = t0 ∧ t0.length = 16 ∧
      (∀ i, i < 16 → OkV (2 ^ 24) (at' t0 i)) ∧ ((num16 (t0.map V.v) : Int) : Fp) = z := by
    have h := fe_of_range (gf []) (fun i => at' n i) z (by decide) (fun i hi => (hn.2.1 i hi).mono hB) hn.2.2
    refine ⟨_, rfl, h.2, h.1.2.1, ?_⟩
    have := part_length (forRange 16 (gf []) fun i t => t.set i (at' n i))
    rw [← this, h.2]
    exact h.1.2.2
  unfold pack25519
  simp only
  rw [e0]
  have hu : ∀ d ∈ t0.map V.v, -(2 ^ 24 : Int) ≤ d ∧ d ≤ 2 ^ 24 := by
    rw [list_at, l0]
    intro d hd
    obtain ⟨i, hi, rfl⟩ := List.mem_map.mp hd
    exact (f0 i (by simpa using hi)).2
  have plv : ∀ l : List Int, (l.map pl).map V.v = l := by
    intro l; rw [List.map_map, show (V.v ∘ pl) = id from rfl, List.map_id]
  have c0 := car_eq t0 l0 (.inl ((f0 0 (by omega)).mono (by omega))) []
  have cpl : ∀ l : List Int, l.length = 16 → car25519 (l.map pl) = (carI l).map pl := by
    intro l hl
    have := car_eq (l.map pl) (by simp [hl]) (.inr (by
      have := at'_pl l [] 0 (by omega)
      rw [List.append_nil] at this
      rw [this]
      rfl)) []
    rw [plv, List.append_nil, List.append_nil] at this
    exact this
  rw [List.append_nil, List.append_nil] at c0
  obtain ⟨x1, t1, c1, c2, c3, c4, c5⟩ := carI_first (2 ^ 24) (by omega) (t0.map V.v) (by simp [l0]) hu
  have hsm := carI_small x1 t1 (by omega) (by omega) c5
  rw [c0, cpl _ (by simp [carI_length, l0]), cpl _ (by simp [carI_length, l0]), c1, carI_id _ hsm]
  have hval : ((num16 (carI (x1 :: t1)) : Int) : Fp) = z := by
    rw [carI_num _ (by simp [c2]), ← c1, carI_num _ (by simp [l0]), z0]
  have hlen : (carI (x1 :: t1)).length = 16 := by rw [carI_length]; simp [c2]
  have hrng := num16_range _ hsm
  rw [hlen] at hrng
  generalize carI (x1 :: t1) = D at hsm hval hlen hrng ⊢
  have hat : ∀ i, i < 16 → at' (D.map pl) i = pl (D.getD i 0) := by
    intro i hi
    have := at'_pl D [] i (by omega)
    rwa [List.append_nil] at this
  have hdg : ∀ i, i < 16 → Dig (D.getD i 0) := by
    intro i hi
    rw [List.getD_eq_getElem?_getD, List.getElem?_eq_getElem (by omega)]
    exact hsm _ (List.getElem_mem (by omega : i < D.length))
  have hp := part_length (D.map pl)
  rw [List.length_map, hlen, plv] at hp
  obtain ⟨a1, a2, a3, a4⟩ := packRound_spec (t := D.map pl) (m := gf []) (by simp [hlen]) rfl (fun i hi => by rw [hat i hi]; rfl)
    (fun i hi => by rw [hat i hi]; exact hdg i hi)
  generalize packRound (D.map pl, gf []) = s1 at a1 a2 a3 a4 ⊢
  obtain ⟨t', m'⟩ := s1
  obtain ⟨b1, b2, b3, b4⟩ := packRound_spec (t := t') (m := m') a1 a2 (fun i hi => (a3 i hi).1) (fun i hi => (a3 i hi).2)
  generalize packRound (t', m') = s2 at b1 b2 b3 b4 ⊢
  obtain ⟨t2, m2⟩ := s2
  simp only at *
  rw [a4] at b4
  rw [hp] at b4
  have h256 : (65536 : Int) ^ 16 = 2 * p25519 + 38 := by rw [p25519_eq]; ring
  have hpp : (100 : Int) < p25519 := by decide +kernel
  obtain ⟨hfin1, hfin2, k, hk⟩ := reduce_twice _ _ _ hrng.1 (by omega) b4
  have hfz : ((part t2 16 : Int) : Fp) = z := by
    rw [hk, ← hval]
    push_cast
    rw [ZMod.natCast_self, mul_zero, sub_zero]
  rw [pack_store 16 o (fun i => at' t2 i &&& 0xff) (fun i => at' t2 i >>> 8) (by omega)]
  have hdig2 : ∀ d ∈ (List.range 16).map (fun i => (at' t2 i).v), Dig d := by
    intro d hd
    obtain ⟨i, hi, rfl⟩ := List.mem_map.mp hd
    exact (b3 i (by simpa using hi)).2
  have hby := bytes_of_digits _ hdig2
  rw [show num16 ((List.range 16).map fun i => (at' t2 i).v) = part t2 16 from rfl, List.length_map, List.length_range,
    val_of_int hfin1 hfin2 hfz] at hby
  refine ⟨_, rfl, ?_⟩
  rw [List.flatMap_map] at hby
  have hitems : (List.range 16).flatMap (fun i => [at' t2 i &&& 0xff, at' t2 i >>> 8]) =
      (List.range 16).flatMap (fun i => [pl ((at' t2 i).v % 256), pl ((at' t2 i).v / 256)]) := by
    apply flatMap_congr'
    intro i hi
    have := (b3 i (by simpa using hi)).1
    generalize at' t2 i = u at this
    obtain ⟨t, v⟩ := u
    simp only at this
    subst this
    rw [show (⟨.plain, v⟩ : V) = pl v from rfl, pl_mask _ 8 0xff rfl, pl_shr]
    rfl
  rw [hitems]
  exact hby

end Salt.Tweet
