import Verif.Lemmas.Field
import Verif.Spec.X25519

/-! Lemmas on the arithmetic of the pure Python code modulo 2^255 - 19: bounds, sums, differences, products. -/

namespace Salt.Tweet

open Salt.Spec

/-- A base 65536 digit. -/
def Dig (d : Int) : Prop := 0 ≤ d ∧ d < 65536

theorem chain_small (l : List Int) : ∀ q, (∀ d ∈ l, Dig d) → -1 ≤ q → q ≤ 1 →
    -1 ≤ (chain q l).2 ∧ (chain q l).2 ≤ 1 ∧ (q ≤ 0 → (chain q l).2 ≤ 0) ∧ (0 ≤ q → 0 ≤ (chain q l).2) := by
  induction l with
  | nil => intro q _ h1 h2; exact ⟨h1, h2, id, id⟩
  | cons x l ih =>
    intro q h h1 h2
    obtain ⟨h3, h4⟩ := h x (by simp)
    obtain ⟨i1, i2, i3, i4⟩ := ih ((x + q) / 65536) (fun d hd => h d (by simp [hd])) (by omega) (by omega)
    exact ⟨i1, i2, fun hq => i3 (by omega), fun hq => i4 (by omega)⟩

theorem chain_big (B : Int) (hB : 2 ≤ B) (l : List Int) : ∀ q, l ≠ [] → (∀ d ∈ l, -B ≤ d ∧ d ≤ B) → -B ≤ q → q ≤ B →
    -(B / 32768 + 1) ≤ (chain q l).2 ∧ (chain q l).2 ≤ B / 32768 + 1 := by
  induction l with
  | nil => intro q h; exact absurd rfl h
  | cons x l ih =>
    intro q _ h h1 h2
    obtain ⟨h3, h4⟩ := h x (by simp)
    by_cases hl : l = []
    · subst hl
      simp only [chain]
      omega
    · exact ih _ hl (fun d hd => h d (by simp [hd])) (by omega) (by omega)

theorem p25519_eq : (65536 : Int) ^ 16 = 38 + 2 * (p25519 : Int) := by decide +kernel

theorem pow256 : ((65536 : Int) : Fp) ^ 16 = 38 := by
  have h := congrArg (Int.cast (R := Fp)) p25519_eq
  push_cast at h
  rw [ZMod.natCast_self, mul_zero, add_zero] at h
  push_cast
  exact h

theorem carI_num (l : List Int) (hl : l.length = 16) : ((num16 (carI l) : Int) : Fp) = ((num16 l : Int) : Fp) := by
  cases l with
  | nil => simp at hl
  | cons x l =>
    have hl' : l.length = 15 := by simpa using hl
    have h := chain_num l (x / 65536)
    rw [hl'] at h
    simp only [carI, num16]
    generalize chain (x / 65536) l = c at h ⊢
    have e := Int.mul_ediv_add_emod x 65536
    generalize x / 65536 = d at h e
    generalize x % 65536 = m at e
    have e2 : (m + 38 * c.2 + 65536 * num16 c.1 : Int) = (x + 65536 * num16 l) + c.2 * (38 - 65536 ^ 16) := by
      calc (m + 38 * c.2 + 65536 * num16 c.1 : Int) = m + 38 * c.2 + 65536 * (num16 c.1 + 65536 ^ 15 * c.2) - 65536 ^ 16 * c.2 := by ring
        _ = _ := by rw [h, ← e]; ring
    rw [e2, p25519_eq, show (38 - (38 + 2 * (p25519 : Int)) : Int) = (p25519 : Int) * (-2) by ring, Int.cast_add, Int.cast_mul c.2,
      Int.cast_mul (p25519 : Int), Int.cast_natCast, ZMod.natCast_self, zero_mul, mul_zero, add_zero]

/-- The items after the carries of a product. -/
def Norm (l : List Int) : Prop :=
  ∃ x t, l = x :: t ∧ t.length = 15 ∧ -38 ≤ x ∧ x < 65574 ∧ ∀ d ∈ t, Dig d

theorem carI_first (B : Int) (hB : 2 ≤ B) (l : List Int) (hl : l.length = 16) (h : ∀ d ∈ l, -B ≤ d ∧ d ≤ B) :
    ∃ x t, carI l = x :: t ∧ t.length = 15 ∧ -(38 * (B / 32768 + 1)) ≤ x ∧ x < 65536 + 38 * (B / 32768 + 1) ∧ ∀ d ∈ t, Dig d := by
  cases l with
  | nil => simp at hl
  | cons x l =>
    have hl' : l.length = 15 := by simpa using hl
    obtain ⟨h1, h2⟩ := h x (by simp)
    obtain ⟨h3, h4⟩ := chain_big B hB l (x / 65536) (by intro h; simp [h] at hl') (fun d hd => h d (by simp [hd])) (by omega) (by omega)
    exact ⟨_, _, rfl, by rw [chain_length, hl'], by omega, by omega, chain_range _ _⟩

theorem carI_second (x : Int) (t : List Int) (ht : t.length = 15) (h1 : -2 ^ 45 ≤ x) (h2 : x ≤ 2 ^ 45) (hd : ∀ d ∈ t, Dig d) :
    Norm (carI (x :: t)) := by
  match t, ht, hd with
  | a :: b :: t, ht, hd =>
    have ha := hd a (by simp)
    have hb := hd b (by simp)
    unfold Dig at ha hb
    have h3 := chain_small t ((b + (a + x / 65536) / 65536) / 65536) (fun d h => hd d (by simp [h])) (by omega) (by omega)
    refine ⟨_, _, rfl, by rw [chain_length, ht], ?_, ?_, chain_range _ _⟩
    · simp only [chain]; omega
    · simp only [chain]; omega

theorem carI_small (x : Int) (t : List Int) (h1 : -38000 ≤ x) (h2 : x < 65536 + 27000) (hd : ∀ d ∈ t, Dig d) :
    ∀ d ∈ carI (x :: t), Dig d := by
  intro d h
  have h3 := chain_small t (x / 65536) hd (by omega) (by omega)
  simp only [carI, List.mem_cons] at h
  rcases h with rfl | h
  · unfold Dig; omega
  · exact chain_range _ _ d h

theorem chain_id (t : List Int) (hd : ∀ d ∈ t, Dig d) : chain 0 t = (t, 0) := by
  induction t with
  | nil => rfl
  | cons x t ih =>
    obtain ⟨h1, h2⟩ := hd x (by simp)
    have e1 : (x + 0) / 65536 = 0 := by omega
    have e2 : (x + 0) % 65536 = x := by omega
    simp only [chain, e1, e2, ih (fun d h => hd d (by simp [h]))]

theorem carI_id (t : List Int) (hd : ∀ d ∈ t, Dig d) : carI t = t := by
  cases t with
  | nil => rfl
  | cons x t =>
    obtain ⟨h1, h2⟩ := hd x (by simp)
    have e1 : x / 65536 = 0 := by omega
    have e2 : x % 65536 = x := by omega
    simp only [carI, e1, e2, chain_id t (fun d h => hd d (by simp [h])), Int.mul_zero, Int.add_zero]

/-! ### Numbers held by arrays -/

/-- The number that the first `n` items of an array stand for. -/
def part (x : List V) (n : Nat) : Int := num16 ((List.range n).map fun i => (at' x i).v)

theorem part_succ (x : List V) (n : Nat) : part x (n + 1) = part x n + 65536 ^ n * (at' x n).v := by
  unfold part
  rw [List.range_succ, List.map_append, num16_append]
  simp [num16]

/-- An array whose first 16 items are bounded by `B` and stand for `z`. -/
def Fe (B : Int) (x : List V) (z : Fp) : Prop :=
  16 ≤ x.length ∧ (∀ i, i < 16 → OkV B (at' x i)) ∧ ((part x 16 : Int) : Fp) = z

theorem Fe.mono {B C : Int} {x : List V} {z : Fp} (h : Fe B x z) (hc : B ≤ C) : Fe C x z :=
  ⟨h.1, fun i hi => (h.2.1 i hi).mono hc, h.2.2⟩

theorem at'_map_range (f : Nat → V) (n : Nat) (post : List V) (i : Nat) (hi : i < n) :
    at' ((List.range n).map f ++ post) i = f i := by
  unfold at'
  rw [List.getD_append _ _ _ _ (by simpa using hi)]
  simp [hi]

theorem forRange_set0 (n : Nat) (c : List V) (f : Nat → V) (h : n ≤ c.length) :
    forRange n c (fun i c => c.set i (f i)) = (List.range n).map f ++ c.drop n := by
  have := forRange_set n 0 c f (by omega)
  simpa using this

theorem fe_of_range {B : Int} (o : List V) (f : Nat → V) (z : Fp) (ho : 16 ≤ o.length) (hf : ∀ i, i < 16 → OkV B (f i))
    (hz : ((num16 ((List.range 16).map fun i => (f i).v) : Int) : Fp) = z) :
    Fe B (forRange 16 o fun i o => o.set i (f i)) z ∧ (forRange 16 o fun i o => o.set i (f i)).length = o.length := by
  rw [forRange_set0 16 o f ho]
  refine ⟨⟨by simp, ?_, ?_⟩, by simp; omega⟩
  · intro i hi
    rw [at'_map_range f 16 _ i hi]
    exact hf i hi
  · rw [← hz]
    congr 2

theorem num16_map_add (l : List Nat) (f g : Nat → Int) : num16 (l.map fun i => f i + g i) = num16 (l.map f) + num16 (l.map g) := by
  induction l with
  | nil => rfl
  | cons a l ih => simp only [List.map_cons, num16, ih]; ring

theorem num16_map_sub (l : List Nat) (f g : Nat → Int) : num16 (l.map fun i => f i - g i) = num16 (l.map f) - num16 (l.map g) := by
  induction l with
  | nil => rfl
  | cons a l ih => simp only [List.map_cons, num16, ih]; ring

theorem set_fe {B : Int} {r a : List V} {x : Fp} (hr : 16 ≤ r.length) (ha : Fe B a x) :
    Fe B (set25519 r a) x ∧ (set25519 r a).length = r.length :=
  fe_of_range r (fun i => at' a i) x hr ha.2.1 ha.2.2

theorem A_fe {B C : Int} {o a b : List V} {x y : Fp} (ho : 16 ≤ o.length) (ha : Fe B a x) (hb : Fe C b y) (h : B + C < 2 ^ 63) :
    Fe (B + C) (A o a b) (x + y) ∧ (A o a b).length = o.length := by
  refine fe_of_range o (fun i => at' a i + at' b i) _ ho (fun i hi => (okV_add (ha.2.1 i hi) (hb.2.1 i hi) h).1) ?_
  rw [← ha.2.2, ← hb.2.2]
  unfold part
  rw [← Int.cast_add, ← num16_map_add]
  congr 2
  apply List.map_congr_left
  intro i hi
  exact (okV_add (ha.2.1 i (by simpa using hi)) (hb.2.1 i (by simpa using hi)) h).2

theorem Z_fe {B C : Int} {o a b : List V} {x y : Fp} (ho : 16 ≤ o.length) (ha : Fe B a x) (hb : Fe C b y) (h : B + C < 2 ^ 63) :
    Fe (B + C) (Z o a b) (x - y) ∧ (Z o a b).length = o.length := by
  refine fe_of_range o (fun i => at' a i - at' b i) _ ho (fun i hi => (okV_sub (ha.2.1 i hi) (hb.2.1 i hi) h).1) ?_
  rw [← ha.2.2, ← hb.2.2]
  unfold part
  rw [← Int.cast_sub, ← num16_map_sub]
  congr 2
  apply List.map_congr_left
  intro i hi
  exact (okV_sub (ha.2.1 i (by simpa using hi)) (hb.2.1 i (by simpa using hi)) h).2

/-! ### Products -/

theorem num16_set (l : List Int) : ∀ (k : Nat) (x : Int), k < l.length → num16 (l.set k x) = num16 l + (x - l.getD k 0) * 65536 ^ k := by
  induction l with
  | nil => intro k x h; simp at h
  | cons a l ih =>
    intro k x h
    cases k with
    | zero => simp only [List.set_cons_zero, num16, List.getD_cons_zero]; ring
    | succ k =>
      simp only [List.set_cons_succ, num16, List.getD_cons_succ]
      rw [ih k x (by simpa using h)]
      ring

theorem getD_map_v (t : List V) (k : Nat) : (t.map V.v).getD k 0 = (at' t k).v := by
  unfold at'
  induction t generalizing k with
  | nil => rfl
  | cons a t ih =>
    cases k with
    | zero => rfl
    | succ k => exact ih k

theorem at'_set (t : List V) (k j : Nat) (x : V) (h : k < t.length) : at' (t.set k x) j = if j = k then x else at' t j := by
  unfold at'
  by_cases hj : j = k
  · subst hj
    simp [h]
  · rw [if_neg hj]
    simp [Ne.symm hj]

theorem at'_intArray (t : Ty) (n k : Nat) : at' (intArray t n) k = if k < n then ⟨t, 0⟩ else 0 := by
  unfold at' intArray
  split
  · simp [*]
  · rw [List.getD_eq_getElem?_getD, List.getElem?_eq_none (by simpa using ‹¬ k < n›)]
    rfl

/-- The state of the table of products. -/
def Tab (t : List V) (B : Int) (n : Int) : Prop :=
  t.length = 31 ∧ (∀ k, OkV B (at' t k)) ∧ num16 (t.map V.v) = n

theorem tab_step {t : List V} {B P n : Int} {a b : V} (ht : Tab t B n) (k : Nat) (hk : k < 31) {Ba Bb : Int} (ha : OkV Ba a)
    (hb : OkV Bb b) (hP : Ba * Bb ≤ P) (hP0 : 0 ≤ P) (h : B + P < 2 ^ 63) (hB : 0 ≤ B) :
    Tab (t.set k (at' t k + a * b)) (B + P) (n + 65536 ^ k * (a.v * b.v)) := by
  obtain ⟨h1, h2, h3⟩ := ht
  obtain ⟨m1, m2⟩ := okV_mul ha hb (by omega)
  obtain ⟨s1, s2⟩ := okV_add (h2 k) (m1.mono hP) h
  refine ⟨by simpa using h1, ?_, ?_⟩
  · intro j
    rw [at'_set t k j _ (by omega)]
    split
    · exact s1
    · exact (h2 j).mono (by omega)
  · rw [List.map_set, num16_set _ k _ (by rw [List.length_map]; omega), getD_map_v, s2, m2, h3]
    ring

theorem tab_row {t : List V} {B P n : Int} {b : List V} (ht : Tab t B n) (i : Nat) (hi : i < 16) {Ba Bb : Int} {x : V} (ha : OkV Ba x)
    (hb : ∀ j, j < 16 → OkV Bb (at' b j)) (hP : Ba * Bb ≤ P) (hP0 : 0 ≤ P) (hB : 0 ≤ B) (m : Nat) (hm : m ≤ 16) (h : B + 16 * P < 2 ^ 63) :
    Tab (forRange m t fun j t => t.set (i + j) (at' t (i + j) + x * at' b j)) (B + m * P) (n + 65536 ^ i * x.v * part b m) := by
  induction m with
  | zero =>
    rw [forRange_zero]
    have : part b 0 = 0 := rfl
    simpa [this] using ht
  | succ m ih =>
    rw [forRange_succ]
    have hmP : (m : Int) * P ≤ 15 * P := Int.mul_le_mul_of_nonneg_right (by omega) hP0
    have hmP0 : 0 ≤ (m : Int) * P := Int.mul_nonneg (by omega) hP0
    have := tab_step (ih (by omega)) (i + m) (by omega) ha (hb m (by omega)) hP hP0 (by omega) (by omega)
    rw [part_succ]
    have e1 : B + ((m + 1 : Nat) : Int) * P = B + m * P + P := by push_cast; ring
    have e2 : n + 65536 ^ i * x.v * (part b m + 65536 ^ m * (at' b m).v) =
      n + 65536 ^ i * x.v * part b m + 65536 ^ (i + m) * (x.v * (at' b m).v) := by rw [pow_add]; ring
    rw [e1, e2]
    exact this

theorem tab_rows {a b : List V} {Ba Bb P : Int} (ha : ∀ j, j < 16 → OkV Ba (at' a j)) (hb : ∀ j, j < 16 → OkV Bb (at' b j))
    (hP : Ba * Bb ≤ P) (hP0 : 0 ≤ P) (h : 256 * P < 2 ^ 63) (m : Nat) (hm : m ≤ 16) :
    Tab (forRange m (intArray .i64 31) fun i t =>
      forRange 16 t fun j t => t.set (i + j) (at' t (i + j) + at' a i * at' b j)) (m * (16 * P)) (part a m * part b 16) := by
  induction m with
  | zero =>
    rw [forRange_zero]
    refine ⟨rfl, ?_, ?_⟩
    · intro k
      rw [at'_intArray]
      split
      · exact ⟨.inr rfl, by simp, by simp⟩
      · exact ⟨.inl rfl, by simp [show (0 : V).v = 0 from rfl], by simp [show (0 : V).v = 0 from rfl]⟩
    · have : part a 0 = 0 := rfl
      rw [this, Int.zero_mul]
      decide
  | succ m ih =>
    rw [forRange_succ]
    have hmP : (m : Int) * (16 * P) ≤ 15 * (16 * P) := Int.mul_le_mul_of_nonneg_right (by omega) (by omega)
    have hmP0 : 0 ≤ (m : Int) * (16 * P) := Int.mul_nonneg (by omega) (by omega)
    have := tab_row (ih (by omega)) m (by omega) (ha m (by omega)) hb hP hP0 hmP0 16 (by omega) (by omega)
    rw [part_succ]
    have e1 : ((m + 1 : Nat) : Int) * (16 * P) = m * (16 * P) + ((16 : Nat) : Int) * P := by push_cast; ring
    have e2 : (part a m + 65536 ^ m * (at' a m).v) * part b 16 = part a m * part b 16 + 65536 ^ m * (at' a m).v * part b 16 := by ring
    rw [e1, e2]
    exact this

theorem mulTable_tab {a b : List V} {Ba Bb P : Int} (ha : ∀ j, j < 16 → OkV Ba (at' a j)) (hb : ∀ j, j < 16 → OkV Bb (at' b j))
    (hP : Ba * Bb ≤ P) (hP0 : 0 ≤ P) (h : 256 * P < 2 ^ 63) : Tab (mulTable a b) (256 * P) (part a 16 * part b 16) := by
  have := tab_rows ha hb hP hP0 h 16 (Nat.le_refl _)
  rw [show ((16 : Nat) : Int) * (16 * P) = 256 * P by push_cast; ring] at this
  exact this

theorem fold38 (t : List V) (n : Nat) (hn : n ≤ 16) (hl : n ≤ t.length) :
    (forRange n t fun i t => t.set i (at' t i + 38 * at' t (i + 16))) =
      (List.range n).map (fun i => at' t i + 38 * at' t (i + 16)) ++ t.drop n := by
  induction n with
  | zero => rfl
  | succ n ih =>
    rw [forRange_succ, ih (by omega) (by omega)]
    have h1 : ∀ k, n ≤ k → at' ((List.range n).map (fun i => at' t i + 38 * at' t (i + 16)) ++ t.drop n) k = at' t k := by
      intro k hk
      unfold at'
      rw [List.getD_append_right _ _ _ _ (by simpa using hk)]
      simp [show n + (k - n) = k by omega]
    rw [h1 n (Nat.le_refl _), h1 (n + 16) (by omega), List.drop_eq_getElem_cons (by omega : n < t.length), List.range_succ,
      List.map_append]
    have := set_mid ((List.range n).map (fun i => at' t i + 38 * at' t (i + 16))) (t.drop (n + 1)) t[n] (at' t n + 38 * at' t (n + 16))
    rw [List.length_map, List.length_range] at this
    rw [this]
    simp

theorem list_at (t : List V) : t.map V.v = (List.range t.length).map fun i => (at' t i).v := by
  apply List.ext_getElem
  · simp
  · intro i h1 h2
    simp [at', List.getElem?_eq_getElem (by simpa using h1 : i < t.length)]

theorem part_length (t : List V) : part t t.length = num16 (t.map V.v) := by rw [list_at]; rfl

theorem part_append (x y : List V) (n : Nat) (h : n ≤ x.length) : part (x ++ y) n = part x n := by
  unfold part
  congr 1
  apply List.map_congr_left
  intro i hi
  unfold at'
  rw [List.getD_append _ _ _ _ (by have := List.mem_range.mp hi; omega)]

/-- The sums before the carries of a product. -/
theorem fold38_spec {t : List V} {B n : Int} (ht : Tab t B n) :
    ∃ u : List V, u.length = 16 ∧ (∀ k, k < 16 → OkV (39 * B) (at' u k)) ∧ ((num16 (u.map V.v) : Int) : Fp) = ((n : Int) : Fp) ∧
      ∀ i, i < 16 → at' (forRange 15 t fun i t => t.set i (at' t i + 38 * at' t (i + 16))) i = at' u i := by
  obtain ⟨h1, h2, h3⟩ := ht
  have hB : 0 ≤ B := by have := (h2 0).2; omega
  rw [fold38 t 15 (by omega) (by omega), show (39 * B) = B + 38 * B by ring]
  have hitem : ∀ i, at' t i + 38 * at' t (i + 16) = pl ((at' t i).v + 38 * (at' t (i + 16)).v) := by
    intro i
    have e : (38 : V) * at' t (i + 16) = pl (38 * (at' t (i + 16)).v) := typed_left _ _ _ rfl
    rw [e]
    exact typed_right _ _ _ rfl
  refine ⟨(List.range 15).map (fun i => at' t i + 38 * at' t (i + 16)) ++ [at' t 15], by simp, ?_, ?_, ?_⟩
  · intro k hk
    by_cases h : k < 15
    · rw [at'_map_range _ _ _ _ h, hitem]
      have a1 := (h2 k).2
      have a2 := (h2 (k + 16)).2
      refine ⟨.inl rfl, ?_, ?_⟩
      · show _ ≤ (at' t k).v + 38 * (at' t (k + 16)).v
        omega
      · show (at' t k).v + 38 * (at' t (k + 16)).v ≤ _
        omega
    · have : k = 15 := by omega
      subst this
      have e := at'_mid ((List.range 15).map (fun i => at' t i + 38 * at' t (i + 16))) [] (at' t 15)
      rw [List.length_map, List.length_range] at e
      rw [e]
      exact (h2 15).mono (by omega)
  · rw [← h3, list_at t, h1]
    simp only [hitem]
    have e2 : (List.map V.v (List.map (fun i => pl ((at' t i).v + 38 * (at' t (i + 16)).v)) (List.range 15) ++ [at' t 15])) =
      (List.range 15).map (fun i => (at' t i).v + 38 * (at' t (i + 16)).v) ++ [(at' t 15).v] := by
      simp [pl, Function.comp_def]
    rw [e2]
    have e3 : (List.range 31).map (fun i => (at' t i).v) = ((List.range 15).map (fun i => (at' t i).v) ++ [(at' t 15).v]) ++
        (List.range 15).map (fun i => (at' t (i + 16)).v) := rfl
    rw [e3, num16_append _ ((List.range 15).map (fun i => (at' t (i + 16)).v)), num16_append, num16_append]
    rw [num16_map_add (List.range 15) (fun i => (at' t i).v) (fun i => 38 * (at' t (i + 16)).v)]
    have e4 : ∀ l : List Nat, num16 (l.map fun i => 38 * (at' t (i + 16)).v) = 38 * num16 (l.map fun i => (at' t (i + 16)).v) := by
      intro l
      induction l with
      | nil => rfl
      | cons a l ih => simp only [List.map_cons, num16, ih]; ring
    rw [e4]
    simp only [List.length_append, List.length_map, List.length_range, List.length_cons, List.length_nil, Nat.reduceAdd, p25519_eq]
    generalize num16 ((List.range 15).map fun i => (at' t (i + 16)).v) = hi
    generalize num16 ((List.range 15).map fun i => (at' t i).v) = lo
    generalize num16 [(at' t 15).v] = md
    push_cast
    rw [ZMod.natCast_self]
    ring
  · intro i hi
    by_cases h : i < 15
    · rw [at'_map_range _ _ _ _ h, at'_map_range _ _ _ _ h]
    · have : i = 15 := by omega
      subst this
      rw [List.drop_eq_getElem_cons (by omega : 15 < t.length)]
      have e := fun x y => at'_mid ((List.range 15).map (fun i => at' t i + 38 * at' t (i + 16))) x y
      simp only [List.length_map, List.length_range] at e
      rw [e, e]
      simp [at', List.getElem?_eq_getElem (by omega : 15 < t.length)]

theorem at'_pl (l : List Int) (post : List V) (i : Nat) (hi : i < l.length) : at' (l.map pl ++ post) i = pl (l.getD i 0) := by
  unfold at'
  rw [List.getD_append _ _ _ _ (by simpa using hi)]
  simp [List.getElem?_eq_getElem hi]

theorem fe_norm {l : List Int} (h : Norm l) (post : List V) {z : Fp} (hz : ((num16 l : Int) : Fp) = z) :
    Fe 65574 (l.map pl ++ post) z := by
  obtain ⟨x, t, rfl, ht, h1, h2, h3⟩ := h
  refine ⟨by simp [ht], ?_, ?_⟩
  · intro i hi
    rw [at'_pl _ _ _ (by simp [ht]; omega)]
    refine ⟨.inl rfl, ?_⟩
    show -65574 ≤ List.getD (x :: t) i 0 ∧ List.getD (x :: t) i 0 ≤ 65574
    cases i with
    | zero => simp only [List.getD_cons_zero]; omega
    | succ i =>
      rw [List.getD_cons_succ, List.getD_eq_getElem?_getD, List.getElem?_eq_getElem (by omega)]
      have := h3 _ (List.getElem_mem (by omega : i < t.length))
      unfold Dig at this
      simp only [Option.getD_some]
      omega
  · rw [part_append _ _ _ (by simp [ht])]
    have := part_length ((x :: t).map pl)
    rw [show ((x :: t).map pl).length = 16 by simp [ht]] at this
    rw [this, ← hz]
    congr 2
    rw [List.map_map]
    simp [Function.comp_def, pl]

/-- `M` multiplies. -/
theorem M_fe {B C : Int} {o a b : List V} {x y : Fp} (ho : 16 ≤ o.length) (ha : Fe B a x) (hb : Fe C b y) (h : B * C ≤ 2 ^ 40) :
    Fe 65574 (M o a b) (x * y) ∧ (M o a b).length = o.length := by
  obtain ⟨u, u1, u2, u3, u4⟩ := fold38_spec (mulTable_tab ha.2.1 hb.2.1 h (by omega) (by omega))
  unfold M
  simp only
  have e : (forRange 16 o fun i o => o.set i (at' (forRange 15 (mulTable a b) fun i t => t.set i (at' t i + 38 * at' t (i + 16))) i)) =
      u ++ o.drop 16 := by
    rw [forRange_set0 16 o _ ho]
    congr 1
    apply List.ext_getElem
    · simp [u1]
    · intro i h1 h2
      rw [List.getElem_map, List.getElem_range, u4 i (by omega)]
      simp [at', List.getElem?_eq_getElem h2]
  rw [e]
  have hu : ∀ d ∈ u.map V.v, -(2 ^ 54 : Int) ≤ d ∧ d ≤ 2 ^ 54 := by
    rw [list_at, u1]
    intro d hd
    obtain ⟨i, hi, rfl⟩ := List.mem_map.mp hd
    have := ((u2 i (by simpa using hi)).mono (C := 2 ^ 54) (by omega)).2
    exact this
  rw [car_eq u u1 (.inl ((u2 0 (by omega)).mono (by omega)))]
  rw [car_eq ((carI (u.map V.v)).map pl) (by simp [carI_length, u1]) (.inr (by
    have := at'_pl (carI (u.map V.v)) [] 0 (by simp [carI_length, u1])
    rw [List.append_nil] at this
    rw [this]
    rfl))]
  have ev : ((carI (u.map V.v)).map pl).map V.v = carI (u.map V.v) := by
    rw [List.map_map]
    simp [Function.comp_def, pl]
  rw [ev]
  obtain ⟨x1, t1, c1, c2, c3, c4, c5⟩ := carI_first (2 ^ 54) (by omega) (u.map V.v) (by simp [u1]) hu
  have hn : Norm (carI (carI (u.map V.v))) := by
    rw [c1]
    exact carI_second x1 t1 c2 (by omega) (by omega) c5
  refine ⟨fe_norm hn _ ?_, by simp [carI_length, u1]; omega⟩
  rw [carI_num _ (by simp [carI_length, u1]), carI_num _ (by simp [u1]), u3, ← ha.2.2, ← hb.2.2]
  push_cast
  rfl

end Salt.Tweet
