import Verif.Model.TweetField
import Verif.Lemmas.TInt
import Mathlib.Tactic.Ring

/-! Lemmas on the arithmetic of the pure Python code modulo 2^255 - 19: exact integers, carries. -/

namespace Salt.Tweet

/-! ### Exact operations -/

/-- A value of class `i64` or plain, bounded by `B`. -/
def OkV (B : Int) (x : V) : Prop := (x.ty = .plain ∨ x.ty = .i64) ∧ -B ≤ x.v ∧ x.v ≤ B

theorem OkV.mono {B C : Int} {x : V} (h : OkV B x) (hc : B ≤ C) : OkV C x := by
  obtain ⟨h1, h2, h3⟩ := h
  exact ⟨h1, by omega, by omega⟩

theorem cast_exact {t : Ty} (ht : t = .plain ∨ t = .i64) {x : Int} (h1 : -2 ^ 63 < x) (h2 : x < 2 ^ 63) :
    cast t x = ⟨t, x⟩ := by
  rcases ht with rfl | rfl
  · rfl
  · unfold cast
    simp only [Ty.bits, Ty.signed, if_true]
    split
    · congr 1; omega
    · congr 1; omega

theorem typed_right (f : Int → Int → Int) (a b : V) (hb : b.ty = .plain) : typed f a b = ⟨.plain, f a.v b.v⟩ := by
  unfold typed promote
  rw [hb, if_neg (by simp [Ty.order]), if_neg (by cases a.ty <;> simp [Ty.order])]
  rfl

theorem typed_left (f : Int → Int → Int) (a b : V) (ha : a.ty = .plain) : typed f a b = ⟨.plain, f a.v b.v⟩ := by
  unfold typed promote
  rw [ha, if_neg (by simp [Ty.order])]
  generalize f a.v b.v = r
  cases b.ty <;> simp [Ty.order, cast]

theorem typed_exact (f : Int → Int → Int) {a b : V} (ha : a.ty = .plain ∨ a.ty = .i64) (hb : b.ty = .plain ∨ b.ty = .i64)
    (h1 : -2 ^ 63 < f a.v b.v) (h2 : f a.v b.v < 2 ^ 63) :
    (typed f a b).v = f a.v b.v ∧ ((typed f a b).ty = .plain ∨ (typed f a b).ty = .i64) := by
  rcases ha with ha | ha
  · rw [typed_left f a b ha]; exact ⟨rfl, .inl rfl⟩
  rcases hb with hb | hb
  · rw [typed_right f a b hb]; exact ⟨rfl, .inl rfl⟩
  unfold typed promote
  rw [ha, hb, if_neg (by simp [Ty.order]), if_neg (by simp), cast_exact (.inr rfl) h1 h2]
  exact ⟨rfl, .inr rfl⟩

theorem typed_i64 (f : Int → Int → Int) (a b : Int) (h1 : -2 ^ 63 < f a b) (h2 : f a b < 2 ^ 63) :
    typed f ⟨.i64, a⟩ ⟨.i64, b⟩ = ⟨.i64, f a b⟩ := by
  unfold typed promote
  rw [if_neg (by simp [Ty.order]), if_neg (by simp), cast_exact (.inr rfl) h1 h2]

theorem okV_add {B C : Int} {a b : V} (ha : OkV B a) (hb : OkV C b) (h : B + C < 2 ^ 63) :
    OkV (B + C) (a + b) ∧ (a + b).v = a.v + b.v := by
  obtain ⟨h1, h2, h3⟩ := ha
  obtain ⟨h4, h5, h6⟩ := hb
  obtain ⟨e, t⟩ := typed_exact (· + ·) h1 h4 (by omega) (by omega)
  refine ⟨⟨t, ?_⟩, e⟩
  show -(B + C) ≤ (typed _ _ _).v ∧ (typed _ _ _).v ≤ _
  rw [e]
  omega

theorem okV_sub {B C : Int} {a b : V} (ha : OkV B a) (hb : OkV C b) (h : B + C < 2 ^ 63) :
    OkV (B + C) (a - b) ∧ (a - b).v = a.v - b.v := by
  obtain ⟨h1, h2, h3⟩ := ha
  obtain ⟨h4, h5, h6⟩ := hb
  obtain ⟨e, t⟩ := typed_exact (· - ·) h1 h4 (by omega) (by omega)
  refine ⟨⟨t, ?_⟩, e⟩
  show -(B + C) ≤ (typed _ _ _).v ∧ (typed _ _ _).v ≤ _
  rw [e]
  omega

theorem abs_mul_le {B C a b : Int} (ha : -B ≤ a ∧ a ≤ B) (hb : -C ≤ b ∧ b ≤ C) : -(B * C) ≤ a * b ∧ a * b ≤ B * C := by
  have h1 : (B - a) * (C + b) ≥ 0 := Int.mul_nonneg (by omega) (by omega)
  have h2 : (B + a) * (C - b) ≥ 0 := Int.mul_nonneg (by omega) (by omega)
  have h3 : (B - a) * (C - b) ≥ 0 := Int.mul_nonneg (by omega) (by omega)
  have h4 : (B + a) * (C + b) ≥ 0 := Int.mul_nonneg (by omega) (by omega)
  simp only [Int.sub_mul, Int.add_mul, Int.mul_sub, Int.mul_add] at h1 h2 h3 h4
  omega

theorem okV_mul {B C : Int} {a b : V} (ha : OkV B a) (hb : OkV C b) (h : B * C < 2 ^ 63) :
    OkV (B * C) (a * b) ∧ (a * b).v = a.v * b.v := by
  obtain ⟨h1, h2⟩ := ha
  obtain ⟨h4, h5⟩ := hb
  have hm := abs_mul_le h2 h5
  obtain ⟨e, t⟩ := typed_exact (· * ·) h1 h4 (by omega) (by omega)
  refine ⟨⟨t, ?_⟩, e⟩
  show -(B * C) ≤ (typed _ _ _).v ∧ (typed _ _ _).v ≤ _
  rw [e]
  exact hm

/-! ### Carries -/

/-- A plain integer. -/
def pl (x : Int) : V := ⟨.plain, x⟩

/-- The number with the given base 65536 digits. -/
def num16 : List Int → Int
  | [] => 0
  | x :: t => x + 65536 * num16 t

theorem num16_append (a b : List Int) : num16 (a ++ b) = num16 a + 65536 ^ a.length * num16 b := by
  induction a with
  | nil => simp [num16]
  | cons x a ih => simp only [List.cons_append, num16, ih, List.length_cons]; ring

/-- The carry chain: the new digits and the carry out of the last one. -/
def chain : Int → List Int → List Int × Int
  | q, [] => ([], q)
  | q, x :: xs => ((x + q) % 65536 :: (chain ((x + q) / 65536) xs).1, (chain ((x + q) / 65536) xs).2)

theorem chain_append (a : List Int) (x : Int) : ∀ q, chain q (a ++ [x]) =
    ((chain q a).1 ++ [(x + (chain q a).2) % 65536], (x + (chain q a).2) / 65536) := by
  induction a with
  | nil => intro q; rfl
  | cons y a ih => intro q; simp only [List.cons_append, chain, ih]

theorem chain_num (a : List Int) : ∀ q, num16 (chain q a).1 + 65536 ^ a.length * (chain q a).2 = q + num16 a := by
  induction a with
  | nil => intro q; simp [chain, num16]
  | cons x a ih =>
    intro q
    have h := ih ((x + q) / 65536)
    simp only [chain, num16, List.length_cons]
    have e := Int.mul_ediv_add_emod (x + q) 65536
    generalize (x + q) / 65536 = d at h e
    generalize (x + q) % 65536 = m at e
    calc _ = m + 65536 * (num16 (chain d a).1 + 65536 ^ a.length * (chain d a).2) := by ring
      _ = _ := by rw [h]; omega

theorem chain_length (a : List Int) : ∀ q, (chain q a).1.length = a.length := by
  induction a with
  | nil => intro q; rfl
  | cons x a ih => intro q; simp [chain, ih]

theorem chain_range (a : List Int) : ∀ q, ∀ d ∈ (chain q a).1, 0 ≤ d ∧ d < 65536 := by
  induction a with
  | nil => intro q d h; simp [chain] at h
  | cons x a ih =>
    intro q d h
    simp only [chain, List.mem_cons] at h
    rcases h with rfl | h
    · omega
    · exact ih _ d h

/-- `car25519` on integers. -/
def carI : List Int → List Int
  | [] => []
  | x :: xs => (x % 65536 + 38 * (chain (x / 65536) xs).2) :: (chain (x / 65536) xs).1

theorem carI_length (a : List Int) : (carI a).length = a.length := by
  cases a with
  | nil => rfl
  | cons x a => simp [carI, chain_length]

theorem at'_mid (pre post : List V) (x : V) : at' (pre ++ x :: post) pre.length = x := by
  simp [at']

theorem set_mid (pre post : List V) (x y : V) : (pre ++ x :: post).set pre.length y = pre ++ y :: post := by
  simp

/-- The number whose carry is taken. -/
theorem car_item {x : V} (hx : OkV (2 ^ 62) x ∨ x.ty = .plain) :
    (x + (⟨.i64, 1⟩ : V) <<< 16 = ⟨x.ty, x.v + 65536⟩) ∧
    ((⟨x.ty, x.v + 65536⟩ : V) >>> 16 = ⟨x.ty, x.v / 65536 + 1⟩) ∧
    ((⟨x.ty, x.v / 65536 + 1⟩ : V) <<< 16 = ⟨x.ty, (x.v / 65536 + 1) * 65536⟩) ∧
    ((⟨x.ty, x.v + 65536⟩ : V) - ⟨x.ty, (x.v / 65536 + 1) * 65536⟩ = ⟨x.ty, x.v % 65536⟩) := by
  obtain ⟨t, v⟩ := x
  have hs : ((⟨.i64, 1⟩ : V) <<< 16) = ⟨.i64, 65536⟩ := by decide
  rw [hs]
  by_cases hp : t = .plain
  · subst hp
    refine ⟨typed_left _ _ _ rfl, ?_, rfl, ?_⟩
    · show cast .plain _ = _
      rw [cast_plain]
      congr 1
      show (v + 65536) / 65536 = v / 65536 + 1
      omega
    · refine (typed_left _ _ _ rfl).trans ?_
      congr 1
      show v + 65536 - (v / 65536 + 1) * 65536 = v % 65536
      omega
  · rcases hx with ⟨h1, h2, h3⟩ | hx
    · simp only at h1 h2 h3
      have ht : t = .i64 := by rcases h1 with h1 | h1 <;> simp_all
      subst ht
      refine ⟨?_, ?_, ?_, ?_⟩
      · exact typed_i64 (· + ·) v 65536 (by omega) (by omega)
      · show cast .i64 _ = _
        simp only
        rw [show (v + 65536) / 2 ^ 16 = v / 65536 + 1 by omega, cast_exact (.inr rfl) (by omega) (by omega)]
      · show cast .i64 _ = _
        simp only
        rw [show (v / 65536 + 1) * 2 ^ 16 = (v / 65536 + 1) * 65536 by omega, cast_exact (.inr rfl) (by omega) (by omega)]
      · refine (typed_i64 (· - ·) (v + 65536) ((v / 65536 + 1) * 65536) (by omega) (by omega)).trans ?_
        congr 1
        show v + 65536 - (v / 65536 + 1) * 65536 = v % 65536
        omega
    · exact absurd hx hp

theorem car_incr (t : Ty) (q : Int) (b : Bool) :
    ((⟨t, q + 1⟩ : V) - 1) + 37 * ((⟨t, q + 1⟩ : V) - 1) * (if b = true then 1 else 0) = pl (if b = true then 38 * q else q) := by
  have h1 : (⟨t, q + 1⟩ : V) - 1 = pl q := by
    refine (typed_right _ _ _ rfl).trans ?_
    show (⟨.plain, q + 1 - 1⟩ : V) = pl q
    rw [Int.add_sub_cancel]
    rfl
  rw [h1]
  have h2 : (37 : V) * pl q = pl (37 * q) := typed_right _ _ _ rfl
  rw [h2]
  cases b
  · rw [if_neg (by simp), if_neg (by simp)]
    have h3 : pl (37 * q) * 0 = pl 0 := by
      refine (typed_right _ _ _ rfl).trans ?_
      show pl (37 * q * 0) = pl 0
      rw [Int.mul_zero]
    rw [h3]
    refine (typed_right _ _ _ rfl).trans ?_
    show pl (q + 0) = pl q
    rw [Int.add_zero]
  · rw [if_pos rfl, if_pos rfl]
    have h3 : pl (37 * q) * 1 = pl (37 * q) := by
      refine (typed_right _ _ _ rfl).trans ?_
      show pl (37 * q * 1) = _
      rw [Int.mul_one]
    rw [h3]
    refine (typed_right _ _ _ rfl).trans ?_
    show pl (q + 37 * q) = _
    congr 1
    omega

theorem carStep_mid (pre post : List V) (x y : V) (i : Nat) (hi : pre.length = i) (h15 : i < 15)
    (hx : OkV (2 ^ 62) x ∨ x.ty = .plain) :
    carStep i (pre ++ x :: y :: post) = pre ++ ⟨x.ty, x.v % 65536⟩ :: pl (y.v + x.v / 65536) :: post := by
  subst hi
  obtain ⟨e1, e2, e3, e4⟩ := car_item hx
  unfold carStep
  simp only [at'_mid, set_mid, if_pos h15]
  rw [e1, e2]
  have hb : (if pre.length = 15 then (1 : V) else 0) = if (decide (pre.length = 15)) = true then 1 else 0 := by simp
  rw [hb, car_incr]
  have hf : decide (pre.length = 15) = false := by simp; omega
  rw [hf, if_neg (by simp)]
  have hsplit : ∀ z : V, pre ++ z :: y :: post = (pre ++ [z]) ++ y :: post := by intro z; simp
  have hlen : ∀ z : V, pre.length + 1 = (pre ++ [z]).length := by intro z; simp
  have hy : y + pl (x.v / 65536) = pl (y.v + x.v / 65536) := typed_right _ _ _ rfl
  have hat : at' (pre ++ ⟨x.ty, x.v + 65536⟩ :: y :: post) (pre.length + 1) = y := by
    rw [hsplit, hlen, at'_mid]
  have hset : ∀ z, (pre ++ ⟨x.ty, x.v + 65536⟩ :: y :: post).set (pre.length + 1) z = pre ++ ⟨x.ty, x.v + 65536⟩ :: z :: post := by
    intro z
    rw [hsplit, hlen, set_mid]
    simp
  rw [hat, hset, at'_mid, set_mid, e3, e4, hy]

theorem carStep_last (x0 x15 : V) (pre post : List V) (hl : pre.length = 14) (hx : x15.ty = .plain) :
    carStep 15 (x0 :: (pre ++ x15 :: post)) = pl (x0.v + 38 * (x15.v / 65536)) :: (pre ++ pl (x15.v % 65536) :: post) := by
  obtain ⟨e1, e2, e3, e4⟩ := car_item (x := x15) (.inr hx)
  unfold carStep
  have hat : ∀ z y : V, at' (z :: (pre ++ y :: post)) 15 = y := by
    intro z y
    have := at'_mid (z :: pre) post y
    rwa [show (z :: pre).length = 15 by simp [hl]] at this
  have hset : ∀ z y u : V, (z :: (pre ++ y :: post)).set 15 u = z :: (pre ++ u :: post) := by
    intro z y u
    have := set_mid (z :: pre) post y u
    rwa [show (z :: pre).length = 15 by simp [hl]] at this
  simp only [hat, hset, if_neg (by omega : ¬ (15 < 15))]
  rw [e1, e2]
  have hb : (if True then (1 : V) else 0) = if true = true then 1 else 0 := by simp
  have hat0 : ∀ z : V, ∀ l, at' (z :: l) 0 = z := fun _ _ => rfl
  rw [hb, car_incr, if_pos rfl, hat0, List.set_cons_zero, hat, hset, e3, e4, hx]
  congr 1
  exact typed_right _ _ _ rfl

theorem car_run (x0 : V) (h0 : OkV (2 ^ 62) x0 ∨ x0.ty = .plain) (k : Nat) : ∀ (l : List V) (y : V) (post : List V), l.length = k → k < 15 →
    forRange (k + 1) (x0 :: (l ++ y :: post)) carStep =
      ⟨x0.ty, x0.v % 65536⟩ :: ((chain (x0.v / 65536) (l.map V.v)).1.map pl ++ pl (y.v + (chain (x0.v / 65536) (l.map V.v)).2) :: post) := by
  induction k with
  | zero =>
    intro l y post hl _
    have : l = [] := by simpa using hl
    subst this
    rw [forRange_succ, forRange_zero]
    exact carStep_mid [] post x0 y 0 rfl (by omega) h0
  | succ k ih =>
    intro l y post hl hk
    obtain ⟨l, z, rfl⟩ : ∃ a z, l = a ++ [z] := by
      refine ⟨l.dropLast, l.getLast (by intro h; simp [h] at hl), ?_⟩
      exact (List.dropLast_concat_getLast _).symm
    have hl' : l.length = k := by simpa using hl
    rw [forRange_succ, List.append_assoc, List.singleton_append, ih l z (y :: post) hl' (by omega)]
    rw [List.map_append, List.map_cons, List.map_nil, chain_append]
    generalize hc : chain (x0.v / 65536) (l.map V.v) = c
    have hcl : c.1.length = k := by rw [← hc, chain_length]; simpa using hl'
    have := carStep_mid (⟨x0.ty, x0.v % 65536⟩ :: c.1.map pl) post (pl (z.v + c.2)) y (k + 1) (by simp [hcl]) (by omega) (.inr rfl)
    simp only [List.cons_append] at this
    rw [this]
    simp [pl]

/-- `car25519` computes `carI`; all the items become plain. -/
theorem car_eq (x : List V) (hl : x.length = 16) (h0 : OkV (2 ^ 62) (at' x 0) ∨ (at' x 0).ty = .plain) (post : List V) :
    car25519 (x ++ post) = (carI (x.map V.v)).map pl ++ post := by
  obtain ⟨x0, l, rfl⟩ : ∃ x0 l, x = x0 :: l := by
    cases x with
    | nil => simp at hl
    | cons a l => exact ⟨a, l, rfl⟩
  obtain ⟨l, z, rfl⟩ : ∃ a z, l = a ++ [z] := by
    refine ⟨l.dropLast, l.getLast (by intro h; simp [h] at hl), ?_⟩
    exact (List.dropLast_concat_getLast _).symm
  have hl' : l.length = 14 := by simpa using hl
  have h0' : OkV (2 ^ 62) x0 ∨ x0.ty = .plain := h0
  unfold car25519
  rw [forRange_succ, List.cons_append, List.append_assoc, List.singleton_append, car_run x0 h0' 14 l z post hl' (by omega)]
  rw [List.map_cons, List.map_append, List.map_cons, List.map_nil, carI, chain_append]
  generalize hc : chain (x0.v / 65536) (l.map V.v) = c
  have hcl : c.1.length = 14 := by rw [← hc, chain_length]; simpa using hl'
  rw [carStep_last _ _ _ _ (by simp [hcl]) rfl]
  simp [pl]

end Salt.Tweet
