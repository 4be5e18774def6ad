import Verif.Model.TweetSign
import Verif.Spec.Ed25519
import Verif.Lemmas.X25519
import Mathlib.Tactic.Linarith
import Mathlib.Tactic.LinearCombination

/-! `modL` reduces modulo the order of the base point. -/

namespace Salt.Tweet

open Salt.Spec

/-- The number that the first `n` items stand for, in base 256. -/
def pv (x : List V) : Nat → Int
  | 0 => 0
  | n + 1 => pv x n + 256 ^ n * (at' x n).v

theorem pv_set (x : List V) (j : Nat) (v : V) (hj : j < x.length) (n : Nat) :
    pv (x.set j v) n = pv x n + if j < n then 256 ^ j * (v.v - (at' x j).v) else 0 := by
  induction n with
  | zero => simp [pv]
  | succ n ih =>
    rw [pv, pv, ih, at'_set _ _ _ _ hj]
    by_cases h : j < n
    · rw [if_pos h, if_neg (by omega : ¬ n = j), if_pos (by omega : j < n + 1)]; ring
    · rw [if_neg h]
      by_cases h2 : n = j
      · subst h2
        rw [if_pos rfl, if_pos (by omega : n < n + 1)]; ring
      · rw [if_neg h2, if_neg (by omega : ¬ j < n + 1)]; ring

theorem pv_congr {x y : List V} {n : Nat} (h : ∀ i, i < n → (at' x i).v = (at' y i).v) : pv x n = pv y n := by
  induction n with
  | zero => rfl
  | succ n ih => rw [pv, pv, ih (fun i hi => h i (by omega)), h n (by omega)]

/-- An operation with a plain operand gives the exact result. -/
theorem add_r (a : V) (b : Int) : a + pl b = pl (a.v + b) := typed_right _ _ _ rfl
theorem sub_l (a : Int) (b : V) : pl a - b = pl (a - b.v) := typed_left _ _ _ rfl
theorem sub_r (a : V) (b : Int) : a - pl b = pl (a.v - b) := typed_right _ _ _ rfl
theorem mul_l (a : Int) (b : V) : pl a * b = pl (a * b.v) := typed_left _ _ _ rfl
theorem shr_pl (a : Int) (k : Nat) : pl a >>> k = pl (a / 2 ^ k) := rfl
theorem shl_pl (a : Int) (k : Nat) : pl a <<< k = pl (a * 2 ^ k) := rfl
theorem pl_v (a : Int) : (pl a).v = a := rfl

/-- The digits of `L` as in the code. -/
def dL (t : Nat) : Int := (at' cL t).v

theorem dL_bound (t : Nat) : 0 ≤ dL t ∧ dL t ≤ 255 := by
  by_cases h : t < 32
  · have : ∀ t, t < 32 → 0 ≤ dL t ∧ dL t ≤ 255 := by decide
    exact this t h
  · have : dL t = 0 := by
      unfold dL at'
      rw [List.getD_eq_getElem?_getD, List.getElem?_eq_none (by simp [cL, intArrayOf]; omega)]
      rfl
    rw [this]
    omega

theorem dL_zero (t : Nat) (h : 16 ≤ t) (h2 : t < 31) : dL t = 0 := by
  have : ∀ t, t < 31 → 16 ≤ t → dL t = 0 := by decide
  exact this t h2 h

/-- The first `t` digits of `L` as a number. -/
def pL (t : Nat) : Int := pv cL t

theorem pL_20 : 16 * pL 20 + 256 ^ 32 = 16 * (orderL : Int) := by decide +kernel
theorem pL_32 : pL 32 = (orderL : Int) := by decide +kernel

theorem col_eq (i t : Nat) (x : List V) (c : Int) (hj : i - 32 + t < x.length) :
    let s := (at' x (i - 32 + t)).v + (c - 16 * (at' x i).v * dL t)
    modLCol i t (x, pl c) = (x.set (i - 32 + t) (pl (s - (s + 128) / 256 * 256)), pl ((s + 128) / 256)) := by
  intro s
  unfold modLCol
  simp only
  have e1 : at' x (i - 32 + t) + (pl c - 16 * at' x i * at' cL t) = pl s := by
    rw [show (16 : V) = pl 16 from rfl, mul_l, mul_l, sub_l, pl_v, add_r]
    rfl
  rw [e1]
  have e2 : at' (x.set (i - 32 + t) (pl s)) (i - 32 + t) = pl s := by
    rw [at'_set _ _ _ _ hj, if_pos rfl]
  rw [e2, show (128 : V) = pl 128 from rfl, add_r, pl_v, shr_pl, shl_pl, sub_r, pl_v, List.set_set]
  rfl

/-- What holds after `t` steps of the inner loop of row `i`. -/
structure ColInv (i : Nat) (x : List V) (t : Nat) (r : List V × V) : Prop where
  len : r.1.length = x.length
  out : ∀ j, j < i - 32 ∨ i - 32 + t ≤ j → at' r.1 j = at' x j
  dig : ∀ j, i - 32 ≤ j → j < i - 32 + t → ∃ d : Int, at' r.1 j = pl d ∧ -128 ≤ d ∧ d < 128
  car : ∃ c : Int, r.2 = pl c ∧ -(2 ^ 28) ≤ c ∧ c ≤ 2 ^ 28 ∧
    pv r.1 64 + 256 ^ (i - 32 + t) * c = pv x 64 - 16 * (at' x i).v * 256 ^ (i - 32) * pL t

theorem col_inv (i : Nat) (x : List V) (hl : x.length = 64) (hi : i < 64) (h32 : 32 ≤ i) (hX : -(2 ^ 23) ≤ (at' x i).v ∧ (at' x i).v ≤ 2 ^ 23)
    (hx : ∀ j, i - 32 ≤ j → j < i - 12 → -(2 ^ 22) ≤ (at' x j).v ∧ (at' x j).v ≤ 2 ^ 22) (t : Nat) (ht : t ≤ 20) :
    ColInv i x t (forRange t (x, 0) (modLCol i)) := by
  induction t with
  | zero =>
    refine ⟨rfl, fun j _ => rfl, fun j h1 h2 => absurd h2 (by omega), ⟨0, rfl, by omega, by omega, ?_⟩⟩
    show pv x 64 + 256 ^ (i - 32) * 0 = pv x 64 - 16 * (at' x i).v * 256 ^ (i - 32) * 0
    ring
  | succ t ih =>
    obtain ⟨h1, h2, h3, c, hc, hc1, hc2, hv⟩ := ih (by omega)
    rw [forRange_succ]
    generalize forRange t (x, 0) (modLCol i) = r at *
    obtain ⟨y, cy⟩ := r
    simp only at h1 h2 h3 hc hv
    subst hc
    have hyl : y.length = 64 := by omega
    rw [col_eq i t y c (by omega)]
    have eX : at' y i = at' x i := h2 i (by omega)
    have ej : at' y (i - 32 + t) = at' x (i - 32 + t) := h2 _ (by omega)
    rw [eX, ej]
    have hb := dL_bound t
    have hxj := hx (i - 32 + t) (by omega) (by omega)
    generalize hs : (at' x (i - 32 + t)).v + (c - 16 * (at' x i).v * dL t) = s
    have hs1 : -(2 ^ 36) + 2 ^ 8 ≤ s ∧ s ≤ 2 ^ 36 - 2 ^ 8 := by
      have hp : -(2 ^ 35) ≤ 16 * (at' x i).v * dL t ∧ 16 * (at' x i).v * dL t ≤ 2 ^ 35 := by
        generalize (at' x i).v = X at hX
        generalize dL t = l at hb
        constructor <;> nlinarith
      omega
    refine ⟨by simp [h1], ?_, ?_, ⟨_, rfl, by omega, by omega, ?_⟩⟩
    · intro j hj
      simp only
      rw [at'_set _ _ _ _ (by omega), if_neg (by omega)]
      exact h2 j (by omega)
    · intro j hj1 hj2
      simp only
      rw [at'_set _ _ _ _ (by omega)]
      by_cases e : j = i - 32 + t
      · rw [if_pos e]
        exact ⟨_, rfl, by omega, by omega⟩
      · rw [if_neg e]
        exact h3 j hj1 (by omega)
    · rw [pv_set _ _ _ (by omega), if_pos (by omega), ej, pl_v, show pL (t + 1) = pL t + 256 ^ t * dL t from rfl]
      have e1 : (256 : Int) ^ (i - 32 + (t + 1)) = 256 ^ (i - 32) * 256 ^ t * 256 := by rw [← Nat.add_assoc, pow_succ, pow_add]
      have e2 : (256 : Int) ^ (i - 32 + t) = 256 ^ (i - 32) * 256 ^ t := by rw [pow_add]
      rw [e2] at hv ⊢
      rw [e1]
      have e3 := congrArg (fun a => 256 ^ (i - 32) * 256 ^ t * a) hs
      linear_combination hv - e3

/-- The last carry of a row is small if the columns are small. -/
theorem row_carry (i : Nat) (x : List V) (hl : x.length = 64) (hi : i < 64) (h32 : 32 ≤ i) (hX : -(2 ^ 23) ≤ (at' x i).v ∧ (at' x i).v ≤ 2 ^ 23)
    (hx : ∀ j, i - 32 ≤ j → j < i - 12 → -(2 ^ 22) ≤ (at' x j).v ∧ (at' x j).v ≤ 2 ^ 22)
    (B : Int) (hB : 0 ≤ B ∧ B ≤ 2 ^ 22) (hs : ∀ j, i - 16 ≤ j → j < i - 12 → -B ≤ (at' x j).v ∧ (at' x j).v ≤ B) :
    ∃ c : Int, (forRange 20 (x, 0) (modLCol i)).2 = pl c ∧ -(B / 128 + 1) ≤ c ∧ c ≤ B / 128 + 1 := by
  have step : ∀ t, 16 ≤ t → t < 20 → ∀ c : Int, (forRange t (x, 0) (modLCol i)).2 = pl c →
      ∃ d : Int, -B ≤ d ∧ d ≤ B ∧ (forRange (t + 1) (x, 0) (modLCol i)).2 = pl ((d + c + 128) / 256) := by
    intro t h1 h2 c hc
    obtain ⟨g1, g2, -, -⟩ := col_inv i x hl hi h32 hX hx t (by omega)
    rw [forRange_succ]
    generalize forRange t (x, 0) (modLCol i) = r at *
    obtain ⟨y, cy⟩ := r
    simp only at g1 g2 hc
    subst hc
    rw [col_eq i t y c (by omega), dL_zero t h1 (by omega), g2 _ (.inr (Nat.le_refl _))]
    have := hs (i - 32 + t) (by omega) (by omega)
    refine ⟨(at' x (i - 32 + t)).v, this.1, this.2, ?_⟩
    show pl (((at' x (i - 32 + t)).v + (c - 16 * (at' y i).v * 0) + 128) / 256) = _
    rw [Int.mul_zero, Int.sub_zero]
  obtain ⟨-, -, -, c, hc, hc1, hc2, -⟩ := col_inv i x hl hi h32 hX hx 16 (by omega)
  obtain ⟨d1, a1, b1, e1⟩ := step 16 (by omega) (by omega) c hc
  obtain ⟨d2, a2, b2, e2⟩ := step 17 (by omega) (by omega) _ e1
  obtain ⟨d3, a3, b3, e3⟩ := step 18 (by omega) (by omega) _ e2
  obtain ⟨d4, a4, b4, e4⟩ := step 19 (by omega) (by omega) _ e3
  refine ⟨_, e4, ?_, ?_⟩ <;> omega

/-- What a row does. -/
theorem row_spec (i : Nat) (x : List V) (hl : x.length = 64) (hi : i < 64) (h32 : 32 ≤ i) (hX : -(2 ^ 23) ≤ (at' x i).v ∧ (at' x i).v ≤ 2 ^ 23)
    (hx : ∀ j, i - 32 ≤ j → j < i - 12 → -(2 ^ 22) ≤ (at' x j).v ∧ (at' x j).v ≤ 2 ^ 22)
    (B : Int) (hB : 0 ≤ B ∧ B ≤ 2 ^ 22) (hs : ∀ j, i - 16 ≤ j → j < i - 12 → -B ≤ (at' x j).v ∧ (at' x j).v ≤ B) :
    (modLRow i x).length = 64 ∧
    (∀ j, j < i - 32 ∨ (i - 12 < j ∧ j ≠ i) → at' (modLRow i x) j = at' x j) ∧
    (∀ j, i - 32 ≤ j → j < i - 12 → ∃ d : Int, at' (modLRow i x) j = pl d ∧ -128 ≤ d ∧ d < 128) ∧
    (∃ c : Int, at' (modLRow i x) (i - 12) = pl ((at' x (i - 12)).v + c) ∧ -(B / 128 + 1) ≤ c ∧ c ≤ B / 128 + 1) ∧
    at' (modLRow i x) i = pl 0 ∧
    pv (modLRow i x) 64 = pv x 64 - 16 * (at' x i).v * 256 ^ (i - 32) * orderL := by
  obtain ⟨h1, h2, h3, c, hc, -, -, hv⟩ := col_inv i x hl hi h32 hX hx 20 (by omega)
  obtain ⟨c', hc', hb1, hb2⟩ := row_carry i x hl hi h32 hX hx B hB hs
  unfold modLRow
  generalize forRange 20 (x, 0) (modLCol i) = r at *
  obtain ⟨y, cy⟩ := r
  simp only at h1 h2 h3 hc hc' hv ⊢
  subst hc
  have : c = c' := congrArg V.v hc'
  subst this
  have hyl : y.length = 64 := by omega
  have e12 : at' y (i - 12) = at' x (i - 12) := h2 _ (by omega)
  have ei : at' y i = at' x i := h2 _ (by omega)
  rw [add_r, e12]
  have at2 : ∀ j, at' ((y.set (i - 12) (pl ((at' x (i - 12)).v + c))).set i 0) j =
      if j = i then 0 else if j = i - 12 then pl ((at' x (i - 12)).v + c) else at' y j := by
    intro j
    rw [at'_set _ _ _ _ (by simp; omega), at'_set _ _ _ _ (by omega)]
  refine ⟨by simp [hyl], ?_, ?_, ⟨c, ?_, hb1, hb2⟩, ?_, ?_⟩
  · intro j hj
    rw [at2, if_neg (by omega), if_neg (by omega)]
    exact h2 j (by omega)
  · intro j hj1 hj2
    rw [at2, if_neg (by omega), if_neg (by omega)]
    exact h3 j hj1 (by omega)
  · rw [at2, if_neg (by omega), if_pos rfl]
  · rw [at2, if_pos rfl]
    rfl
  · rw [pv_set _ _ _ (by simp; omega), pv_set _ _ _ (by omega), if_pos hi, if_pos (by omega), at'_set _ _ _ _ (by omega), if_neg (by omega), ei, e12, pl_v,
      show ((0 : V)).v = 0 from rfl]
    rw [show i - 32 + 20 = i - 12 by omega] at hv
    have e1 : (256 : Int) ^ i = 256 ^ (i - 32) * 256 ^ 32 := by rw [← pow_add]; congr 1; omega
    have e2 := congrArg (fun a => (at' x i).v * 256 ^ (i - 32) * a) pL_20
    rw [e1]
    linear_combination hv - e2

/-- The state before row `i` (before the second loop for `i = 31`). -/
structure RowInv (N : Int) (i : Nat) (x : List V) : Prop where
  len : x.length = 64
  low : ∀ j, j + 32 ≤ i → -(2 ^ 22) ≤ (at' x j).v ∧ (at' x j).v ≤ 2 ^ 22
  dig : ∀ j, i < j + 32 → j + 12 ≤ i → ∃ d : Int, at' x j = pl d ∧ -128 ≤ d ∧ d < 128
  mid : ∀ j, i < j + 12 → j ≤ 50 → j ≤ i → ∃ d : Int, at' x j = pl d ∧ -130 ≤ d ∧ d ≤ 130
  high : ∀ j, 50 < j → j ≤ i → -(2 ^ 23) ≤ (at' x j).v ∧ (at' x j).v ≤ 2 ^ 23
  zero : ∀ j, i < j → j < 64 → at' x j = pl 0
  val : ∃ m : Int, pv x 64 = N - m * orderL

theorem row_inv_step {N : Int} {i : Nat} {x : List V} (h32 : 32 ≤ i) (hi : i ≤ 62) (h : RowInv N i x) : RowInv N (i - 1) (modLRow i x) := by
  obtain ⟨h1, h2, h3, h4, h5, h6, m, h7⟩ := h
  have hX : -(2 ^ 23) ≤ (at' x i).v ∧ (at' x i).v ≤ 2 ^ 23 := by
    by_cases e : 50 < i
    · exact h5 i e (by omega)
    · obtain ⟨d, e1, _, _⟩ := h4 i (by omega) (by omega) (by omega)
      rw [e1, pl_v]
      omega
  have hx : ∀ j, i - 32 ≤ j → j < i - 12 → -(2 ^ 22) ≤ (at' x j).v ∧ (at' x j).v ≤ 2 ^ 22 := by
    intro j hj1 hj2
    by_cases e : j + 32 ≤ i
    · exact h2 j e
    · obtain ⟨d, e1, _, _⟩ := h3 j (by omega) (by omega)
      rw [e1, pl_v]
      omega
  obtain ⟨g1, g2, g3, ⟨c, g4, g5, g6⟩, g7, g8⟩ := row_spec i x h1 (by omega) h32 hX hx 128 (by omega) (by
    intro j hj1 hj2
    obtain ⟨d, e1, _, _⟩ := h3 j (by omega) (by omega)
    rw [e1, pl_v]
    omega)
  refine ⟨g1, ?_, ?_, ?_, ?_, ?_, ⟨m + 16 * (at' x i).v * 256 ^ (i - 32), ?_⟩⟩
  · intro j hj
    rw [g2 j (by omega)]
    exact h2 j (by omega)
  · intro j hj1 hj2
    exact g3 j (by omega) (by omega)
  · intro j hj1 hj2 hj3
    by_cases e : j = i - 12
    · subst e
      obtain ⟨d, e1, _, _⟩ := h3 (i - 12) (by omega) (by omega)
      rw [g4, e1, pl_v]
      exact ⟨_, rfl, by omega, by omega⟩
    · rw [g2 j (by omega)]
      exact h4 j (by omega) hj2 (by omega)
  · intro j hj1 hj2
    rw [g2 j (by omega)]
    exact h5 j hj1 (by omega)
  · intro j hj1 hj2
    by_cases e : j = i
    · subst e
      exact g7
    · rw [g2 j (by omega)]
      exact h6 j (by omega) hj2
  · rw [g8, h7]
    ring

theorem row_inv_first {N : Int} {x : List V} (hl : x.length = 64) (hv : pv x 64 = N)
    (h : ∀ j, j < 64 → -(2 ^ 22) ≤ (at' x j).v ∧ (at' x j).v ≤ 2 ^ 22) : RowInv N 62 (modLRow 63 x) := by
  obtain ⟨g1, g2, g3, ⟨c, g4, g5, g6⟩, g7, g8⟩ := row_spec 63 x hl (by omega) (by omega) (by have := h 63 (by omega); omega)
    (fun j _ _ => h j (by omega)) (2 ^ 22) (by omega) (fun j _ _ => h j (by omega))
  refine ⟨g1, ?_, ?_, ?_, ?_, ?_, ⟨16 * (at' x 63).v * 256 ^ 31, ?_⟩⟩
  · intro j hj
    rw [g2 j (by omega)]
    exact h j (by omega)
  · intro j hj1 hj2
    exact g3 j (by omega) (by omega)
  · intro j hj1 hj2 hj3
    omega
  · intro j hj1 hj2
    by_cases e : j = 51
    · subst e
      have := h 51 (by omega)
      rw [show 51 = 63 - 12 from rfl, g4, pl_v]
      rw [show 63 - 12 = 51 from rfl]
      omega
    · rw [g2 j (by omega)]
      have := h j (by omega)
      omega
  · intro j hj1 hj2
    rw [show j = 63 by omega]
    exact g7
  · rw [g8, hv]

theorem rows_inv {N : Int} {x : List V} (hl : x.length = 64) (hv : pv x 64 = N)
    (h : ∀ j, j < 64 → -(2 ^ 22) ≤ (at' x j).v ∧ (at' x j).v ≤ 2 ^ 22) (k : Nat) (hk : k ≤ 31) :
    RowInv N (62 - k) (forRange (k + 1) x fun k x => modLRow (63 - k) x) := by
  induction k with
  | zero =>
    rw [forRange_succ, forRange_zero]
    exact row_inv_first hl hv h
  | succ k ih =>
    rw [forRange_succ]
    have := row_inv_step (by omega) (by omega) (ih (by omega))
    rw [show 63 - (k + 1) = 62 - k by omega]
    exact this

end Salt.Tweet
