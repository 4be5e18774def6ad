import Verif.Lemmas.ModL

/-! The last part of `modL`. -/

namespace Salt.Tweet

open Salt.Spec

theorem pv_cons (a : V) (y : List V) (n : Nat) : pv (a :: y) (n + 1) = a.v + 256 * pv y n := by
  induction n with
  | zero => simp [pv, at']
  | succ n ih =>
    rw [pv, ih, pv, show at' (a :: y) (n + 1) = at' y n from rfl, pow_succ]
    ring

/-- A plain digit in base 256. -/
def IsDig (a : V) : Prop := ∃ d : Int, a = pl d ∧ 0 ≤ d ∧ d < 256

theorem pv_range (y : List V) (n : Nat) (h : ∀ j, j < n → IsDig (at' y j)) : 0 ≤ pv y n ∧ pv y n < 256 ^ n := by
  induction n with
  | zero => simp [pv]
  | succ n ih =>
    obtain ⟨h1, h2⟩ := ih (fun j hj => h j (by omega))
    obtain ⟨d, e, d1, d2⟩ := h n (by omega)
    rw [pv, e, pl_v, pow_succ]
    have hp : (0 : Int) < 256 ^ n := Int.pow_pos (by omega)
    generalize (256 : Int) ^ n = P at *
    constructor <;> nlinarith

theorem bytes_of_pv (y : List V) (m : Nat) (h : ∀ j, j < y.length → IsDig (at' y j)) (hv : pv y y.length = m) : AreBytes y (digits y.length m) := by
  induction y generalizing m with
  | nil => exact .nil
  | cons a y ih =>
    rw [List.length_cons, pv_cons] at hv
    obtain ⟨d, rfl, d1, d2⟩ := h 0 (by simp)
    have h' : ∀ j, j < y.length → IsDig (at' y j) := fun j hj => h (j + 1) (by simpa using hj)
    have hr := (pv_range y y.length h').1
    rw [pl_v] at hv
    have ih := ih (m / 256) h' (by omega)
    rw [List.length_cons, digits]
    refine .cons ⟨.inr rfl, ?_⟩ ih
    show d = _
    rw [UInt8.toNat_ofNat']
    omega

theorem pv_above {x : List V} {n : Nat} (k : Nat) (h : ∀ j, n ≤ j → j < n + k → at' x j = pl 0) : pv x (n + k) = pv x n := by
  induction k with
  | zero => rfl
  | succ k ih =>
    rw [← Nat.add_assoc, pv, ih (fun j h1 h2 => h j h1 (by omega)), h (n + k) (by omega) (by omega), pl_v]
    ring

/-! ### The second loop -/

theorem land255 (a : Int) : pl a &&& 255 = pl (a % 256) := by
  have e : pl a &&& 255 = pl (Int.land a 255) := typed_right _ _ _ rfl
  rw [e]
  exact congrArg pl (land_mask 8 a)

theorem top_eq (j : Nat) (x : List V) (c q : Int) (hj : j < x.length) (hq : at' x 31 = pl q) :
    let s := (at' x j).v + (c - q / 16 * dL j)
    modLTop j (x, pl c) = (x.set j (pl (s % 256)), pl (s / 256)) := by
  intro s
  unfold modLTop
  simp only
  have e1 : at' x j + (pl c - at' x 31 >>> 4 * at' cL j) = pl s := by
    rw [hq, shr_pl, mul_l, sub_l, pl_v, add_r]
    rfl
  rw [e1]
  have e2 : at' (x.set j (pl s)) j = pl s := by rw [at'_set _ _ _ _ hj, if_pos rfl]
  rw [e2, shr_pl, land255, List.set_set]
  rfl

theorem top_inv (x : List V) (q : Int) (hl : x.length = 64) (hq : at' x 31 = pl q) (t : Nat) (ht : t ≤ 32) :
    let r := forRange t (x, 0) modLTop
    r.1.length = 64 ∧ (∀ j, t ≤ j → at' r.1 j = at' x j) ∧ (∀ j, j < t → IsDig (at' r.1 j)) ∧
    ∃ c : Int, r.2 = pl c ∧ pv r.1 32 + 256 ^ t * c = pv x 32 - q / 16 * pL t := by
  induction t with
  | zero =>
    refine ⟨hl, fun _ _ => rfl, fun j hj => absurd hj (by omega), 0, rfl, ?_⟩
    show pv x 32 + 256 ^ 0 * 0 = pv x 32 - q / 16 * 0
    ring
  | succ t ih =>
    obtain ⟨h1, h2, h3, c, hc, hv⟩ := ih (by omega)
    rw [forRange_succ]
    generalize forRange t (x, 0) modLTop = r at *
    obtain ⟨y, cy⟩ := r
    simp only at h1 h2 h3 hc hv
    subst hc
    rw [top_eq t y c q (by omega) (by rw [h2 31 (by omega)]; exact hq), h2 t (by omega)]
    generalize hs : (at' x t).v + (c - q / 16 * dL t) = s
    refine ⟨by simp [h1], ?_, ?_, s / 256, rfl, ?_⟩
    · intro j hj
      simp only
      rw [at'_set _ _ _ _ (by omega), if_neg (by omega)]
      exact h2 j (by omega)
    · intro j hj
      simp only
      rw [at'_set _ _ _ _ (by omega)]
      by_cases e : j = t
      · rw [if_pos e]
        exact ⟨_, rfl, by omega, by omega⟩
      · rw [if_neg e]
        exact h3 j (by omega)
    · rw [pv_set _ _ _ (by omega), if_pos (by omega), h2 t (by omega), pl_v, show pL (t + 1) = pL t + 256 ^ t * dL t from rfl, pow_succ]
      have e1 : s % 256 = s - 256 * (s / 256) := by omega
      have e3 := congrArg (fun a => 256 ^ t * a) hs
      rw [e1]
      linear_combination hv - e3

/-! ### The third loop -/

theorem third_inv (x : List V) (c : Int) (hl : x.length = 64) (t : Nat) (ht : t ≤ 32) :
    let r := forRange t x fun j x => x.set j (at' x j - pl c * at' cL j)
    r.length = 64 ∧ (∀ j, t ≤ j → at' r j = at' x j) ∧ (∀ j, j < t → ∃ d, at' r j = pl d) ∧ pv r 32 = pv x 32 - c * pL t := by
  induction t with
  | zero =>
    refine ⟨hl, fun _ _ => rfl, fun j hj => absurd hj (by omega), ?_⟩
    show pv x 32 = pv x 32 - c * 0
    ring
  | succ t ih =>
    obtain ⟨h1, h2, h3, hv⟩ := ih (by omega)
    rw [forRange_succ]
    generalize (forRange t x fun j x => x.set j (at' x j - pl c * at' cL j)) = y at *
    rw [mul_l, sub_r, h2 t (by omega)]
    refine ⟨by simp [h1], ?_, ?_, ?_⟩
    · intro j hj
      rw [at'_set _ _ _ _ (by omega), if_neg (by omega)]
      exact h2 j (by omega)
    · intro j hj
      rw [at'_set _ _ _ _ (by omega)]
      by_cases e : j = t
      · rw [if_pos e]
        exact ⟨_, rfl⟩
      · rw [if_neg e]
        exact h3 j (by omega)
    · rw [pv_set _ _ _ (by omega), if_pos (by omega), h2 t (by omega), pl_v, show pL (t + 1) = pL t + 256 ^ t * dL t from rfl,
        show (at' cL t).v = dL t from rfl]
      linear_combination hv

/-! ### The last loop -/

theorem last_inv (x r : List V) (hl : x.length = 64) (hr : 32 ≤ r.length) (hx : ∀ j, j < 32 → ∃ d, at' x j = pl d) (t : Nat) (ht : t ≤ 32) :
    let s := forRange t (x, r) fun i (x, r) => (x.set (i + 1) (at' x (i + 1) + at' x i >>> 8), r.set i (at' x i &&& 255))
    s.1.length = 64 ∧ s.2.length = r.length ∧ (∀ j, t < j → at' s.1 j = at' x j) ∧
    (∀ j, j < t → IsDig (at' s.2 j)) ∧ s.2.drop t = r.drop t ∧
    ∃ c : Int, (at' s.1 t).v = (at' x t).v + c ∧ (t < 32 → at' s.1 t = pl ((at' x t).v + c)) ∧ pv s.2 t + 256 ^ t * c = pv x t := by
  induction t with
  | zero =>
    refine ⟨hl, rfl, fun _ _ => rfl, fun j hj => absurd hj (by omega), rfl, 0, ?_, ?_, ?_⟩
    · show (at' x 0).v = _
      omega
    · intro _
      show at' x 0 = _
      obtain ⟨d, e⟩ := hx 0 (by omega)
      rw [e, pl_v, Int.add_zero]
    · show pv r 0 + _ = pv x 0
      simp [pv]
  | succ t ih =>
    obtain ⟨h1, h2, h3, h4, h5, c, h6, h7, hv⟩ := ih (by omega)
    rw [forRange_succ]
    generalize (forRange t (x, r) fun i (x, r) => (x.set (i + 1) (at' x (i + 1) + at' x i >>> 8), r.set i (at' x i &&& 255))) = s at *
    obtain ⟨y, o⟩ := s
    simp only at h1 h2 h3 h4 h5 h6 h7 hv ⊢
    have h7 := h7 (by omega)
    rw [h7, h3 (t + 1) (by omega), shr_pl, add_r, land255]
    generalize hs : (at' x t).v + c = s
    refine ⟨by simp [h1], by simp [h2], ?_, ?_, ?_, s / 256, ?_, ?_, ?_⟩
    · intro j hj
      rw [at'_set _ _ _ _ (by omega), if_neg (by omega)]
      exact h3 j (by omega)
    · intro j hj
      rw [at'_set _ _ _ _ (by omega)]
      by_cases e : j = t
      · rw [if_pos e]
        exact ⟨_, rfl, by omega, by omega⟩
      · rw [if_neg e]
        exact h4 j (by omega)
    · rw [List.drop_set, if_pos (by omega)]
      have := congrArg (List.drop 1) h5
      rwa [List.drop_drop, List.drop_drop] at this
    · rw [at'_set _ _ _ _ (by omega), if_pos rfl]
      rfl
    · intro _
      rw [at'_set _ _ _ _ (by omega), if_pos rfl]
      rfl
    · rw [pv, pv_set _ _ _ (by omega), if_neg (by omega), at'_set _ _ _ _ (by omega), if_pos rfl, pl_v, pv, pow_succ]
      have e1 : s % 256 = s - 256 * (s / 256) := by omega
      have e3 := congrArg (fun a => 256 ^ t * a) hs
      rw [e1]
      linear_combination hv - e3

/-! ### The result -/

theorem pv_abs (x : List V) (n : Nat) (h : ∀ j, j < n → ∃ d : Int, at' x j = pl d ∧ -130 ≤ d ∧ d ≤ 130) :
    -(130 * (256 ^ n - 1)) ≤ 255 * pv x n ∧ 255 * pv x n ≤ 130 * (256 ^ n - 1) := by
  induction n with
  | zero => simp [pv]
  | succ n ih =>
    obtain ⟨h1, h2⟩ := ih (fun j hj => h j (by omega))
    obtain ⟨d, e, d1, d2⟩ := h n (by omega)
    rw [pv, e, pl_v, pow_succ]
    have hp : (0 : Int) < 256 ^ n := Int.pow_pos (by omega)
    generalize (256 : Int) ^ n = P at *
    constructor <;> nlinarith

theorem modL_eq {x r : List V} {N : Nat} (hl : x.length = 64) (hr : 32 ≤ r.length) (hv : pv x 64 = N)
    (h : ∀ j, j < 64 → -(2 ^ 22) ≤ (at' x j).v ∧ (at' x j).v ≤ 2 ^ 22) :
    ∃ y, modL r x = y ++ r.drop 32 ∧ y.length = 32 ∧ (∀ a ∈ y, a.ty = .plain) ∧ AreBytes y (digits 32 (N % orderL)) := by
  have hrow := rows_inv hl hv h 31 (by omega)
  unfold modL
  simp only
  generalize (forRange 32 x fun k x => modLRow (63 - k) x) = x1 at *
  obtain ⟨g1, -, g3, g4, -, g6, m, g7⟩ := hrow
  have hall : ∀ j, j < 32 → ∃ d : Int, at' x1 j = pl d ∧ -130 ≤ d ∧ d ≤ 130 := by
    intro j hj
    by_cases e : j ≤ 19
    · obtain ⟨d, e1, e2, e3⟩ := g3 j (by omega) (by omega)
      exact ⟨d, e1, by omega, by omega⟩
    · exact g4 j (by omega) (by omega) (by omega)
  have hp32 : pv x1 64 = pv x1 32 := pv_above (n := 32) 32 (fun j h1 h2 => g6 j (by omega) (by omega))
  obtain ⟨q, hq, hq1, hq2⟩ := hall 31 (by omega)
  have hlow := pv_abs x1 31 (fun j hj => hall j (by omega))
  have hp : pv x1 32 = pv x1 31 + 256 ^ 31 * q := by rw [pv, hq, pl_v]
  obtain ⟨t1, -, t3, c, hc, hcv⟩ := top_inv x1 q g1 hq 32 (by omega)
  generalize forRange 32 (x1, 0) modLTop = s at *
  obtain ⟨x2, c2⟩ := s
  simp only at t1 t3 hc hcv ⊢
  subst hc
  have hx2 := pv_range x2 32 t3
  obtain ⟨u1, -, u3, u4⟩ := third_inv x2 c t1 32 (by omega)
  generalize (forRange 32 x2 fun j x => x.set j (at' x j - pl c * at' cL j)) = x3 at *
  obtain ⟨-, w2, -, w4, w5, c4, -, -, w8⟩ := last_inv x3 r u1 hr u3 32 (by omega)
  generalize (forRange 32 (x3, r) fun i (x, r) => (x.set (i + 1) (at' x (i + 1) + at' x i >>> 8), r.set i (at' x i &&& 255))) = s at *
  obtain ⟨x4, r4⟩ := s
  simp only at w2 w4 w5 w8 ⊢
  have hr4 := pv_range r4 32 w4
  rw [pL_32] at hcv u4
  have key : pv r4 32 = ((N % orderL : Nat) : Int) := by
    have hL : ((N % orderL : Nat) : Int) = (N : Int) % (orderL : Int) := by push_cast; rfl
    rw [hL]
    have e : pv r4 32 = N - (m + q / 16 + c) * orderL - 256 ^ 32 * (c + c4) := by
      have h9 : pv x2 32 = pv x1 32 - q / 16 * (orderL : Int) - 256 ^ 32 * c := by linear_combination hcv
      rw [hp32] at g7
      linear_combination w8 + u4 + h9 + g7
    have hlt : pv r4 32 < orderL ∧ c + c4 = 0 := by
      have hor : (orderL : Int) = 2 ^ 252 + 27742317777372353535851937790883648493 := by decide +kernel
      have hV : -(orderL : Int) < pv x1 32 - q / 16 * orderL ∧ pv x1 32 - q / 16 * orderL < orderL := by
        rw [hp, hor]
        omega
      have hc' : (c = 0 ∧ 0 ≤ pv x1 32 - q / 16 * orderL) ∨ (c = -1 ∧ pv x1 32 - q / 16 * orderL < 0) := by
        rw [hor] at hcv hV ⊢
        omega
      have e2 : pv r4 32 + 256 ^ 32 * c4 = pv x1 32 - q / 16 * (orderL : Int) - 256 ^ 32 * c - c * orderL := by
        linear_combination w8 + u4 + hcv
      rcases hc' with ⟨rfl, h0⟩ | ⟨rfl, h0⟩
      · rw [hor] at *
        omega
      · rw [hor] at *
        omega
    have h0 := hr4.1
    rw [hlt.2] at e
    rw [Int.mul_zero, Int.sub_zero] at e
    rw [e] at h0 hlt ⊢
    generalize (orderL : Int) = L at *
    generalize m + q / 16 + c = k at *
    rw [show (N : Int) - k * L = (N - k * L) % L from (Int.emod_eq_of_lt h0 hlt.1).symm]
    rw [Int.sub_mul_emod_self_right]
  have hlen : (r4.take 32).length = 32 := by simp; omega
  have hat : ∀ j, j < 32 → at' (r4.take 32) j = at' r4 j := by
    intro j hj
    unfold at'
    rw [List.getD_eq_getElem?_getD, List.getD_eq_getElem?_getD, List.getElem?_take_of_lt hj]
  refine ⟨r4.take 32, ?_, hlen, ?_, ?_⟩
  · rw [← w5, List.take_append_drop]
  · intro a ha
    obtain ⟨i, hi, rfl⟩ := List.getElem_of_mem ha
    obtain ⟨d, e, -, -⟩ := w4 i (by omega)
    rw [← hat i (by omega)] at e
    unfold at' at e
    rw [List.getD_eq_getElem?_getD, List.getElem?_eq_getElem hi] at e
    rw [show (List.take 32 r4)[i] = pl d from e]
    rfl
  · have := bytes_of_pv (r4.take 32) (N % orderL) (by rw [hlen]; intro j hj; rw [hat j hj]; exact w4 j hj)
      (by rw [hlen, ← key]; exact pv_congr (fun i hi => by rw [hat i hi]))
    rw [hlen] at this
    exact this

end Salt.Tweet
