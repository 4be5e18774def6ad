import Verif.Lemmas.Poly2

/-! Poly1305: the loop and the result. -/

namespace Salt.Tweet

open Salt.Spec

/-- Items of the classes `u32` and plain. -/
def Words (w : Nat) (x : List V) (d : List Nat) : Prop :=
  List.Forall₂ (fun (a : V) (n : Nat) => (a.ty = .u32 w ∨ a.ty = .plain) ∧ a.v = n) x d

theorem Plains.words {x : List V} {d : List Nat} (h : Plains x d) (w : Nat) : Words w x d :=
  forall₂_mono h (fun a n (h : a = ⟨.plain, (n : Int)⟩) => by rw [h]; exact ⟨.inr rfl, rfl⟩)

theorem val_lt (l : List Nat) : (∀ a ∈ l, a < 256) → val l < 256 ^ l.length := by
  induction l with
  | nil => intro _; simp [val]
  | cons a l ih =>
    intro h
    have h1 := h a (by simp)
    have h2 := ih (fun b hb => h b (by simp [hb]))
    simp only [val, List.length_cons, Nat.pow_succ]
    omega

theorem val_le (l : List Nat) (m : Nat) : (∀ a ∈ l, a ≤ m) → val l ≤ m * val (List.replicate l.length 1) := by
  induction l with
  | nil => intro _; simp [val]
  | cons a l ih =>
    intro h
    have h1 := h a (by simp)
    have h2 := ih (fun b hb => h b (by simp [hb]))
    simp only [val, List.length_cons, List.replicate_succ, Nat.mul_add, Nat.mul_one]
    rw [Nat.mul_left_comm]
    omega

theorem getD_lt {l : List Nat} {m : Nat} (hm : 0 < m) (h : ∀ a ∈ l, a < m) (j : Nat) : l.getD j 0 < m := by
  by_cases hj : j < l.length
  · rw [List.getD_eq_getElem _ _ hj]
    exact h _ (List.getElem_mem hj)
  · rw [List.getD_eq_default _ _ (by omega)]
    exact hm

theorem mulDigit_le {h r : List Nat} (hh : ∀ a ∈ h, a < 256) (hr : ∀ a ∈ r, a < 256) (i : Nat) : mulDigit h r i ≤ 2 ^ 29 := by
  have : ∀ K, 20808000 ≤ K → ∀ n, (forRange n 0 fun j x => x + h.getD j 0 * (if j ≤ i then r.getD (i - j) 0 else 320 * r.getD (i + 17 - j) 0)) ≤
      n * K := by
    intro K hK n
    induction n with
    | zero => simp [forRange_zero]
    | succ n ih =>
      rw [forRange_succ, Nat.succ_mul n K]
      have h0 := getD_lt (m := 256) (by omega) hh n
      have h1 := getD_lt (m := 256) (by omega) hr (i - n)
      have h2 := getD_lt (m := 256) (by omega) hr (i + 17 - n)
      have h3 : (if n ≤ i then r.getD (i - n) 0 else 320 * r.getD (i + 17 - n) 0) ≤ 81600 := by split <;> omega
      have h4 := Nat.mul_le_mul (show h.getD n 0 ≤ 255 by omega) h3
      rw [show 255 * 81600 = 20808000 from rfl] at h4
      exact Nat.add_le_add ih (Nat.le_trans h4 hK)
  exact Nat.le_trans (this 20808000 (Nat.le_refl _) 17) (by decide)

/-- `h` holds a number that is `acc` modulo 2^130 - 5. -/
structure Acc (w : Nat) (h : List V) (acc : Nat) : Prop where
  ex : ∃ hd, Words w h hd ∧ hd.length = 17 ∧ (∀ d ∈ hd, d < 256) ∧ val hd < 2 ^ 130 + 2 ^ 31 ∧ val hd % (2 ^ 130 - 5) = acc

theorem acc_zero (w : Nat) : Acc w (intArray (.u32 w) 17) 0 := by
  refine ⟨List.replicate 17 0, ?_, by simp, ?_, by decide, by decide⟩
  · unfold intArray
    generalize 17 = n
    induction n with
    | zero => exact .nil
    | succ n ih => exact .cons ⟨.inl rfl, rfl⟩ ih
  · intro d hd
    rw [List.eq_of_mem_replicate hd]
    omega

/-- One block. -/
theorem acc_step {w : Nat} (hw : 32 ≤ w) {h r c : List V} {acc : Nat} {rd cd : List Nat} (hh : Acc w h acc)
    (hr : Smalls w r rd) (hrl : rd.length = 17) (hrd : ∀ d ∈ rd, d < 256) (hc : Smalls w c cd) (hcl : cd.length = 17)
    (hcd : ∀ d ∈ cd, d < 256) (hcv : val cd ≤ 2 ^ 129) :
    Acc w (polyReduce (polyMul (add1305 w h c) r)) ((acc + val cd) * val rd % (2 ^ 130 - 5)) := by
  obtain ⟨hd, h1, h2, h3, h4, h5⟩ := hh
  have a1 := add1305_eq hw h1 hc (fun d hd => by have := h3 d hd; omega) (fun d hd => by have := hcd d hd; omega) h2 hcl
  have a2 := val_addDigits hd cd (by omega) 0
  have a3 := addDigits_length hd cd (by omega) 0
  have a4 := addDigits_lt hd cd 0
  rw [h2] at a2 a3
  rw [Nat.zero_add, Nat.mod_eq_of_lt (by rw [show (256 ^ 17 : Nat) = 2 ^ 136 from rfl]; omega)] at a2
  generalize addDigits 0 hd cd = sd at a1 a2 a3 a4
  have m1 := polyMul_eq a1 hr a3
  obtain ⟨q, m2⟩ := val_mul a3 hrl
  have m3 : val ((List.range 17).map (mulDigit sd rd)) ≤ 2 ^ 29 * val (List.replicate 17 1) := by
    have := val_le ((List.range 17).map (mulDigit sd rd)) (2 ^ 29) (by
      intro a ha
      rw [List.mem_map] at ha
      obtain ⟨i, _, rfl⟩ := ha
      exact mulDigit_le a4 hrd i)
    simpa using this
  obtain ⟨yd, q', r1, r2, r3, r4, r5, r6⟩ := polyReduce_eq m1 (by simp)
  generalize val ((List.range 17).map (mulDigit sd rd)) = X at m2 m3 r3 r4
  have hv : val (List.replicate 17 1) ≤ 2 ^ 129 := by decide
  have hX : X ≤ 2 ^ 158 := by
    have := Nat.mul_le_mul_left (2 ^ 29) hv
    omega
  refine ⟨yd, r1.words w, r2, ?_, by omega, ?_⟩
  · intro d hd
    obtain ⟨lo, top, rfl, hlo⟩ : ∃ lo top, yd = lo ++ [top] ∧ lo.length = 16 := by
      refine ⟨yd.take 16, yd.getD 16 0, ?_, by simp; omega⟩
      obtain ⟨a0, a1, a2, a3, a4, a5, a6, a7, a8, a9, a10, a11, a12, a13, a14, a15, a16, rfl⟩ := List.length17 r2
      rfl
    rw [List.take_left' hlo] at r6
    rw [List.mem_append] at hd
    rcases hd with hd | hd
    · exact r6 d hd
    · have : d = top := by simpa using hd
      subst this
      rw [val_append, hlo] at r5
      simp only [val] at r5
      rw [show (256 ^ 16 : Nat) = 2 ^ 128 from rfl] at r5
      omega
  · have e1 : val yd % (2 ^ 130 - 5) = X % (2 ^ 130 - 5) := by rw [r3, Nat.add_mul_mod_self_right]
    have e2 : X % (2 ^ 130 - 5) = val sd * val rd % (2 ^ 130 - 5) := by rw [m2, Nat.add_mul_mod_self_right]
    rw [e1, e2, a2, ← h5, Nat.mul_mod, Nat.add_mod, Nat.mod_mul_mod]
    conv => rhs; rw [Nat.mul_mod, Nat.mod_add_mod]
    simp [Nat.mul_mod, Nat.add_mod]

end Salt.Tweet
