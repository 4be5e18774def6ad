import Verif.Lemmas.Poly

/-! Poly1305: carries, the loop and the result. -/

namespace Salt.Tweet

open Salt.Spec

/-! ### Carries -/

/-- The digits after a carry pass. -/
def carryDigits : Nat → List Nat → List Nat
  | _, [] => []
  | u, a :: x => (u + a) % 256 :: carryDigits ((u + a) / 256) x

/-- The carry out of a carry pass. -/
def carryOut : Nat → List Nat → Nat
  | u, [] => u
  | u, a :: x => carryOut ((u + a) / 256) x

theorem carry_val (x : List Nat) : ∀ u, val (carryDigits u x) + 256 ^ x.length * carryOut u x = u + val x := by
  induction x with
  | nil => intro u; simp [carryDigits, carryOut, val]
  | cons a x ih =>
    intro u
    have := ih ((u + a) / 256)
    simp only [carryDigits, carryOut, val, List.length_cons, Nat.pow_succ]
    rw [Nat.mul_comm (256 ^ x.length) 256, Nat.mul_assoc]
    generalize 256 ^ x.length * carryOut ((u + a) / 256) x = c at this ⊢
    generalize val (carryDigits ((u + a) / 256) x) = d at this ⊢
    omega

theorem carryDigits_lt (x : List Nat) : ∀ u, ∀ d ∈ carryDigits u x, d < 256 := by
  induction x with
  | nil => intro u d hd; simp [carryDigits] at hd
  | cons a x ih =>
    intro u d hd
    simp only [carryDigits, List.mem_cons] at hd
    rcases hd with rfl | hd
    · omega
    · exact ih _ d hd

theorem carryDigits_length (x : List Nat) : ∀ u, (carryDigits u x).length = x.length := by
  induction x with
  | nil => intro u; rfl
  | cons a x ih => intro u; simp [carryDigits, ih]

theorem carry_scan {x : List V} {d : List Nat} (h : Plains x d) : ∀ i u,
    Plains (scan (fun _ a u => (u + a) &&& 255) (fun _ a u => (u + a) >>> 8) i x ⟨.plain, ((u : Nat) : Int)⟩).1 (carryDigits u d) ∧
    (scan (fun _ a u => (u + a) &&& 255) (fun _ a u => (u + a) >>> 8) i x ⟨.plain, (u : Int)⟩).2 =
      ⟨.plain, ((carryOut u d : Nat) : Int)⟩ := by
  induction h with
  | nil => intro i u; exact ⟨.nil, rfl⟩
  | cons h1 _ ih =>
    intro i u
    simp only [scan]
    rw [plain_add _ _ (by rw [h1]), plain_shr, plain_mask _ 8 _ rfl]
    exact ⟨.cons rfl (ih _ _).1, (ih _ _).2⟩

theorem plains_take {x : List V} {d : List Nat} (h : Plains x d) (n : Nat) : Plains (x.take n) (d.take n) := by
  induction h generalizing n with
  | nil => simp [Plains]
  | cons h1 h2 ih =>
    cases n with
    | zero => exact .nil
    | succ n => exact .cons h1 (ih n)

theorem plains_drop {x : List V} {d : List Nat} (h : Plains x d) (n : Nat) : Plains (x.drop n) (d.drop n) := by
  induction h generalizing n with
  | nil => simp [Plains]
  | cons h1 h2 ih =>
    cases n with
    | zero => exact .cons h1 h2
    | succ n => exact ih n

theorem polyCarry_eq {x : List V} {d : List Nat} {top : Nat} (h : Plains x (d ++ [top])) (hd : d.length = 16) (u : Nat) :
    ∃ y, polyCarry x ⟨.plain, (u : Int)⟩ = (y, ⟨.plain, ((carryOut u d : Nat) : Int)⟩) ∧ Plains y (carryDigits u d ++ [top]) := by
  have hl : x.length = 17 := by rw [forall₂_len h]; simp [hd]
  have e := forRange_scan (fun _ a u => (u + a) &&& 255) (fun _ a u => (u + a) >>> 8) 16 x ⟨.plain, (u : Int)⟩ (by omega)
  have ht := plains_take h 16
  have hdr := plains_drop h 16
  rw [List.take_left' hd] at ht
  rw [List.drop_left' hd] at hdr
  obtain ⟨h1, h2⟩ := carry_scan ht 0 u
  refine ⟨(scan (fun _ a u => (u + a) &&& 255) (fun _ a u => (u + a) >>> 8) 0 (x.take 16) ⟨.plain, (u : Int)⟩).1 ++ x.drop 16,
    ?_, plains_append h1 hdr⟩
  rw [← h2]
  exact e

theorem val_append (a b : List Nat) : val (a ++ b) = val a + 256 ^ a.length * val b := by
  induction a with
  | nil => simp [val]
  | cons x a ih =>
    simp only [List.cons_append, val, ih, List.length_cons, Nat.pow_succ]
    ring

/-- The value is kept up to a multiple of 2^130 - 5. -/
theorem polyReduce_eq {x : List V} {xd : List Nat} (h : Plains x xd) (hl : xd.length = 17) :
    ∃ yd q, Plains (polyReduce x) yd ∧ yd.length = 17 ∧ val xd = val yd + q * (2 ^ 130 - 5) ∧ q ≤ val xd / 2 ^ 130 ∧
      val yd < 2 ^ 130 + 5 * q ∧ (∀ d ∈ yd.take 16, d < 256) := by
  obtain ⟨d, top, rfl, hd⟩ : ∃ d top, xd = d ++ [top] ∧ d.length = 16 := by
    refine ⟨xd.take 16, xd.getD 16 0, ?_, by simp; omega⟩
    obtain ⟨a0, a1, a2, a3, a4, a5, a6, a7, a8, a9, a10, a11, a12, a13, a14, a15, a16, rfl⟩ := List.length17 hl
    rfl
  obtain ⟨y, e1, h1⟩ := polyCarry_eq h hd 0
  have hat : ∀ {z : List V} {zd : List Nat} {t : Nat}, Plains z (zd ++ [t]) → zd.length = 16 → at' z 16 = ⟨.plain, (t : Int)⟩ := by
    intro z zd t hz hzl
    rw [plains_at hz, List.getD_append_right _ _ _ _ (by omega), hzl]
    rfl
  have hset : ∀ {z : List V} {zd : List Nat} {t t' : Nat}, Plains z (zd ++ [t]) → zd.length = 16 →
      Plains (z.set 16 ⟨.plain, (t' : Int)⟩) (zd ++ [t']) := by
    intro z zd t t' hz hzl
    have h1 := plains_take hz 16
    rw [List.take_left' hzl] at h1
    have hzl' : z.length = 17 := by rw [forall₂_len hz]; simp [hzl]
    have : z.set 16 ⟨.plain, (t' : Int)⟩ = z.take 16 ++ [⟨.plain, (t' : Int)⟩] := by
      obtain ⟨a0, a1, a2, a3, a4, a5, a6, a7, a8, a9, a10, a11, a12, a13, a14, a15, a16, rfl⟩ := List.length17 hzl'
      rfl
    rw [this]
    exact plains_append h1 (.cons rfl .nil)
  have hcl := carryDigits_length d 0
  rw [hd] at hcl
  generalize hU : carryOut 0 d + top = U
  have hset1 := hset (t' := U % 4) h1 hcl
  obtain ⟨y2, e2, h2⟩ := polyCarry_eq hset1 hcl (5 * (U / 4))
  have hcl2 := carryDigits_length (carryDigits 0 d) (5 * (U / 4))
  rw [hcl] at hcl2
  have h3 := hset (t' := carryOut (5 * (U / 4)) (carryDigits 0 d) + U % 4) h2 hcl2
  refine ⟨carryDigits (5 * (U / 4)) (carryDigits 0 d) ++ [carryOut (5 * (U / 4)) (carryDigits 0 d) + U % 4], U / 4,
    ?_, ?_, ?_, ?_, ?_, ?_⟩
  · have : polyReduce x = y2.set 16 ⟨.plain, ((carryOut (5 * (U / 4)) (carryDigits 0 d) + U % 4 : Nat) : Int)⟩ := by
      unfold polyReduce
      rw [show (0 : V) = ⟨.plain, ((0 : Nat) : Int)⟩ from rfl, e1]
      simp only
      rw [hat h1 hcl, plain_add _ _ rfl, hU, plain_mask _ 2 _ rfl, plain_shr,
        show (5 : V) = ⟨.plain, ((5 : Nat) : Int)⟩ from rfl, plain_mul _ _ rfl]
      rw [show U % 2 ^ 2 = U % 4 from rfl, show U / 2 ^ 2 = U / 4 from rfl, e2]
      simp only
      rw [hat h2 hcl2, plain_add _ _ rfl]
    rw [this]
    exact h3
  · simp [hcl2]
  · have v1 := carry_val d 0
    have v2 := carry_val (carryDigits 0 d) (5 * (U / 4))
    rw [hd] at v1
    rw [hcl] at v2
    rw [val_append, val_append, hcl2, hd]
    simp only [val]
    generalize val (carryDigits 0 d) = A at *
    generalize val (carryDigits (5 * (U / 4)) (carryDigits 0 d)) = B at *
    generalize carryOut (5 * (U / 4)) (carryDigits 0 d) = C at *
    generalize carryOut 0 d = D at *
    generalize val d = W at *
    rw [show (256 ^ 16 : Nat) = 340282366920938463463374607431768211456 from rfl] at *
    omega
  · have v1 := carry_val d 0
    rw [hd] at v1
    rw [val_append, hd]
    simp only [val]
    generalize val (carryDigits 0 d) = A at *
    generalize carryOut 0 d = D at *
    generalize val d = W at *
    rw [show (256 ^ 16 : Nat) = 340282366920938463463374607431768211456 from rfl] at *
    omega
  · have v2 := carry_val (carryDigits 0 d) (5 * (U / 4))
    rw [hcl] at v2
    have lt : val (carryDigits 0 d) < 256 ^ 16 := by
      have : ∀ (l : List Nat), (∀ a ∈ l, a < 256) → val l < 256 ^ l.length := by
        intro l
        induction l with
        | nil => intro _; simp [val]
        | cons a l ih =>
          intro h
          have h1 := h a (by simp)
          have h2 := ih (fun b hb => h b (by simp [hb]))
          simp only [val, List.length_cons, Nat.pow_succ]
          omega
      have h := this _ (carryDigits_lt d 0)
      rw [hcl] at h
      exact h
    rw [val_append, hcl2]
    simp only [val]
    generalize val (carryDigits 0 d) = A at *
    generalize val (carryDigits (5 * (U / 4)) (carryDigits 0 d)) = B at *
    generalize carryOut (5 * (U / 4)) (carryDigits 0 d) = C at *
    rw [show (256 ^ 16 : Nat) = 340282366920938463463374607431768211456 from rfl] at *
    omega
  · rw [List.take_left' hcl2]
    exact carryDigits_lt _ _

end Salt.Tweet
