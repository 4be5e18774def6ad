import Verif.Lemmas.Poly3

/-! Poly1305: the result. -/

namespace Salt.Tweet

open Salt.Spec

theorem polyR_items (w : Nat) (k : List V) : polyR w k = [at' k 0, at' k 1, at' k 2, at' k 3 &&& 15, at' k 4 &&& 252, at' k 5, at' k 6, at' k 7 &&& 15, at' k 8 &&& 252, at' k 9, at' k 10, at' k 11 &&& 15, at' k 12 &&& 252, at' k 13, at' k 14, at' k 15 &&& 15, ⟨.u32 w, 0⟩] := by
  unfold polyR
  have e := forRange_set 16 0 (intArray (.u32 w) 17) (at' k) (by simp [intArray])
  simp only [Nat.add_zero, List.take_zero, List.nil_append, Nat.zero_add] at e
  rw [e]
  rfl

theorem small_byte {w : Nat} {x : V} {b : UInt8} (h : IsByte x b) : (x.ty = .u8 ∨ x.ty = .u32 w ∨ x.ty = .plain) ∧ x.v = b.toNat := by
  refine ⟨?_, h.2⟩
  rcases h.1 with h | h
  · exact .inl h
  · exact .inr (.inr h)

theorem and_byte {w : Nat} {x : V} {b : UInt8} (h : IsByte x b) (m : Nat) :
    ((x &&& (OfNat.ofNat m : V)).ty = .u8 ∨ (x &&& (OfNat.ofNat m : V)).ty = .u32 w ∨ (x &&& (OfNat.ofNat m : V)).ty = .plain) ∧
    (x &&& (OfNat.ofNat m : V)).v = ((b.toNat &&& m : Nat) : Int) := by
  have e : (x &&& (OfNat.ofNat m : V)) = ⟨.plain, ((b.toNat &&& m : Nat) : Int)⟩ := by
    show typed Int.land _ _ = _
    unfold typed
    rw [h.2, show (OfNat.ofNat m : V).v = (m : Int) from rfl, land_nat, show (OfNat.ofNat m : V).ty = .plain from rfl, promote_plain]
    rfl
  rw [e]
  exact ⟨.inr (.inr rfl), rfl⟩

theorem land_step (a b x y : Nat) (ha : a < 256) (hb : b < 256) :
    (a + 256 * x) &&& (b + 256 * y) = (a &&& b) + 256 * (x &&& y) := by
  have h1 := Nat.div_add_mod ((a + 256 * x) &&& (b + 256 * y)) 256
  have h2 : ((a + 256 * x) &&& (b + 256 * y)) / 256 = x &&& y := by
    rw [show 256 = 2 ^ 8 from rfl, Nat.and_div_two_pow]
    rw [show (a + 2 ^ 8 * x) / 2 ^ 8 = x by omega, show (b + 2 ^ 8 * y) / 2 ^ 8 = y by omega]
  have h3 : ((a + 256 * x) &&& (b + 256 * y)) % 256 = a &&& b := by
    rw [show 256 = 2 ^ 8 from rfl, Nat.and_mod_two_pow]
    rw [show (a + 2 ^ 8 * x) % 2 ^ 8 = a by omega, show (b + 2 ^ 8 * y) % 2 ^ 8 = b by omega]
  omega

theorem polyR_eq {w : Nat} {k : List V} {kb : Bytes} (hk : AreBytes k kb) (hkl : 16 ≤ kb.length) :
    ∃ rd, Smalls w (polyR w k) rd ∧ rd.length = 17 ∧ (∀ d ∈ rd, d < 256) ∧ val rd = polyClamp (num (kb.take 16)) := by
  match kb, hkl with
  | b0 :: b1 :: b2 :: b3 :: b4 :: b5 :: b6 :: b7 :: b8 :: b9 :: b10 :: b11 :: b12 :: b13 :: b14 :: b15 :: t, _ =>
    refine ⟨[b0.toNat, b1.toNat, b2.toNat, b3.toNat &&& 15, b4.toNat &&& 252, b5.toNat, b6.toNat, b7.toNat &&& 15, b8.toNat &&& 252, b9.toNat, b10.toNat, b11.toNat &&& 15, b12.toNat &&& 252, b13.toNat, b14.toNat, b15.toNat &&& 15, 0], ?_, rfl, ?_, ?_⟩
    · rw [polyR_items]
      exact (.cons (small_byte (hk.at' 0)) (.cons (small_byte (hk.at' 1)) (.cons (small_byte (hk.at' 2)) (.cons (and_byte (hk.at' 3) 15) (.cons (and_byte (hk.at' 4) 252) (.cons (small_byte (hk.at' 5)) (.cons (small_byte (hk.at' 6)) (.cons (and_byte (hk.at' 7) 15) (.cons (and_byte (hk.at' 8) 252) (.cons (small_byte (hk.at' 9)) (.cons (small_byte (hk.at' 10)) (.cons (and_byte (hk.at' 11) 15) (.cons (and_byte (hk.at' 12) 252) (.cons (small_byte (hk.at' 13)) (.cons (small_byte (hk.at' 14)) (.cons (and_byte (hk.at' 15) 15) (.cons ⟨.inr (.inl rfl), rfl⟩ .nil)))))))))))))))))
    · have hb : ∀ b : UInt8, b.toNat < 256 := fun b => b.toNat_lt
      have hb' : ∀ (b : UInt8) (m : Nat), b.toNat &&& m < 256 := fun b m => Nat.lt_of_le_of_lt Nat.and_le_left b.toNat_lt
      intro d hd
      simp only [List.mem_cons, List.not_mem_nil, or_false] at hd
      rcases hd with rfl | rfl | rfl | rfl | rfl | rfl | rfl | rfl | rfl | rfl | rfl | rfl | rfl | rfl | rfl | rfl | rfl <;> first | exact hb _ | exact hb' _ _ | omega
    · have hb : ∀ b : UInt8, b.toNat < 256 := fun b => b.toNat_lt
      have h255 : ∀ b : UInt8, b.toNat &&& 255 = b.toNat := fun b => by
        rw [show 255 = 2 ^ 8 - 1 from rfl, Nat.and_two_pow_sub_one_eq_mod, Nat.mod_eq_of_lt (hb b)]
      unfold polyClamp
      rw [show 0x0ffffffc0ffffffc0ffffffc0fffffff = 255 + 256 * (255 + 256 * (255 + 256 * (15 + 256 * (252 + 256 * (255 + 256 * (255 + 256 * (15 + 256 * (252 + 256 * (255 + 256 * (255 + 256 * (15 + 256 * (252 + 256 * (255 + 256 * (255 + 256 * (15 + 256 * (0)))))))))))))))) from rfl]
      simp only [List.take, num, val]
      simp only [land_step _ _ _ _ (hb _) (show 255 < 256 by omega), land_step _ _ _ _ (hb _) (show 252 < 256 by omega),
        land_step _ _ _ _ (hb _) (show 15 < 256 by omega), h255, Nat.and_zero]

/-! ### A block -/

theorem polyBlock_eq {w : Nat} {m : List V} {mb : Bytes} (hm : AreBytes m mb) {j : Nat} (hj : j ≤ 16) (hl : j ≤ mb.length) :
    ∃ cd, Smalls w (polyBlock w m j) cd ∧ cd.length = 17 ∧ (∀ d ∈ cd, d < 256) ∧ val cd = num (mb.take j) + 256 ^ j ∧ val cd ≤ 2 ^ 129 := by
  have e := forRange_set j 0 (intArray (.u32 w) 17) (at' m) (by simp [intArray]; omega)
  simp only [Nat.add_zero, List.take_zero, List.nil_append, Nat.zero_add] at e
  have e2 : polyBlock w m j = (List.range j).map (at' m) ++ (1 : V) :: intArray (.u32 w) (16 - j) := by
    unfold polyBlock
    rw [e]
    simp only
    rw [List.set_append, if_neg (by simp)]
    simp only [List.length_map, List.length_range, Nat.sub_self]
    rw [intArray, List.drop_replicate, show 17 - j = (16 - j) + 1 by omega, List.replicate_succ]
    rfl
  have zs : ∀ n, Smalls w (intArray (.u32 w) n) (List.replicate n 0) := by
    intro n
    induction n with
    | zero => exact .nil
    | succ n ih => exact .cons ⟨.inr (.inl rfl), rfl⟩ ih
  have app : ∀ {x y : List V} {a b : List Nat}, Smalls w x a → Smalls w y b → Smalls w (x ++ y) (a ++ b) := by
    intro x y a b h1 h2
    induction h1 with
    | nil => exact h2
    | cons h1 _ ih => exact .cons h1 ih
  have first : ∀ n, Smalls w ((List.range n).map (at' m)) ((List.range n).map fun i => (mb.getD i 0).toNat) := by
    intro n
    induction n with
    | zero => exact .nil
    | succ n ih =>
      rw [List.range_succ, List.map_append, List.map_append]
      exact app ih (.cons (small_byte (hm.at' n)) .nil)
  have hv : ∀ n, n ≤ mb.length → val ((List.range n).map fun i => (mb.getD i 0).toNat) = num (mb.take n) := by
    intro n hn
    have e : ((List.range n).map fun i => (mb.getD i 0).toNat) = (mb.take n).map UInt8.toNat := by
      apply List.ext_getElem
      · simp; omega
      · intro i h1 h2
        simp only [List.length_map, List.length_range] at h1
        simp [List.getElem?_eq_getElem (show i < mb.length by omega)]
    rw [e]
    generalize mb.take n = l
    induction l with
    | nil => rfl
    | cons a l ih => simp [val, num, ih]
  have hz : ∀ n, val (List.replicate n 0) = 0 := by
    intro n
    induction n with
    | zero => rfl
    | succ n ih => simp [List.replicate_succ, val, ih]
  refine ⟨((List.range j).map fun i => (mb.getD i 0).toNat) ++ 1 :: List.replicate (16 - j) 0, ?_, by simp; omega, ?_, ?_, ?_⟩
  · rw [e2]
    exact app (first j) (.cons ⟨.inr (.inr rfl), rfl⟩ (zs _))
  · intro d hd
    simp only [List.mem_append, List.mem_map, List.mem_cons, List.mem_replicate] at hd
    rcases hd with ⟨i, _, rfl⟩ | rfl | ⟨_, rfl⟩
    · exact UInt8.toNat_lt _
    · omega
    · omega
  · rw [val_append, hv j hl]
    simp [val, hz]
  · have hlt := val_lt ((List.range j).map fun i => (mb.getD i 0).toNat) (by
      intro a ha
      rw [List.mem_map] at ha
      obtain ⟨i, _, rfl⟩ := ha
      exact UInt8.toNat_lt _)
    rw [val_append]
    simp only [List.length_map, List.length_range] at hlt ⊢
    have hp : 256 ^ j ≤ 256 ^ 16 := Nat.pow_le_pow_right (by omega) hj
    rw [show (256 ^ 16 : Nat) = 2 ^ 128 from rfl] at hp
    simp only [val, hz]
    omega

theorem polyLoop_eq {w : Nat} (hw : 32 ≤ w) {r : List V} {rd : List Nat} (hr : Smalls w r rd) (hrl : rd.length = 17)
    (hrd : ∀ d ∈ rd, d < 256) (n : Nat) : ∀ (h m : List V) (mb : Bytes) (acc : Nat), Acc w h acc → AreBytes m mb → mb.length = n →
    Acc w (polyLoop w h r m n) (polyAcc (val rd) acc mb) := by
  induction n using Nat.strongRecOn with
  | _ n ih =>
    intro h m mb acc hh hm hl
    unfold polyLoop
    split
    · rename_i h0
      have : mb = [] := List.length_eq_zero_iff.mp (by omega)
      subst this
      unfold polyAcc
      exact hh
    · rename_i h0
      obtain ⟨b, t, rfl⟩ := List.exists_cons_of_ne_nil (show mb ≠ [] by intro e; subst e; simp at hl; omega)
      obtain ⟨cd, c1, c2, c3, c4, c5⟩ := polyBlock_eq (w := w) hm (j := min n 16) (by omega) (by omega)
      have hstep := acc_step hw hh hr hrl hrd c1 c2 c3 c5
      have e16 : (b :: t).take (min n 16) = (b :: t).take 16 := by
        by_cases h : n ≤ 16
        · rw [Nat.min_eq_left h, List.take_of_length_le (by omega), List.take_of_length_le (by omega)]
        · rw [Nat.min_eq_right (by omega)]
      have e16' : (b :: t).drop (min n 16) = (b :: t).drop 16 := by
        by_cases h : n ≤ 16
        · rw [Nat.min_eq_left h, List.drop_of_length_le (by omega), List.drop_of_length_le (by omega)]
        · rw [Nat.min_eq_right (by omega)]
      have elen : ((b :: t).take 16).length = min n 16 := by rw [List.length_take, hl, Nat.min_comm]
      have hd := hm.drop (min n 16)
      have := ih (n - min n 16) (by omega) _ _ _ _ hstep hd (by rw [List.length_drop, hl])
      unfold polyAcc
      simp only
      rw [elen, Nat.add_assoc, ← e16, ← e16', ← c4]
      exact this

/-! ### The result -/

theorem digits_val (d : List Nat) (hd : ∀ a ∈ d, a < 256) (n : Nat) (hn : n ≤ d.length) :
    digits n (val d) = (d.take n).map UInt8.ofNat := by
  induction d generalizing n with
  | nil =>
    have : n = 0 := by simpa using hn
    subst this
    rfl
  | cons a d ih =>
    cases n with
    | zero => rfl
    | succ n =>
      have ha := hd a (by simp)
      simp only [digits, val, List.take_succ_cons, List.map_cons]
      rw [show (a + 256 * val d) / 256 = val d by omega, ih (fun b hb => hd b (by simp [hb])) n (by simpa using hn)]
      congr 1
      apply UInt8.toNat_inj.mp
      simp

theorem digits_mod (n m x : Nat) (h : n ≤ m) : digits n (x % 256 ^ m) = digits n x := by
  induction n generalizing x m with
  | zero => rfl
  | succ n ih =>
    obtain ⟨m, rfl⟩ : ∃ m', m = m' + 1 := ⟨m - 1, by omega⟩
    have e : x % 256 ^ (m + 1) = x % 256 + 256 * (x / 256 % 256 ^ m) := by
      rw [Nat.pow_succ, Nat.mul_comm (256 ^ m) 256, Nat.mod_mul]
    simp only [digits]
    rw [e, show (x % 256 + 256 * (x / 256 % 256 ^ m)) / 256 = x / 256 % 256 ^ m by omega, ih m _ (by omega)]
    congr 1
    apply UInt8.toNat_inj.mp
    simp

theorem minusp_smalls {w : Nat} (hw : 32 ≤ w) : Smalls w (minusp w) [5, 0, 0, 0, 0, 0, 0, 0, 0, 0, 0, 0, 0, 0, 0, 0, 252] := by
  have hp : 2 ^ 32 ≤ 2 ^ w := Nat.pow_le_pow_right (by omega) hw
  have c : ∀ n : Nat, n < 256 → ((cast (.u32 w) (n : Int)).ty = .u8 ∨ (cast (.u32 w) (n : Int)).ty = .u32 w ∨ (cast (.u32 w) (n : Int)).ty = .plain) ∧
      (cast (.u32 w) (n : Int)).v = n := by
    intro n hn
    rw [cast_nat _ (by simp)]
    refine ⟨.inr (.inl rfl), ?_⟩
    simp only [Ty.bits]
    rw [Nat.mod_eq_of_lt (by omega)]
  exact .cons (c 5 (by omega)) (.cons (c 0 (by omega)) (.cons (c 0 (by omega)) (.cons (c 0 (by omega)) (.cons (c 0 (by omega)) (.cons (c 0 (by omega)) (.cons (c 0 (by omega)) (.cons (c 0 (by omega)) (.cons (c 0 (by omega)) (.cons (c 0 (by omega)) (.cons (c 0 (by omega)) (.cons (c 0 (by omega)) (.cons (c 0 (by omega)) (.cons (c 0 (by omega)) (.cons (c 0 (by omega)) (.cons (c 0 (by omega)) (.cons (c 252 (by omega)) .nil))))))))))))))))

/-- The selection of one of two numbers by a mask that is 0 or -1. -/
theorem select {w : Nat} {g : V} {a b : Nat} (hg : (g.ty = .u32 w ∨ g.ty = .plain) ∧ g.v = b) (s : Bool) :
    ((⟨.plain, (a : Int)⟩ : V) ^^^ ((⟨.plain, if s then -1 else 0⟩ : V) &&& (g ^^^ ⟨.plain, (a : Int)⟩))) =
      ⟨.plain, ((if s then b else a : Nat) : Int)⟩ := by
  have e1 : g ^^^ ⟨.plain, (a : Int)⟩ = ⟨.plain, ((b ^^^ a : Nat) : Int)⟩ := by
    show typed Int.xor _ _ = _
    unfold typed
    rw [hg.2, xor_nat, promote_plain]
    rfl
  rw [e1]
  cases s with
  | false =>
    have e2 : ((⟨.plain, 0⟩ : V) &&& ⟨.plain, ((b ^^^ a : Nat) : Int)⟩) = ⟨.plain, ((0 : Nat) : Int)⟩ := by
      show typed Int.land _ _ = _
      unfold typed
      rw [show (0 : Int) = ((0 : Nat) : Int) from rfl, land_nat, promote_plain, Nat.zero_and]
      rfl
    simp only [Bool.false_eq_true, if_false]
    rw [e2]
    show typed Int.xor _ _ = _
    unfold typed
    rw [xor_nat, promote_plain, Nat.xor_zero]
    rfl
  | true =>
    have e2 : ((⟨.plain, -1⟩ : V) &&& ⟨.plain, ((b ^^^ a : Nat) : Int)⟩) = ⟨.plain, ((b ^^^ a : Nat) : Int)⟩ := by
      show typed Int.land _ _ = _
      unfold typed
      have : Int.land (-1) ((b ^^^ a : Nat) : Int) = ((b ^^^ a : Nat) : Int) := by
        rw [show (-1 : Int) = Int.negSucc 0 from rfl]
        simp [Int.land, Nat.ldiff]
      simp only
      rw [this, promote_plain]
      rfl
    simp only [if_true]
    rw [e2]
    show typed Int.xor _ _ = _
    unfold typed
    rw [xor_nat, promote_plain, Nat.xor_comm b a, ← Nat.xor_assoc, Nat.xor_self, Nat.zero_xor]
    rfl

theorem forRange_map (n : Nat) (x : List V) (f : Nat → V → V) (h : n ≤ x.length) :
    forRange n x (fun j x => x.set j (f j (at' x j))) = (List.range n).map (fun j => f j (at' x j)) ++ x.drop n := by
  induction n with
  | zero => simp [forRange_zero]
  | succ n ih =>
    rw [forRange_succ, ih (by omega)]
    have ea : at' ((List.range n).map (fun j => f j (at' x j)) ++ x.drop n) n = at' x n := by
      unfold at'
      rw [List.getD_append_right _ _ _ _ (by simp)]
      simp
    rw [ea, List.set_append, if_neg (by simp), List.range_succ, List.map_append]
    simp only [List.length_map, List.length_range, Nat.sub_self]
    rw [List.drop_eq_getElem_cons (by omega : n < x.length), List.set_cons_zero]
    simp

theorem plains_map {f : Nat → V} {g : Nat → Nat} (n : Nat) (h : ∀ i, i < n → f i = ⟨.plain, (g i : Int)⟩) :
    Plains ((List.range n).map f) ((List.range n).map g) := by
  induction n with
  | zero => exact .nil
  | succ n ih =>
    rw [List.range_succ, List.map_append, List.map_append]
    exact plains_append (ih (fun i hi => h i (by omega))) (.cons (h n (by omega)) .nil)

theorem words_at {w : Nat} {x : List V} {d : List Nat} (h : Words w x d) (j : Nat) :
    ((at' x j).ty = .u32 w ∨ (at' x j).ty = .plain) ∧ (at' x j).v = ((d.getD j 0 : Nat) : Int) := by
  unfold at'
  induction h generalizing j with
  | nil => exact ⟨.inr rfl, rfl⟩
  | cons h1 h2 ih =>
    cases j with
    | zero => exact h1
    | succ j => exact ih j

theorem map_getD {α : Type} (l : List α) (a : α) : (List.range l.length).map (fun j => l.getD j a) = l := by
  apply List.ext_getElem
  · simp
  · intro i h1 h2
    simp [List.getElem?_eq_getElem h2]

/-- Poly1305 of a message. -/
theorem poly1305_eq {w : Nat} (hw : 32 ≤ w) {out m k : List V} {mb kb : Bytes} (hm : AreBytes m mb) (hk : AreBytes k kb)
    (hkl : 32 ≤ kb.length) (n : Nat) (hn : mb.length = n) (ho : 16 ≤ out.length) :
    ∃ y, poly1305 w out m n k = y ++ out.drop 16 ∧ AreBytes y (Spec.poly1305 (kb.take 32) mb) := by
  obtain ⟨rd, r1, r2, r3, r4⟩ := polyR_eq (w := w) hk (by omega)
  obtain ⟨gd, g1, g2, g3, g4, g5⟩ := (polyLoop_eq hw r1 r2 r3 n _ m mb 0 (acc_zero w) hm hn).ex
  unfold poly1305
  simp only
  generalize polyLoop w (intArray (.u32 w) 17) (polyR w k) m n = g at g1 g2 g3 g4 g5
  have a1 := add1305_eq hw g1 (minusp_smalls hw) (fun d hd => by have := g3 d hd; omega) (by decide) g2 rfl
  have a2 := val_addDigits gd [5, 0, 0, 0, 0, 0, 0, 0, 0, 0, 0, 0, 0, 0, 0, 0, 252] g2 0
  have a3 := addDigits_length gd [5, 0, 0, 0, 0, 0, 0, 0, 0, 0, 0, 0, 0, 0, 0, 0, 252] g2 0
  have a4 := addDigits_lt gd [5, 0, 0, 0, 0, 0, 0, 0, 0, 0, 0, 0, 0, 0, 0, 0, 252] 0
  rw [g2] at a2 a3
  rw [show val [5, 0, 0, 0, 0, 0, 0, 0, 0, 0, 0, 0, 0, 0, 0, 0, 252] = 2 ^ 136 - (2 ^ 130 - 5) from rfl,
    show (256 ^ 17 : Nat) = 2 ^ 136 from rfl] at a2
  generalize addDigits 0 gd [5, 0, 0, 0, 0, 0, 0, 0, 0, 0, 0, 0, 0, 0, 0, 0, 252] = hd at a1 a2 a3 a4
  generalize add1305 w g (minusp w) = h at a1
  -- the top digit
  have htop : hd.getD 16 0 / 128 = if val gd < 2 ^ 130 - 5 then 1 else 0 := by
    obtain ⟨lo, top, rfl, hlo⟩ : ∃ lo top, hd = lo ++ [top] ∧ lo.length = 16 := by
      refine ⟨hd.take 16, hd.getD 16 0, ?_, by simp; omega⟩
      obtain ⟨a0, a1, a2, a3, a4, a5, a6, a7, a8, a9, a10, a11, a12, a13, a14, a15, a16, rfl⟩ := List.length17 a3
      rfl
    have hlv := val_lt lo (fun a ha => a4 a (by simp [ha]))
    have ht := a4 top (by simp)
    rw [val_append, hlo] at a2
    rw [hlo] at hlv
    simp only [val] at a2
    rw [show (256 ^ 16 : Nat) = 2 ^ 128 from rfl] at a2 hlv
    have : (lo ++ [top]).getD 16 0 = top := by rw [List.getD_append_right _ _ _ _ (by omega), hlo]; rfl
    rw [this]
    split <;> omega
  have hs : -(at' h 16 >>> 7) = ⟨.plain, if decide (val gd < 2 ^ 130 - 5) then -1 else 0⟩ := by
    rw [plains_at a1, plain_shr, show (2 ^ 7 : Nat) = 128 from rfl, htop]
    by_cases hlt : val gd < 2 ^ 130 - 5
    · simp only [hlt, if_true, decide_true]; rfl
    · simp only [hlt, if_false, decide_false, Bool.false_eq_true]; rfl
  have hhl : h.length = 17 := by rw [forall₂_len a1, a3]
  rw [hs]
  have e1 := forRange_map 17 h (fun j x => x ^^^ ((⟨.plain, if decide (val gd < 2 ^ 130 - 5) then -1 else 0⟩ : V) &&& (at' g j ^^^ x))) (by omega)
  rw [List.drop_of_length_le (by omega), List.append_nil] at e1
  rw [e1]
  have p1 := plains_map (f := fun j => at' h j ^^^ ((⟨.plain, if decide (val gd < 2 ^ 130 - 5) then -1 else 0⟩ : V) &&& (at' g j ^^^ at' h j)))
    (g := fun j => if decide (val gd < 2 ^ 130 - 5) then gd.getD j 0 else hd.getD j 0) 17 (by
      intro i _
      rw [plains_at a1]
      exact select (words_at g1 i) _)
  generalize ((List.range 17).map fun j => at' h j ^^^ ((⟨.plain, if decide (val gd < 2 ^ 130 - 5) then -1 else 0⟩ : V) &&& (at' g j ^^^ at' h j))) = f at p1
  have hsel : ∃ fd, Plains f fd ∧ fd.length = 17 ∧ (∀ a ∈ fd, a < 256) ∧ val fd = val gd % (2 ^ 130 - 5) := by
    by_cases hlt : val gd < 2 ^ 130 - 5
    · refine ⟨gd, ?_, g2, g3, (Nat.mod_eq_of_lt hlt).symm⟩
      simp only [hlt, decide_true, if_true] at p1
      rw [← g2, map_getD] at p1
      exact p1
    · refine ⟨hd, ?_, a3, a4, by omega⟩
      simp only [hlt, decide_false, Bool.false_eq_true, if_false] at p1
      rw [← a3, map_getD] at p1
      exact p1
  obtain ⟨fd, f1, f2, f3, f4⟩ := hsel
  -- the second half of the key
  have e2 := forRange_set 16 0 (intArray (.u32 w) 17) (fun j => at' k (j + 16)) (by simp [intArray])
  simp only [Nat.add_zero, List.take_zero, List.nil_append, Nat.zero_add] at e2
  rw [e2]
  have hpad : ∃ cd, Smalls w ((((List.range 16).map fun j => at' k (j + 16)) ++ (intArray (.u32 w) 17).drop 16).set 16 0) cd ∧ cd.length = 17 ∧
      (∀ d ∈ cd, d < 256) ∧ val cd = num ((kb.take 32).drop 16) := by
    have hk2 := (hk.take 32).drop 16
    have hl2 : ((kb.take 32).drop 16).length = 16 := by simp; omega
    generalize hkk : (kb.take 32).drop 16 = kk at hk2 hl2
    have items : ((((List.range 16).map fun j => at' k (j + 16)) ++ (intArray (.u32 w) 17).drop 16).set 16 0) =
        (k.take 32).drop 16 ++ [0] := by
      have hkv : 32 ≤ k.length := by rw [hk.length]; omega
      have : ((List.range 16).map fun j => at' k (j + 16)) = (k.take 32).drop 16 := by
        apply List.ext_getElem
        · simp; omega
        · intro i h1 h2
          simp only [List.length_map, List.length_range] at h1
          simp [at', List.getElem?_eq_getElem (show i + 16 < k.length by omega), Nat.add_comm]
      rw [this, List.set_append, if_neg (by simp)]
      have : ((k.take 32).drop 16).length = 16 := by simp; omega
      rw [this]
      rfl
    rw [items]
    refine ⟨kk.map UInt8.toNat ++ [0], ?_, by simp [hl2], ?_, ?_⟩
    · have app : ∀ {x : List V} {a : Bytes}, AreBytes x a → Smalls w (x ++ [0]) (a.map UInt8.toNat ++ [0]) := by
        intro x a h1
        induction h1 with
        | nil => exact .cons ⟨.inr (.inr rfl), rfl⟩ .nil
        | cons h1 _ ih => exact .cons (small_byte h1) ih
      exact app hk2
    · intro d hd
      simp only [List.mem_append, List.mem_map, List.mem_cons, List.not_mem_nil, or_false] at hd
      rcases hd with ⟨b, _, rfl⟩ | rfl
      · exact b.toNat_lt
      · omega
    · rw [val_append]
      simp only [val, Nat.mul_zero, Nat.add_zero]
      clear hl2 hk2 hkk items
      induction kk with
      | nil => rfl
      | cons a l ih => simp [val, num, ih]
  obtain ⟨cd, c1, c2, c3, c4⟩ := hpad
  generalize ((((List.range 16).map fun j => at' k (j + 16)) ++ (intArray (.u32 w) 17).drop 16).set 16 0) = c at c1
  have b1 := add1305_eq hw (f1.words w) c1 (fun d hd => by have := f3 d hd; omega) (fun d hd => by have := c3 d hd; omega) f2 c2
  have b2 := val_addDigits fd cd (by omega) 0
  have b3 := addDigits_length fd cd (by omega) 0
  have b4 := addDigits_lt fd cd 0
  rw [f2] at b2 b3
  generalize addDigits 0 fd cd = od at b1 b2 b3 b4
  have e3 := forRange_set 16 0 out (at' (add1305 w f c)) (by omega)
  simp only [Nat.add_zero, List.take_zero, List.nil_append, Nat.zero_add] at e3
  refine ⟨_, e3, ?_⟩
  have hfin : Spec.poly1305 (kb.take 32) mb = (List.range 16).map fun j => UInt8.ofNat (od.getD j 0) := by
    unfold Spec.poly1305
    rw [List.take_take, show min 16 32 = 16 from rfl, ← r4, ← g5, ← f4, ← c4, ← digits_mod 16 17 _ (by omega)]
    rw [Nat.zero_add] at b2
    rw [← b2, digits_val od b4 16 (by omega)]
    obtain ⟨a0, a1, a2, a3, a4, a5, a6, a7, a8, a9, a10, a11, a12, a13, a14, a15, a16, rfl⟩ := List.length17 b3
    rfl
  rw [hfin]
  apply areBytes_map
  intro i _
  rw [plains_at b1]
  refine ⟨.inr rfl, ?_⟩
  have := getD_lt (m := 256) (by omega) b4 i
  simp only [UInt8.toNat_ofNat']
  omega

end Salt.Tweet
