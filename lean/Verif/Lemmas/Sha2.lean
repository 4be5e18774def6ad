import Verif.Lemmas.Sha
import Verif.Lemmas.Core

/-! SHA-512: rounds and blocks. -/

namespace Salt.Tweet

open Salt.Spec

/-- The working variables as an array. -/
def wl (s : Working) : List V :=
  let (a, b, c, d, e, f, g, h) := s
  [w64 a, w64 b, w64 c, w64 d, w64 e, w64 f, w64 g, w64 h]

theorem shaK_length : shaK.length = 80 := rfl

theorem shaRound_eq (m : List UInt64) (hm : m.length = 16) (i : Nat) (hi : i < 80) (s : ShaState) (v : Working)
    (ha : s.a = wl v) (hb : s.b.length = 8) (hw : Window m (16 * (i / 16) + 16) s.w) :
    (shaRound i s).a = wl (shaStep v (shaK.getD i 0) (sched m i)) ∧ (shaRound i s).b.length = 8 ∧
      Window m (16 * ((i + 1) / 16) + 16) (shaRound i s).w := by
  obtain ⟨sa, sb, sw⟩ := s
  obtain ⟨a, b, c, d, e, f, g, h⟩ := v
  simp only at ha hb hw
  subst ha
  match sb, hb with
  | [b0, b1, b2, b3, b4, b5, b6, b7], _ =>
    have hwi : at' sw (i % 16) = w64 (sched m i) := by
      rw [hw.2 _ (by omega)]
      have : newest (16 * (i / 16) + 16) (i % 16) = i := by unfold newest; omega
      rw [this]
    have hk : at' K512 i = w64 (shaK.getD i 0) := by rw [K512_eq, at_map _ _ (by rw [shaK_length]; exact hi)]
    refine ⟨?_, ?_, ?_⟩
    · unfold shaRound
      simp only [wl, forRange, List.range, List.range.loop, List.foldl_cons, List.foldl_nil]
      simp only [hwi, hk]
      simp only [at', Nat.reduceAdd, Nat.reduceMod, List.getD_cons_zero, List.getD_cons_succ, List.set_cons_zero, List.set_cons_succ]
      simp only [bigSigma0_eq, bigSigma1_eq, Ch_eq, Maj_eq, add_w64]
      simp only [shaStep, UInt64.add_assoc]
    · unfold shaRound
      simp only [wl, forRange, List.range, List.range.loop, List.foldl_cons, List.foldl_nil, List.set_cons_zero, List.set_cons_succ,
        List.length_cons, List.length_nil]
    · unfold shaRound
      simp only
      split
      · rename_i h15
        have := shaWords_eq m hm (i / 16) sw hw
        rw [show (i + 1) / 16 = i / 16 + 1 by omega]
        exact this
      · rename_i h15
        rw [show (i + 1) / 16 = i / 16 by omega]
        exact hw

theorem forRange_congr {α : Type} (n : Nat) (s : α) (f g : Nat → α → α) (h : ∀ i, i < n → ∀ s, f i s = g i s) :
    forRange n s f = forRange n s g := by
  induction n with
  | zero => rfl
  | succ n ih => rw [forRange_succ, forRange_succ, ih (fun i hi => h i (by omega)), h n (by omega)]

theorem foldl_forRange {α β : Type} (d : β) (f : α → β → α) (l : List β) (s : α) :
    l.foldl f s = forRange l.length s fun i s => f s (l.getD i d) := by
  have : ∀ n, n ≤ l.length → (l.take n).foldl f s = forRange n s fun i s => f s (l.getD i d) := by
    intro n hn
    induction n with
    | zero => rfl
    | succ n ih =>
      rw [List.take_succ_eq_append_getElem (by omega), List.foldl_append, ih (by omega), forRange_succ,
        List.getD_eq_getElem _ _ (by omega)]
      rfl
  have := this l.length (Nat.le_refl _)
  rw [List.take_length] at this
  exact this

theorem shaRounds_eq (m : List UInt64) (hm : m.length = 16) (v : Working) :
    shaRounds v (schedule m 64) = forRange 80 v fun i v => shaStep v (shaK.getD i 0) (sched m i) := by
  unfold shaRounds
  have hl := schedule_length m hm 64
  have hz : (List.zip shaK (schedule m 64)).length = 80 := by rw [List.length_zip, hl, shaK_length]; rfl
  rw [foldl_forRange (0, 0), hz]
  apply forRange_congr
  intro i hi s
  have hk := shaK_length
  rw [List.getD_eq_getElem _ _ (by omega), List.getElem_zip, ← sched_eq m hm 64 i (by omega),
    List.getD_eq_getElem _ _ (by omega), List.getD_eq_getElem _ _ (by omega)]

theorem rounds80 (m : List UInt64) (hm : m.length = 16) (s : ShaState) (v : Working) (ha : s.a = wl v) (hb : s.b.length = 8)
    (hw : Window m 16 s.w) :
    (forRange 80 s shaRound).a = wl (shaRounds v (schedule m 64)) ∧ (forRange 80 s shaRound).b.length = 8 ∧
      (forRange 80 s shaRound).w.length = 16 := by
  have : ∀ n, n ≤ 80 → (forRange n s shaRound).a = wl (forRange n v fun i v => shaStep v (shaK.getD i 0) (sched m i)) ∧
      (forRange n s shaRound).b.length = 8 ∧ Window m (16 * (n / 16) + 16) (forRange n s shaRound).w := by
    intro n hn
    induction n with
    | zero => exact ⟨ha, hb, hw⟩
    | succ n ih =>
      obtain ⟨h1, h2, h3⟩ := ih (by omega)
      rw [forRange_succ, forRange_succ]
      exact shaRound_eq m hm n (by omega) _ _ h1 h2 h3
  obtain ⟨h1, h2, h3⟩ := this 80 (by omega)
  exact ⟨by rw [h1, shaRounds_eq m hm], h2, h3.1⟩

/-- An array whose values are those of bytes, of whatever class. -/
def HasBytes (x : List V) (b : Bytes) : Prop := List.Forall₂ (fun (x : V) (b : UInt8) => x.v = b.toNat) x b

theorem AreBytes.has {x : List V} {b : Bytes} (h : AreBytes x b) : HasBytes x b := by
  induction h with
  | nil => exact .nil
  | cons h _ ih => exact .cons h.2 ih

theorem HasBytes.length {x : List V} {b : Bytes} (h : HasBytes x b) : x.length = b.length := by
  induction h with
  | nil => rfl
  | cons _ _ ih => simp [ih]

theorem HasBytes.append {x y : List V} {a b : Bytes} (h : HasBytes x a) (h' : HasBytes y b) : HasBytes (x ++ y) (a ++ b) := by
  induction h with
  | nil => exact h'
  | cons h1 _ ih => exact .cons h1 ih

theorem HasBytes.drop {x : List V} {b : Bytes} (h : HasBytes x b) (n : Nat) : HasBytes (x.drop n) (b.drop n) := by
  induction h generalizing n with
  | nil => simp [HasBytes]
  | cons h1 h2 ih =>
    cases n with
    | zero => exact .cons h1 h2
    | succ n => exact ih n

theorem HasBytes.take {x : List V} {b : Bytes} (h : HasBytes x b) (n : Nat) : HasBytes (x.take n) (b.take n) := by
  induction h generalizing n with
  | nil => simp [HasBytes]
  | cons h1 h2 ih =>
    cases n with
    | zero => exact .nil
    | succ n => exact .cons h1 (ih n)

theorem HasBytes.at' {x : List V} {b : Bytes} (h : HasBytes x b) (n : Nat) : (Tweet.at' x n).v = ((b.getD n 0).toNat : Int) := by
  unfold Tweet.at'
  induction h generalizing n with
  | nil => rfl
  | cons h1 h2 ih =>
    cases n with
    | zero => exact h1
    | succ n => exact ih n

/-- Reading a big-endian word. -/
theorem dl64_eq {x : List V} {b0 b1 b2 b3 b4 b5 b6 b7 : UInt8} {t : Bytes} (h : HasBytes x (b0 :: b1 :: b2 :: b3 :: b4 :: b5 :: b6 :: b7 :: t)) :
    dl64 x = w64 (UInt64.ofNat (numBE [b0, b1, b2, b3, b4, b5, b6, b7])) := by
  have step : ∀ (n : Nat) (i : Nat) (b : UInt8), at' x i = at' x i → (at' x i).v = (b.toNat : Int) →
      (w64 (UInt64.ofNat n) <<< 8) ||| u8 (at' x i) = w64 (UInt64.ofNat (256 * n + b.toNat)) := by
    intro n i b _ hb
    have e8 : u8 (at' x i) = ⟨.u8, (b.toNat : Int)⟩ := by
      unfold u8
      rw [hb, cast_nat _ (by simp)]
      simp [Ty.bits]
    rw [shl_w64 _ _ (by omega), e8]
    show typed Int.lor _ _ = _
    unfold typed
    have : (w64 (UInt64.ofNat n <<< UInt64.ofNat 8)).v = ((UInt64.ofNat n <<< UInt64.ofNat 8).toNat : Int) := rfl
    rw [this]
    show cast (promote (w64 _).ty .u8 (Int.lor _ (b.toNat : Int))) (Int.lor _ (b.toNat : Int)) = _
    rw [lor_nat, promote_nat, if_pos (by simp [w64, Ty.order])]
    show cast .u64 _ = _
    rw [cast_w64]
    congr 1
    apply UInt64.toNat_inj.mp
    have hb := b.toNat_lt
    rw [UInt64.toNat_ofNat', UInt64.toNat_ofNat', UInt64.toNat_shiftLeft, UInt64.toNat_ofNat', Nat.shiftLeft_eq]
    rw [show (UInt64.ofNat 8).toNat % 64 = 8 from rfl]
    have e : n % 2 ^ 64 * 2 ^ 8 % 2 ^ 64 = (n % 2 ^ 56) * 2 ^ 8 := by omega
    rw [e, ← Nat.shiftLeft_eq, ← Nat.shiftLeft_add_eq_or_of_lt hb, Nat.shiftLeft_eq]
    clear e this e8 h
    generalize b.toNat = B at hb
    have : n = n / 2 ^ 56 * 2 ^ 56 + n % 2 ^ 56 := by omega
    generalize n % 2 ^ 56 = q at this
    generalize n / 2 ^ 56 = q' at this
    subst this
    omega
  have h0 := step (numBE []) 0 b0 rfl (h.at' 0)
  have h1 := step (numBE [b0]) 1 b1 rfl (h.at' 1)
  have h2 := step (numBE [b0, b1]) 2 b2 rfl (h.at' 2)
  have h3 := step (numBE [b0, b1, b2]) 3 b3 rfl (h.at' 3)
  have h4 := step (numBE [b0, b1, b2, b3]) 4 b4 rfl (h.at' 4)
  have h5 := step (numBE [b0, b1, b2, b3, b4]) 5 b5 rfl (h.at' 5)
  have h6 := step (numBE [b0, b1, b2, b3, b4, b5]) 6 b6 rfl (h.at' 6)
  have h7 := step (numBE [b0, b1, b2, b3, b4, b5, b6]) 7 b7 rfl (h.at' 7)
  unfold dl64
  simp only [forRange, List.range, List.range.loop, List.foldl_cons, List.foldl_nil]
  have hn : ∀ (l : Bytes) (b : UInt8), 256 * numBE l + b.toNat = numBE (l ++ [b]) := by
    intro l b
    unfold numBE
    rw [List.foldl_append]
    rfl
  rw [hn] at h0 h1 h2 h3 h4 h5 h6 h7
  simp only [List.cons_append, List.nil_append] at h0 h1 h2 h3 h4 h5 h6 h7
  rw [show (⟨.u64, 0⟩ : V) = w64 (UInt64.ofNat (numBE [])) from rfl, h0, h1, h2, h3, h4, h5, h6, h7]

theorem wordsBE_drop (b : Bytes) (i : Nat) : wordsBE (b.drop (8 * i)) = (wordsBE b).drop i := by
  induction i generalizing b with
  | zero => rfl
  | succ i ih =>
    match b with
    | b0 :: b1 :: b2 :: b3 :: b4 :: b5 :: b6 :: b7 :: t =>
      rw [show 8 * (i + 1) = 8 * i + 8 by omega]
      simp only [List.drop_succ_cons, wordsBE]
      exact ih t
    | [] => simp [wordsBE]
    | [_] => simp [wordsBE, Nat.mul_add]
    | [_, _] => simp [wordsBE, Nat.mul_add]
    | [_, _, _] => simp [wordsBE, Nat.mul_add]
    | [_, _, _, _] => simp [wordsBE, Nat.mul_add]
    | [_, _, _, _, _] => simp [wordsBE, Nat.mul_add]
    | [_, _, _, _, _, _] => simp [wordsBE, Nat.mul_add]
    | [_, _, _, _, _, _, _] => simp [wordsBE, Nat.mul_add]

theorem wordsBE_length (b : Bytes) : (wordsBE b).length = b.length / 8 := by
  induction b using wordsBE.induct with
  | case1 b0 b1 b2 b3 b4 b5 b6 b7 t ih =>
    simp only [wordsBE, List.length_cons, ih]
    omega
  | case2 b h =>
    rw [wordsBE]
    · match b with
      | b0 :: b1 :: b2 :: b3 :: b4 :: b5 :: b6 :: b7 :: t => exact (h _ _ _ _ _ _ _ _ _ rfl).elim
      | [] => rfl
      | [_] => simp
      | [_, _] => simp
      | [_, _, _] => simp
      | [_, _, _, _] => simp
      | [_, _, _, _, _] => simp
      | [_, _, _, _, _, _] => simp
      | [_, _, _, _, _, _, _] => simp
    · exact h

/-- Reading word `i` of a byte string. -/
theorem dl64_word {x : List V} {b : Bytes} (h : HasBytes x b) (i : Nat) (hi : 8 * i + 8 ≤ b.length) :
    dl64 (x.drop (8 * i)) = w64 ((wordsBE b).getD i 0) := by
  have hd := h.drop (8 * i)
  have e := wordsBE_drop b i
  have hl : (b.drop (8 * i)).length ≥ 8 := by rw [List.length_drop]; omega
  match hb : b.drop (8 * i), hl with
  | b0 :: b1 :: b2 :: b3 :: b4 :: b5 :: b6 :: b7 :: t, _ =>
    rw [hb] at hd e
    rw [dl64_eq hd]
    have : (wordsBE b).getD i 0 = ((wordsBE b).drop i).getD 0 0 := by simp
    rw [this, ← e]
    rfl

end Salt.Tweet
