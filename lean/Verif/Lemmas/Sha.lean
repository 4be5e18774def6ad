import Verif.Model.TweetSha
import Verif.Spec.Sha512
import Verif.Lemmas.TInt

/-! SHA-512: words. -/

namespace Salt.Tweet

open Salt.Spec

/-- A word as a value of class `u64`. -/
def w64 (n : UInt64) : V := ⟨.u64, (n.toNat : Int)⟩

theorem cast_w64 (a : Nat) : cast .u64 (a : Int) = w64 (UInt64.ofNat a) := by
  rw [cast_nat _ (by simp)]
  simp [w64, Ty.bits]

theorem u64_w64 (a : UInt64) : u64 (w64 a) = w64 a := by
  unfold u64
  show cast .u64 ((a.toNat : Nat) : Int) = _
  rw [cast_w64]
  simp

theorem typed_w64 (f : Int → Int → Int) (g : Nat → Nat → Nat) (hf : ∀ a b : Nat, f a b = (g a b : Nat)) (a b : UInt64) :
    typed f (w64 a) (w64 b) = w64 (UInt64.ofNat (g a.toNat b.toNat)) := by
  unfold typed
  show cast (promote .u64 .u64 (f (a.toNat : Int) (b.toNat : Int))) (f (a.toNat : Int) (b.toNat : Int)) = _
  rw [hf, promote_nat, if_neg (by simp), cast_w64]

theorem add_w64 (a b : UInt64) : w64 a + w64 b = w64 (a + b) := by
  show typed (· + ·) _ _ = _
  rw [typed_w64 _ (· + ·) (fun a b => by simp)]
  simp

theorem xor_w64 (a b : UInt64) : w64 a ^^^ w64 b = w64 (a ^^^ b) := by
  show typed Int.xor _ _ = _
  rw [typed_w64 _ (· ^^^ ·) (fun a b => rfl), ← UInt64.toNat_xor, UInt64.ofNat_toNat]

theorem and_w64 (a b : UInt64) : w64 a &&& w64 b = w64 (a &&& b) := by
  show typed Int.land _ _ = _
  rw [typed_w64 _ (· &&& ·) (fun a b => rfl), ← UInt64.toNat_and, UInt64.ofNat_toNat]

theorem or_w64 (a b : UInt64) : w64 a ||| w64 b = w64 (a ||| b) := by
  show typed Int.lor _ _ = _
  rw [typed_w64 _ (· ||| ·) (fun a b => rfl), ← UInt64.toNat_or, UInt64.ofNat_toNat]

theorem shr_w64 (a : UInt64) (c : Nat) (hc : c < 64) : w64 a >>> c = w64 (a >>> UInt64.ofNat c) := by
  show cast .u64 ((a.toNat : Int) / 2 ^ c) = _
  rw [show ((a.toNat : Int) / 2 ^ c) = ((a.toNat / 2 ^ c : Nat) : Int) by push_cast; rfl, cast_w64]
  congr 1
  apply UInt64.toNat_inj.mp
  rw [UInt64.toNat_shiftRight, UInt64.toNat_ofNat', UInt64.toNat_ofNat', Nat.shiftRight_eq_div_pow,
    Nat.mod_eq_of_lt (by omega : c < 2 ^ 64), Nat.mod_eq_of_lt (by omega : c < 64)]
  exact Nat.mod_eq_of_lt (Nat.lt_of_le_of_lt (Nat.div_le_self _ _) a.toNat_lt)

theorem shl_w64 (a : UInt64) (c : Nat) (hc : c < 64) : w64 a <<< c = w64 (a <<< UInt64.ofNat c) := by
  show cast .u64 ((a.toNat : Int) * 2 ^ c) = _
  rw [show ((a.toNat : Int) * 2 ^ c) = ((a.toNat * 2 ^ c : Nat) : Int) by push_cast; rfl, cast_w64]
  congr 1
  apply UInt64.toNat_inj.mp
  rw [UInt64.toNat_shiftLeft, UInt64.toNat_ofNat', UInt64.toNat_ofNat', Nat.shiftLeft_eq,
    Nat.mod_eq_of_lt (by omega : c < 2 ^ 64), Nat.mod_eq_of_lt (by omega : c < 64)]

theorem inv_w64 (a : UInt64) : (w64 a).inv = w64 (~~~a) := by
  unfold V.inv
  rw [if_neg (by simp [w64, Ty.signed])]
  show cast .u64 (Int.xor (a.toNat : Int) (2 ^ 64 - 1)) = _
  rw [show ((2 : Int) ^ 64 - 1) = (((-1 : UInt64).toNat : Nat) : Int) from rfl, xor_nat, ← UInt64.toNat_xor, cast_w64,
    UInt64.ofNat_toNat, UInt64.xor_neg_one]

theorem R64_eq (a : UInt64) (c : Nat) (h0 : 0 < c) (hc : c < 64) : R64 (w64 a) c = w64 (rotr a (UInt64.ofNat c)) := by
  unfold R64 rotr
  rw [u64_w64, shr_w64 _ _ hc, shl_w64 _ _ (by omega), or_w64]
  congr 2
  have : UInt64.ofNat (64 - c) = 64 - UInt64.ofNat c := by
    apply UInt64.toNat_inj.mp
    rw [UInt64.toNat_sub]
    simp
    omega
  rw [this]

theorem Ch_eq (a b c : UInt64) : Ch (w64 a) (w64 b) (w64 c) = w64 (ch a b c) := by
  unfold Ch ch
  rw [u64_w64, u64_w64, u64_w64, and_w64, inv_w64, and_w64, xor_w64]

theorem Maj_eq (a b c : UInt64) : Maj (w64 a) (w64 b) (w64 c) = w64 (maj a b c) := by
  unfold Maj maj
  rw [u64_w64, u64_w64, u64_w64, and_w64, and_w64, and_w64, xor_w64, xor_w64]

theorem bigSigma0_eq (a : UInt64) : bigSigma0 (w64 a) = w64 (sum0 a) := by
  unfold bigSigma0 sum0
  rw [R64_eq _ _ (by omega) (by omega), R64_eq _ _ (by omega) (by omega), R64_eq _ _ (by omega) (by omega), xor_w64, xor_w64]
  rfl

theorem bigSigma1_eq (a : UInt64) : bigSigma1 (w64 a) = w64 (sum1 a) := by
  unfold bigSigma1 sum1
  rw [R64_eq _ _ (by omega) (by omega), R64_eq _ _ (by omega) (by omega), R64_eq _ _ (by omega) (by omega), xor_w64, xor_w64]
  rfl

theorem smallSigma0_eq (a : UInt64) : smallSigma0 (w64 a) = w64 (Spec.sigma0 a) := by
  unfold smallSigma0 Spec.sigma0
  rw [R64_eq _ _ (by omega) (by omega), R64_eq _ _ (by omega) (by omega), shr_w64 _ _ (by omega), xor_w64, xor_w64]
  rfl

theorem smallSigma1_eq (a : UInt64) : smallSigma1 (w64 a) = w64 (Spec.sigma1 a) := by
  unfold smallSigma1 Spec.sigma1
  rw [R64_eq _ _ (by omega) (by omega), R64_eq _ _ (by omega) (by omega), shr_w64 _ _ (by omega), xor_w64, xor_w64]
  rfl

theorem K512_eq : K512 = shaK.map w64 := by decide +kernel

theorem at_map (l : List UInt64) (i : Nat) (h : i < l.length) : at' (l.map w64) i = w64 (l.getD i 0) := by
  unfold at'
  rw [List.getD_eq_getElem _ _ (by simpa using h), List.getD_eq_getElem _ _ h, List.getElem_map]

/-! ### The message schedule -/

/-- The position of the newest word with index `i` modulo 16 among the first `t`. -/
def newest (t i : Nat) : Nat := t - 16 + (i + 16 - t % 16) % 16

theorem schedule_length (m : List UInt64) (hm : m.length = 16) (n : Nat) : (schedule m n).length = 16 + n := by
  induction n with
  | zero => exact hm
  | succ n ih => simp [schedule, ih]; omega

theorem schedule_getD (m : List UInt64) (hm : m.length = 16) (n k t : Nat) (h : t < 16 + n) :
    (schedule m (n + k)).getD t 0 = (schedule m n).getD t 0 := by
  induction k with
  | zero => rfl
  | succ k ih =>
    rw [← Nat.add_assoc]
    show (schedule m (n + k) ++ _).getD t 0 = _
    rw [List.getD_append _ _ _ _ (by rw [schedule_length m hm]; omega), ih]

/-- Word `t` of the schedule. -/
def sched (m : List UInt64) (t : Nat) : UInt64 := (schedule m t).getD t 0

theorem sched_eq (m : List UInt64) (hm : m.length = 16) (n t : Nat) (h : t < 16 + n) : (schedule m n).getD t 0 = sched m t := by
  unfold sched
  rcases Nat.le_total n t with h' | h'
  · obtain ⟨k, rfl⟩ := Nat.exists_eq_add_of_le h'
    rw [schedule_getD m hm n k _ h]
  · obtain ⟨k, rfl⟩ := Nat.exists_eq_add_of_le h'
    rw [schedule_getD m hm t k _ (by omega)]

theorem sched_step (m : List UInt64) (hm : m.length = 16) (t : Nat) (h : 16 ≤ t) :
    sched m t = Spec.sigma1 (sched m (t - 2)) + sched m (t - 7) + Spec.sigma0 (sched m (t - 15)) + sched m (t - 16) := by
  obtain ⟨n, rfl⟩ := Nat.exists_eq_add_of_le h
  rw [← sched_eq m hm (n + 1) (16 + n) (by omega)]
  have hl := schedule_length m hm n
  show (schedule m n ++ [_]).getD (16 + n) 0 = _
  rw [List.getD_append_right _ _ _ _ (by omega), hl, Nat.sub_self, List.getD_cons_zero,
    sched_eq m hm n _ (by omega), sched_eq m hm n _ (by omega), sched_eq m hm n _ (by omega), sched_eq m hm n _ (by omega)]

/-- The circular buffer after `t` words have been made. -/
def Window (m : List UInt64) (t : Nat) (w : List V) : Prop :=
  w.length = 16 ∧ ∀ i, i < 16 → at' w i = w64 (sched m (newest t i))

theorem at_set (w : List V) (j i : Nat) (x : V) (hj : j < w.length) : at' (w.set j x) i = if i = j then x else at' w i := by
  unfold at'
  rw [List.getD_eq_getElem?_getD, List.getElem?_set]
  split
  · rename_i h
    subst h
    simp
  · rename_i h
    rw [if_neg (fun e => h e.symm), List.getD_eq_getElem?_getD]

theorem shaWords_step (m : List UInt64) (hm : m.length = 16) (t j : Nat) (w : List V) (ht : 16 ≤ t) (hj : j = t % 16)
    (h : Window m t w) :
    Window m (t + 1) (w.set j (at' w j + (at' w ((j + 9) % 16) + smallSigma0 (at' w ((j + 1) % 16)) + smallSigma1 (at' w ((j + 14) % 16))))) := by
  obtain ⟨hl, h⟩ := h
  refine ⟨by simpa using hl, ?_⟩
  intro i hi
  rw [at_set _ _ _ _ (by omega)]
  split
  · rename_i e
    rw [h j (by omega), h _ (by omega), h _ (by omega), h _ (by omega), smallSigma0_eq, smallSigma1_eq, add_w64, add_w64, add_w64]
    have e1 : newest (t + 1) i = t := by unfold newest; omega
    have e2 : newest t j = t - 16 := by unfold newest; omega
    have e3 : newest t ((j + 9) % 16) = t - 7 := by unfold newest; omega
    have e4 : newest t ((j + 1) % 16) = t - 15 := by unfold newest; omega
    have e5 : newest t ((j + 14) % 16) = t - 2 := by unfold newest; omega
    rw [e1, e2, e3, e4, e5, sched_step m hm t ht]
    congr 1
    ac_rfl
  · rename_i e
    rw [h i hi]
    have : newest (t + 1) i = newest t i := by unfold newest; omega
    rw [this]

theorem shaWords_eq (m : List UInt64) (hm : m.length = 16) (q : Nat) (w : List V) (h : Window m (16 * q + 16) w) :
    Window m (16 * (q + 1) + 16) (shaWords w) := by
  unfold shaWords
  have : ∀ n, n ≤ 16 → Window m (16 * q + 16 + n) (forRange n w fun j w =>
      w.set j (at' w j + (at' w ((j + 9) % 16) + smallSigma0 (at' w ((j + 1) % 16)) + smallSigma1 (at' w ((j + 14) % 16))))) := by
    intro n hn
    induction n with
    | zero => exact h
    | succ n ih =>
      rw [forRange_succ]
      exact shaWords_step m hm (16 * q + 16 + n) n _ (by omega) (by omega) (ih (by omega))
  have := this 16 (by omega)
  rw [show 16 * q + 16 + 16 = 16 * (q + 1) + 16 by omega] at this
  exact this

end Salt.Tweet
