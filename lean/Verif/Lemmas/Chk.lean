import Verif.Model.ChkSalsa
import Verif.Lemmas.TInt

/-! The functions of tweetnacl.py with IndexError agree with those without, as long as all arrays are long enough. -/

namespace Salt.Chk

open Salt.Tweet (V at' intArray forRange forRange_succ)

/-! ### Items and loops -/

theorem get_ok {x : List V} {i : Nat} (h : i < x.length) : get x i = .ok (at' x i) := by
  unfold get at'
  rw [List.getElem?_eq_getElem h, List.getD_eq_getElem?_getD, List.getElem?_eq_getElem h]
  rfl

theorem put_ok {x : List V} {i : Nat} (a : V) (h : i < x.length) : put x i a = .ok (x.set i a) := if_pos h

theorem ok_bind {α β : Type} (a : α) (f : α → Except Err β) : (Except.ok a >>= f) = f a := rfl

theorem pure_ok {α : Type} (a : α) : (pure a : Except Err α) = .ok a := rfl

theorem loop_succ {α : Type} (n : Nat) (s : α) (body : Nat → α → Except Err α) :
    loop (n + 1) s body = (loop n s body >>= body n) := by
  unfold loop
  rw [List.range_succ, List.foldlM_append]
  simp only [List.foldlM_cons, List.foldlM_nil, bind_pure]

/-- A loop whose body does not fail. -/
theorem loop_ok {α : Type} (I : α → Prop) {body : Nat → α → Except Err α} {body' : Nat → α → α} {n : Nat} {s : α} (h0 : I s)
    (h : ∀ i s, i < n → I s → body i s = .ok (body' i s) ∧ I (body' i s)) :
    loop n s body = .ok (forRange n s body') ∧ I (forRange n s body') := by
  induction n with
  | zero => exact ⟨rfl, h0⟩
  | succ n ih =>
    have h1 := ih fun i s hi => h i s (by omega)
    have h2 := h n _ (by omega) h1.2
    rw [loop_succ, forRange_succ, h1.1]
    exact h2

/-- A loop that does not change the length of an array. -/
theorem loop_len {body : Nat → List V → Except Err (List V)} {body' : Nat → List V → List V} {n l : Nat} {x : List V}
    (h0 : x.length = l)
    (h : ∀ i x, i < n → x.length = l → body i x = .ok (body' i x) ∧ (body' i x).length = l) :
    loop n x body = .ok (forRange n x body') := (loop_ok (fun x => x.length = l) h0 h).1

theorem forRange_inv {α : Type} (I : α → Prop) {body : Nat → α → α} {n : Nat} {s : α} (h0 : I s)
    (h : ∀ i s, i < n → I s → I (body i s)) : I (forRange n s body) := by
  induction n with
  | zero => exact h0
  | succ n ih => rw [forRange_succ]; exact h n _ (by omega) (ih fun i s hi => h i s (by omega))

theorem forRange_len {body : Nat → List V → List V} {n : Nat} {x : List V}
    (h : ∀ i y, (body i y).length = y.length) : (forRange n x body).length = x.length :=
  forRange_inv (fun y => y.length = x.length) rfl fun i s _ hs => (h i s).trans hs

theorem forRange_len₁ {β : Type} {body : Nat → List V × β → List V × β} {n : Nat} {s : List V × β}
    (h : ∀ i y, (body i y).1.length = y.1.length) : (forRange n s body).1.length = s.1.length :=
  forRange_inv (fun y => y.1.length = s.1.length) rfl fun i s _ hs => (h i s).trans hs

theorem intArray_length (t : Tweet.Ty) (n : Nat) : (intArray t n).length = n := by simp [intArray]

theorem splice_length (x y : List V) (k : Nat) (h : y.length = (x.drop k).length) : (x.take k ++ y).length = x.length := by
  rw [List.length_append, h, ← List.length_append, List.take_append_drop]

/-- Evaluates accesses that are in range. -/
macro "chk" "[" ls:Lean.Parser.Tactic.simpLemma,* "]" : tactic =>
  `(tactic| simp (disch := first | omega | (simp only [List.length_set, List.length_drop, intArray_length]; omega)) only
      [get_ok, put_ok, ok_bind, pure_ok, List.length_set, List.length_drop, intArray_length, $ls,*])

/-! ### Salsa20 -/

theorem ld32_ok (w : Nat) {x : List V} (h : 4 ≤ x.length) : ld32 w x = .ok (Tweet.ld32 w x) := by
  unfold ld32 Tweet.ld32
  chk []

theorem st32_ok {x : List V} (u : V) (h : 4 ≤ x.length) : st32 x u = .ok (Tweet.st32 x u) := by
  unfold st32 Tweet.st32
  rw [(loop_ok (fun s => s.1.length = x.length) (body' := fun i (s : List V × V) => (s.1.set i (Tweet.u8 s.2), s.2 >>> 8)) rfl
    fun i s hi hs => ?_).1]
  · rfl
  · chk []
    exact ⟨trivial, hs⟩

theorem st32_length (x : List V) (u : V) : (Tweet.st32 x u).length = x.length :=
  forRange_len₁ (s := (x, u)) fun _ _ => List.length_set

theorem vn_ok (w : Nat) {x y : List V} {n : Nat} (hx : n ≤ x.length) (hy : n ≤ y.length) :
    vn w x y n = .ok (Tweet.vn w x y n) := by
  unfold vn Tweet.vn
  rw [(loop_ok (fun _ => True) (body' := fun i d => d ||| (at' x i ^^^ at' y i)) trivial fun i s hi _ => ?_).1]
  · rfl
  · chk [and_self]

theorem coreInput_ok (w : Nat) {in_ k c : List V} (hi : 16 ≤ in_.length) (hk : 32 ≤ k.length) (hc : 16 ≤ c.length) :
    coreInput w in_ k c = .ok (Tweet.coreInput w in_ k c) := by
  refine loop_len (l := 16) (intArray_length _ _) fun i x h hx => ?_
  rw [ld32_ok, ld32_ok, ld32_ok, ld32_ok]
  · chk []
    exact ⟨trivial, hx⟩
  all_goals simp only [List.length_drop]; omega

theorem coreInput_length (w : Nat) (in_ k c : List V) : (Tweet.coreInput w in_ k c).length = 16 :=
  (forRange_len fun i y => by simp).trans (intArray_length _ _)

theorem copy_ok {n l : Nat} {x y : List V} (hx : n ≤ x.length) (hy : y.length = l) (hl : n ≤ l) :
    loop n y (fun i y => do put y i (← get x i)) = .ok ((List.range n).map (at' x) ++ y.drop n) := by
  rw [loop_len (l := l) (body' := fun i y => y.set i (at' x i)) hy fun i y hi h => ?_]
  · have := Tweet.forRange_set n 0 y (at' x) (by omega)
    simp only [Nat.add_zero, Nat.zero_add, List.take_zero, List.nil_append] at this
    rw [this]
  · chk []
    exact ⟨trivial, h⟩

theorem range_at (x : List V) : (List.range x.length).map (at' x) = x := by
  refine List.ext_getElem (by simp) fun i h1 h2 => ?_
  simp only [List.getElem_map, List.getElem_range, at', List.getD_eq_getElem?_getD, List.getElem?_eq_getElem h2, Option.getD_some]

theorem copy_all {n : Nat} {x y : List V} (hx : x.length = n) (hy : y.length = n) :
    loop n y (fun i y => do put y i (← get x i)) = .ok x := by
  rw [copy_ok (by omega) hy (Nat.le_refl _), List.drop_of_length_le (by omega), List.append_nil, ← hx, range_at]

theorem coreCopy_ok (w : Nat) {x : List V} (h : x.length = 16) : coreCopy w x = .ok x := copy_all h (intArray_length _ _)

theorem coreColumn_ok (w : Nat) {x out : List V} {j : Nat} (hj : j < 4) (hx : x.length = 16) (ho : out.length = 16) :
    coreColumn w x j out = .ok (Tweet.coreColumn w x j out) ∧ (Tweet.coreColumn w x j out).length = 16 := by
  unfold coreColumn Tweet.coreColumn
  chk []
  exact ⟨trivial, ho⟩

theorem coreRound_ok (w : Nat) {s : List V × List V} (h1 : s.1.length = 16) (h2 : s.2.length = 16) :
    coreRound w s = .ok (Tweet.coreRound w s) ∧ (Tweet.coreRound w s).1.length = 16 ∧ (Tweet.coreRound w s).2.length = 16 := by
  unfold coreRound Tweet.coreRound
  obtain ⟨e, l⟩ := loop_ok (fun x : List V => x.length = 16) (n := 4) h2 fun j out hj ho => coreColumn_ok w hj h1 ho
  rw [e, ok_bind]
  simp only
  generalize forRange 4 s.2 _ = out at l ⊢
  obtain ⟨e, l'⟩ := loop_ok (fun x : List V => x.length = 16) (n := 16) (body := fun m x => do put x m (← get out m))
    (body' := fun m x => x.set m (at' out m)) h1 fun m x hm hx => by
      chk []
      exact ⟨trivial, hx⟩
  rw [e]
  exact ⟨rfl, l', l⟩

theorem coreRounds_ok (w : Nat) {x : List V} (h : x.length = 16) :
    coreRounds w x = .ok (Tweet.coreRounds w x) ∧ (Tweet.coreRounds w x).length = 16 := by
  unfold coreRounds Tweet.coreRounds
  obtain ⟨e, l⟩ := loop_ok (fun s => s.1.length = 16 ∧ s.2.length = 16) (n := 20) (s := (x, intArray (.u32 w) 16))
    ⟨h, intArray_length _ _⟩ fun i s _ hs => coreRound_ok w hs.1 hs.2
  rw [e]
  exact ⟨rfl, l.1⟩

theorem core_ok (w : Nat) {out in_ k c : List V} {h : Bool} (hi : 16 ≤ in_.length) (hk : 32 ≤ k.length) (hc : 16 ≤ c.length)
    (ho : (if h then 32 else 64) ≤ out.length) :
    core w out in_ k c h = .ok (Tweet.core w out in_ k c h) ∧ (Tweet.core w out in_ k c h).length = out.length := by
  unfold core Tweet.core
  rw [coreInput_ok w hi hk hc, ok_bind, coreCopy_ok w (coreInput_length _ _ _ _), ok_bind]
  have hy := coreInput_length w in_ k c
  generalize Tweet.coreInput w in_ k c = y at hy ⊢
  obtain ⟨e, hx⟩ := coreRounds_ok w hy
  rw [e, ok_bind]
  simp only
  generalize Tweet.coreRounds w y = x at hx ⊢
  cases h with
  | true =>
    simp only [if_true]
    simp only [if_true] at ho
    obtain ⟨e, hx'⟩ := loop_ok (fun x : List V => x.length = 16) (n := 16)
      (body := fun i x => do
        let a ← get x i
        put x i (a + (← get y i)))
      (body' := fun i x => x.set i (at' x i + at' y i)) hx fun m x hm hx => by
      chk []
      exact ⟨trivial, hx⟩
    rw [e, ok_bind]
    generalize forRange 16 x _ = x at hx' ⊢
    obtain ⟨e, hx''⟩ := loop_ok (fun x : List V => x.length = 16) (n := 4)
      (body := fun i x => do
        let a ← get x (5 * i)
        let x ← put x (5 * i) (a - (← ld32 w (c.drop (4 * i))))
        let a ← get x (6 + i)
        put x (6 + i) (a - (← ld32 w (in_.drop (4 * i)))))
      (body' := fun i x =>
        let x := x.set (5 * i) (at' x (5 * i) - Tweet.ld32 w (c.drop (4 * i)))
        x.set (6 + i) (at' x (6 + i) - Tweet.ld32 w (in_.drop (4 * i)))) hx' fun i x hm hx => by
      simp only
      rw [ld32_ok, ld32_ok]
      · chk []
        exact ⟨trivial, hx⟩
      all_goals simp only [List.length_drop]; omega
    rw [e, ok_bind]
    generalize forRange 4 x _ = x at hx'' ⊢
    refine loop_ok (fun o : List V => o.length = out.length) rfl fun i o hi hl => ?_
    rw [get_ok (by omega), get_ok (by omega), ok_bind, st32_ok _ (by simp only [List.length_drop]; omega), ok_bind, ok_bind]
    have l1 := splice_length o (Tweet.st32 (o.drop (4 * i)) (at' x (5 * i))) (4 * i) (st32_length _ _)
    rw [st32_ok _ (by simp only [List.length_drop, l1]; omega)]
    exact ⟨rfl, by rw [splice_length _ _ _ (st32_length _ _), l1, hl]⟩
  | false =>
    simp only [Bool.false_eq_true, if_false]
    simp only [Bool.false_eq_true, if_false] at ho
    refine loop_ok (fun o : List V => o.length = out.length) rfl fun i o hi hl => ?_
    rw [get_ok (by omega), get_ok (by omega), ok_bind, ok_bind, st32_ok _ (by simp only [List.length_drop]; omega)]
    exact ⟨rfl, by rw [splice_length _ _ _ (st32_length _ _), hl]⟩

end Salt.Chk
