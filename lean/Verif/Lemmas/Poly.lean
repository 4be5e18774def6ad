import Verif.Lemmas.Stream
import Mathlib.Tactic.Ring

/-! Poly1305. -/

namespace Salt.Tweet

open Salt.Spec

/-! ### A loop that passes over an array once -/

/-- The new items and the final value of the accumulator. -/
def scan (f g : Nat → V → V → V) : Nat → List V → V → List V × V
  | _, [], u => ([], u)
  | i, a :: x, u => (f i a u :: (scan f g (i + 1) x (g i a u)).1, (scan f g (i + 1) x (g i a u)).2)

theorem scan_append (f g : Nat → V → V → V) (x y : List V) : ∀ i u,
    scan f g i (x ++ y) u =
      ((scan f g i x u).1 ++ (scan f g (i + x.length) y (scan f g i x u).2).1,
       (scan f g (i + x.length) y (scan f g i x u).2).2) := by
  induction x with
  | nil => intro i u; simp [scan]
  | cons a x ih =>
    intro i u
    simp only [List.cons_append, scan, ih, List.length_cons]
    rw [show i + 1 + x.length = i + (x.length + 1) by omega]

theorem scan_length (f g : Nat → V → V → V) (x : List V) : ∀ i u, (scan f g i x u).1.length = x.length := by
  induction x with
  | nil => intro i u; rfl
  | cons a x ih => intro i u; simp [scan, ih]

theorem forRange_scan (f g : Nat → V → V → V) (n : Nat) (x : List V) (u : V) (h : n ≤ x.length) :
    forRange n (x, u) (fun j s => (s.1.set j (f j (at' s.1 j) s.2), g j (at' s.1 j) s.2)) =
      ((scan f g 0 (x.take n) u).1 ++ x.drop n, (scan f g 0 (x.take n) u).2) := by
  induction n with
  | zero => simp [forRange_zero, scan]
  | succ n ih =>
    rw [forRange_succ, ih (by omega)]
    have hl : (scan f g 0 (x.take n) u).1.length = n := by rw [scan_length]; simp; omega
    have e : x.take (n + 1) = x.take n ++ [x[n]] := by rw [List.take_succ_eq_append_getElem (by omega)]
    have ea : at' ((scan f g 0 (x.take n) u).1 ++ x.drop n) n = x[n] := by
      unfold at'
      rw [List.getD_append_right _ _ _ _ (by omega), hl, Nat.sub_self]
      simp [List.getElem?_eq_getElem (show n < x.length by omega)]
    have es : ∀ v, ((scan f g 0 (x.take n) u).1 ++ x.drop n).set n v = (scan f g 0 (x.take n) u).1 ++ v :: x.drop (n + 1) := by
      intro v
      rw [List.set_append, if_neg (by omega), hl, Nat.sub_self, List.drop_eq_getElem_cons (by omega : n < x.length)]
      rfl
    simp only [ea, es]
    rw [e, scan_append]
    simp [scan, Nat.min_eq_left (show n ≤ x.length by omega)]

/-! ### Digits -/

/-- The number with the given digits to base 256, lowest first; the digits may be too large. -/
def val : List Nat → Nat
  | [] => 0
  | a :: l => a + 256 * val l

/-- Items with the given values. -/
def Vals (x : List V) (d : List Nat) : Prop := List.Forall₂ (fun (a : V) (n : Nat) => a.v = n) x d

/-- Plain items with the given values. -/
def Plains (x : List V) (d : List Nat) : Prop := List.Forall₂ (fun (a : V) (n : Nat) => a = ⟨.plain, (n : Int)⟩) x d

theorem Plains.vals {x : List V} {d : List Nat} (h : Plains x d) : Vals x d := forall₂_mono h (fun a n (h : a = ⟨.plain, (n : Int)⟩) => by rw [h])

/-- Addition of digits with a carry. -/
def addDigits : Nat → List Nat → List Nat → List Nat
  | u, a :: x, b :: y => (u + a + b) % 256 :: addDigits ((u + a + b) / 256) x y
  | _, _, _ => []

theorem val_addDigits (x y : List Nat) (h : x.length = y.length) : ∀ u,
    val (addDigits u x y) = (u + val x + val y) % 256 ^ x.length := by
  induction x generalizing y with
  | nil =>
    intro u
    cases y with
    | nil => simp [addDigits, val, Nat.mod_one]
    | cons _ _ => simp at h
  | cons a x ih =>
    intro u
    cases y with
    | nil => simp at h
    | cons b y =>
      simp only [List.length_cons, Nat.add_right_cancel_iff] at h
      simp only [addDigits, val, ih y h, List.length_cons]
      rw [Nat.pow_succ, Nat.mul_comm (256 ^ x.length) 256, Nat.mod_mul]
      have e : u + (a + 256 * val x) + (b + 256 * val y) = (u + a + b) + 256 * (val x + val y) := by omega
      rw [e, Nat.add_mul_mod_self_left, Nat.add_mul_div_left _ _ (by omega), Nat.add_assoc ((u + a + b) / 256)]

theorem addDigits_lt (x y : List Nat) : ∀ u, ∀ d ∈ addDigits u x y, d < 256 := by
  induction x generalizing y with
  | nil => intro u d hd; simp [addDigits] at hd
  | cons a x ih =>
    intro u d hd
    cases y with
    | nil => simp [addDigits] at hd
    | cons b y =>
      simp only [addDigits, List.mem_cons] at hd
      rcases hd with rfl | hd
      · omega
      · exact ih y _ d hd

theorem addDigits_length (x y : List Nat) (h : x.length = y.length) : ∀ u, (addDigits u x y).length = x.length := by
  induction x generalizing y with
  | nil => intro u; rfl
  | cons a x ih =>
    intro u
    cases y with
    | nil => simp at h
    | cons b y =>
      simp only [List.length_cons, Nat.add_right_cancel_iff] at h
      simp [addDigits, ih y h]

/-- Items whose class is `u8`, `u32` or the plain one. -/
def Smalls (w : Nat) (x : List V) (d : List Nat) : Prop :=
  List.Forall₂ (fun (a : V) (n : Nat) => (a.ty = .u8 ∨ a.ty = .u32 w ∨ a.ty = .plain) ∧ a.v = n) x d

theorem Plains.smalls {x : List V} {d : List Nat} (h : Plains x d) (w : Nat) : Smalls w x d :=
  forall₂_mono h (fun a n (h : a = ⟨.plain, (n : Int)⟩) => by rw [h]; exact ⟨.inr (.inr rfl), rfl⟩)

/-- A sum of two items, at least one of which is not of the class `u8`. -/
theorem small_add {w : Nat} (hw : 32 ≤ w) {x y : V} {a b : Nat} (hx : x.ty = .u32 w ∨ x.ty = .plain) (hxv : x.v = a)
    (hy : y.ty = .u8 ∨ y.ty = .u32 w ∨ y.ty = .plain) (hyv : y.v = b) (h : a + b < 2 ^ 32) :
    u32 w (x + y) = ⟨.u32 w, ((a + b : Nat) : Int)⟩ := by
  have hp : 2 ^ 32 ≤ 2 ^ w := Nat.pow_le_pow_right (by omega) hw
  apply u32_of _ (by omega)
  show (typed (· + ·) x y).v = _
  unfold typed
  simp only [hxv, hyv, ← Nat.cast_add]
  rw [promote_nat]
  have : ∀ t : Ty, t = .u32 w ∨ t = .plain → (cast t ((a + b : Nat) : Int)).v = ((a + b : Nat) : Int) := by
    rintro t (rfl | rfl)
    · rw [cast_nat _ (by simp)]
      simp only [Ty.bits]
      rw [Nat.mod_eq_of_lt (by omega)]
    · rfl
  apply this
  rcases hx with hx | hx <;> rcases hy with hy | hy | hy <;> simp [hx, hy, Ty.order]

theorem u32_and255 {w : Nat} (a : Nat) : ((⟨.u32 w, (a : Int)⟩ : V) &&& 255) = ⟨.plain, ((a % 256 : Nat) : Int)⟩ := by
  show typed Int.land _ _ = _
  unfold typed
  rw [show ((255 : V).v) = ((2 ^ 8 - 1 : Nat) : Int) by rfl, land_nat, Nat.and_two_pow_sub_one_eq_mod,
    promote_nat, if_neg (by simp [Ty.order])]
  rfl

/-- The pass of `add1305` over arrays of the same length. -/
theorem add_scan {w : Nat} (hw : 32 ≤ w) (cc : List V) {x c : List V} {xd cd : List Nat} (hx : List.Forall₂ (fun (a : V) (n : Nat) => (a.ty = .u32 w ∨ a.ty = .plain) ∧ a.v = n) x xd)
    (hc : Smalls w c cd) : ∀ (i u : Nat), (∀ d ∈ xd, d < 2 ^ 29) → (∀ d ∈ cd, d < 2 ^ 29) → u < 2 ^ 30 → xd.length = cd.length →
    (∀ j, j < c.length → at' cc (i + j) = at' c j) →
    Plains (scan (fun j a u => (u + u32 w (a + at' cc j)) &&& 255) (fun j a u => (u + u32 w (a + at' cc j)) >>> 8) i x
      ⟨.u32 w, (u : Int)⟩).1 (addDigits u xd cd) := by
  have hp : 2 ^ 32 ≤ 2 ^ w := Nat.pow_le_pow_right (by omega) hw
  induction hx generalizing c cd with
  | nil => intro i u _ _ _ _ _; exact .nil
  | cons h1 h2 ih =>
    intro i u hxd hcd hu hl hcc
    cases hc with
    | nil => simp at hl
    | @cons b bd c cd h3 h4 =>
      rename_i a ad x xd
      have e : at' cc i = b := by
        have := hcc 0 (by simp)
        rw [Nat.add_zero] at this
        rw [this]
        rfl
      have ha := hxd ad (by simp)
      have hb := hcd bd (by simp)
      have e1 : (⟨.u32 w, (u : Int)⟩ : V) + u32 w (a + at' cc i) = ⟨.u32 w, ((u + ad + bd : Nat) : Int)⟩ := by
        rw [e, small_add hw h1.1 h1.2 h3.1 h3.2 (by omega), u32_add _ _ (by omega), Nat.add_assoc]
      simp only [scan, e1]
      rw [u32_and255, u32_shr _ _ (by omega)]
      refine .cons rfl (ih h4 (i + 1) _ (fun d hd => hxd d (by simp [hd])) (fun d hd => hcd d (by simp [hd])) (by omega) (by simpa using hl) ?_)
      intro j hj
      have := hcc (j + 1) (by simp; omega)
      rw [show i + (j + 1) = i + 1 + j by omega] at this
      rw [this]
      rfl

theorem add1305_eq {w : Nat} (hw : 32 ≤ w) {x c : List V} {xd cd : List Nat}
    (hx : List.Forall₂ (fun (a : V) (n : Nat) => (a.ty = .u32 w ∨ a.ty = .plain) ∧ a.v = n) x xd)
    (hc : Smalls w c cd) (hxd : ∀ d ∈ xd, d < 2 ^ 29) (hcd : ∀ d ∈ cd, d < 2 ^ 29) (hxl : xd.length = 17) (hcl : cd.length = 17) :
    Plains (add1305 w x c) (addDigits 0 xd cd) := by
  have hl : x.length = 17 := by rw [forall₂_len hx, hxl]
  have e := forRange_scan (fun j a u => (u + u32 w (a + at' c j)) &&& 255) (fun j a u => (u + u32 w (a + at' c j)) >>> 8) 17 x
    ⟨.u32 w, 0⟩ (by omega)
  rw [List.take_of_length_le (by omega), List.drop_of_length_le (by omega), List.append_nil] at e
  have := add_scan hw c hx hc 0 0 hxd hcd (by omega) (by omega) (by intro j _; rw [Nat.zero_add])
  have e2 : add1305 w x c = (scan (fun j a u => (u + u32 w (a + at' c j)) &&& 255) (fun j a u => (u + u32 w (a + at' c j)) >>> 8) 0 x
      ⟨.u32 w, 0⟩).1 := by
    rw [← congrArg Prod.fst e]
    rfl
  rw [e2]
  exact this

/-! ### Multiplication -/

theorem promote_plain_left (b : Ty) (r : Nat) : promote .plain b (r : Int) = .plain := by
  rw [promote_nat]
  cases b <;> simp [Ty.order]

theorem plain_mul (a b : Nat) {y : V} (hy : y.v = b) : (⟨.plain, (a : Int)⟩ : V) * y = ⟨.plain, ((a * b : Nat) : Int)⟩ := by
  show typed (· * ·) _ _ = _
  unfold typed
  simp only [hy, ← Nat.cast_mul]
  rw [promote_plain_left]
  rfl

theorem plain_add (a b : Nat) {y : V} (hy : y.v = b) : (⟨.plain, (a : Int)⟩ : V) + y = ⟨.plain, ((a + b : Nat) : Int)⟩ := by
  show typed (· + ·) _ _ = _
  unfold typed
  simp only [hy, ← Nat.cast_add]
  rw [promote_plain_left]
  rfl

theorem plain_shr (a k : Nat) : (⟨.plain, (a : Int)⟩ : V) >>> k = ⟨.plain, ((a / 2 ^ k : Nat) : Int)⟩ := by
  show cast _ _ = _
  rw [show (⟨.plain, (a : Int)⟩ : V).v / 2 ^ k = ((a / 2 ^ k : Nat) : Int) by push_cast; rfl]
  rfl

theorem plain_mask (a k : Nat) (m : V) (hm : m.v = ((2 ^ k - 1 : Nat) : Int)) :
    (⟨.plain, (a : Int)⟩ : V) &&& m = ⟨.plain, ((a % 2 ^ k : Nat) : Int)⟩ := by
  show typed Int.land _ _ = _
  unfold typed
  rw [hm, land_nat, Nat.and_two_pow_sub_one_eq_mod, promote_plain_left]
  rfl

theorem plains_at {x : List V} {d : List Nat} (h : Plains x d) (j : Nat) : at' x j = ⟨.plain, ((d.getD j 0 : Nat) : Int)⟩ := by
  unfold at'
  induction h generalizing j with
  | nil => rfl
  | cons h1 h2 ih =>
    cases j with
    | zero => exact h1
    | succ j => exact ih j

theorem smalls_at {w : Nat} {x : List V} {d : List Nat} (h : Smalls w x d) (j : Nat) : (at' x j).v = ((d.getD j 0 : Nat) : Int) := by
  unfold at'
  induction h generalizing j with
  | nil => rfl
  | cons h1 h2 ih =>
    cases j with
    | zero => exact h1.2
    | succ j => exact ih j

theorem plains_append {x y : List V} {a b : List Nat} (h1 : Plains x a) (h2 : Plains y b) : Plains (x ++ y) (a ++ b) := by
  induction h1 with
  | nil => exact h2
  | cons h1 _ ih => exact .cons h1 ih

/-- One digit of the product modulo 2^130 - 5, before the carries. -/
def mulDigit (h r : List Nat) (i : Nat) : Nat :=
  forRange 17 0 fun j x => x + h.getD j 0 * (if j ≤ i then r.getD (i - j) 0 else 320 * r.getD (i + 17 - j) 0)

theorem polyMul_eq {w : Nat} {h r : List V} {hd rd : List Nat} (hh : Plains h hd) (hr : Smalls w r rd) (hl : hd.length = 17) :
    Plains (polyMul h r) ((List.range 17).map (mulDigit hd rd)) := by
  have hhl : h.length = 17 := by rw [forall₂_len hh, hl]
  have item : ∀ i n, (forRange n (0 : V) fun j x => x + at' h j * (if j ≤ i then at' r (i - j) else 320 * at' r (i + 17 - j))) =
      ⟨.plain, ((forRange n 0 fun j x => x + hd.getD j 0 * (if j ≤ i then rd.getD (i - j) 0 else 320 * rd.getD (i + 17 - j) 0) : Nat) : Int)⟩ := by
    intro i n
    induction n with
    | zero => rfl
    | succ n ih =>
      rw [forRange_succ, forRange_succ, ih]
      apply plain_add
      rw [plains_at hh]
      have : (if n ≤ i then at' r (i - n) else 320 * at' r (i + 17 - n)).v =
          (((if n ≤ i then rd.getD (i - n) 0 else 320 * rd.getD (i + 17 - n) 0) : Nat) : Int) := by
        split
        · exact smalls_at hr _
        · rw [show (320 : V) = ⟨.plain, ((320 : Nat) : Int)⟩ from rfl, plain_mul _ _ (smalls_at hr _)]
      rw [plain_mul _ _ this]
  unfold polyMul
  generalize hx : ((List.range 17).map fun i =>
    forRange 17 (0 : V) fun j x => x + at' h j * (if j ≤ i then at' r (i - j) else 320 * at' r (i + 17 - j))) = x
  have e := forRange_set 17 0 h (at' x) (by omega)
  simp only [Nat.add_zero, List.take_zero, List.nil_append, Nat.zero_add] at e
  rw [List.drop_of_length_le (by omega), List.append_nil] at e
  simp only
  rw [e]
  have : ∀ n, n ≤ 17 → Plains ((List.range n).map (at' x)) ((List.range n).map (mulDigit hd rd)) := by
    intro n hn
    induction n with
    | zero => exact .nil
    | succ n ih =>
      rw [List.range_succ, List.map_append, List.map_append]
      refine plains_append (ih (by omega)) (.cons ?_ .nil)
      unfold at'
      rw [← hx, List.getD_eq_getElem _ _ (by simp; omega), List.getElem_map, List.getElem_range, item]
      rfl
  exact this 17 (by omega)

theorem List.length17 {α : Type} {l : List α} (h : l.length = 17) : ∃ a0 a1 a2 a3 a4 a5 a6 a7 a8 a9 a10 a11 a12 a13 a14 a15 a16, l = [a0, a1, a2, a3, a4, a5, a6, a7, a8, a9, a10, a11, a12, a13, a14, a15, a16] := by
  match l, h with
  | [a0, a1, a2, a3, a4, a5, a6, a7, a8, a9, a10, a11, a12, a13, a14, a15, a16], _ => exact ⟨a0, a1, a2, a3, a4, a5, a6, a7, a8, a9, a10, a11, a12, a13, a14, a15, a16, rfl⟩

/-- The product of the values, up to a multiple of 2^130 - 5. -/
theorem val_mul {h r : List Nat} (hh : h.length = 17) (hr : r.length = 17) :
    ∃ q, val h * val r = val ((List.range 17).map (mulDigit h r)) + q * (2 ^ 130 - 5) := by
  obtain ⟨h0, h1, h2, h3, h4, h5, h6, h7, h8, h9, h10, h11, h12, h13, h14, h15, h16, rfl⟩ := List.length17 hh
  obtain ⟨r0, r1, r2, r3, r4, r5, r6, r7, r8, r9, r10, r11, r12, r13, r14, r15, r16, rfl⟩ := List.length17 hr
  simp only [mulDigit, forRange, List.range, List.range.loop, List.foldl_cons, List.foldl_nil, List.map_cons, List.map_nil]
  simp only [Nat.reduceAdd, Nat.reduceSub, Nat.reduceLeDiff, if_true, if_false, List.getD_cons_zero, List.getD_cons_succ, val]
  refine ⟨64 * (256 ^ 0 * (h1 * r16 + h2 * r15 + h3 * r14 + h4 * r13 + h5 * r12 + h6 * r11 + h7 * r10 + h8 * r9 + h9 * r8 + h10 * r7 + h11 * r6 + h12 * r5 + h13 * r4 + h14 * r3 + h15 * r2 + h16 * r1) + 256 ^ 1 * (h2 * r16 + h3 * r15 + h4 * r14 + h5 * r13 + h6 * r12 + h7 * r11 + h8 * r10 + h9 * r9 + h10 * r8 + h11 * r7 + h12 * r6 + h13 * r5 + h14 * r4 + h15 * r3 + h16 * r2) + 256 ^ 2 * (h3 * r16 + h4 * r15 + h5 * r14 + h6 * r13 + h7 * r12 + h8 * r11 + h9 * r10 + h10 * r9 + h11 * r8 + h12 * r7 + h13 * r6 + h14 * r5 + h15 * r4 + h16 * r3) + 256 ^ 3 * (h4 * r16 + h5 * r15 + h6 * r14 + h7 * r13 + h8 * r12 + h9 * r11 + h10 * r10 + h11 * r9 + h12 * r8 + h13 * r7 + h14 * r6 + h15 * r5 + h16 * r4) + 256 ^ 4 * (h5 * r16 + h6 * r15 + h7 * r14 + h8 * r13 + h9 * r12 + h10 * r11 + h11 * r10 + h12 * r9 + h13 * r8 + h14 * r7 + h15 * r6 + h16 * r5) + 256 ^ 5 * (h6 * r16 + h7 * r15 + h8 * r14 + h9 * r13 + h10 * r12 + h11 * r11 + h12 * r10 + h13 * r9 + h14 * r8 + h15 * r7 + h16 * r6) + 256 ^ 6 * (h7 * r16 + h8 * r15 + h9 * r14 + h10 * r13 + h11 * r12 + h12 * r11 + h13 * r10 + h14 * r9 + h15 * r8 + h16 * r7) + 256 ^ 7 * (h8 * r16 + h9 * r15 + h10 * r14 + h11 * r13 + h12 * r12 + h13 * r11 + h14 * r10 + h15 * r9 + h16 * r8) + 256 ^ 8 * (h9 * r16 + h10 * r15 + h11 * r14 + h12 * r13 + h13 * r12 + h14 * r11 + h15 * r10 + h16 * r9) + 256 ^ 9 * (h10 * r16 + h11 * r15 + h12 * r14 + h13 * r13 + h14 * r12 + h15 * r11 + h16 * r10) + 256 ^ 10 * (h11 * r16 + h12 * r15 + h13 * r14 + h14 * r13 + h15 * r12 + h16 * r11) + 256 ^ 11 * (h12 * r16 + h13 * r15 + h14 * r14 + h15 * r13 + h16 * r12) + 256 ^ 12 * (h13 * r16 + h14 * r15 + h15 * r14 + h16 * r13) + 256 ^ 13 * (h14 * r16 + h15 * r15 + h16 * r14) + 256 ^ 14 * (h15 * r16 + h16 * r15) + 256 ^ 15 * (h16 * r16)), ?_⟩
  rw [show (2 ^ 130 - 5 : Nat) = 1361129467683753853853498429727072845819 from rfl]
  ring

end Salt.Tweet
