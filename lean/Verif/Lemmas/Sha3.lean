import Verif.Lemmas.Sha2
import Verif.Lemmas.Stream

/-! SHA-512: the whole hash. -/

namespace Salt.Tweet

open Salt.Spec

theorem forRange_at (n : Nat) (w : List V) (f : Nat → V) (hn : n ≤ w.length) :
    (forRange n w fun i w => w.set i (f i)).length = w.length ∧
      ∀ i, i < n → at' (forRange n w fun i w => w.set i (f i)) i = f i := by
  have e := forRange_set n 0 w f (by omega)
  simp only [Nat.add_zero, List.take_zero, List.nil_append, Nat.zero_add] at e
  rw [e]
  constructor
  · simp; omega
  · intro i hi
    unfold at'
    rw [List.getD_append _ _ _ _ (by simpa using hi), List.getD_eq_getElem _ _ (by simpa using hi)]
    simp

theorem window_start (m : List V) (mb : Bytes) (h : HasBytes m mb) (hl : 128 ≤ mb.length) (w : List V) (hw : w.length = 16) :
    Window ((wordsBE mb).take 16) 16 (forRange 16 w fun i w => w.set i (dl64 (m.drop (8 * i)))) := by
  obtain ⟨h1, h2⟩ := forRange_at 16 w (fun i => dl64 (m.drop (8 * i))) (by omega)
  refine ⟨by rw [h1, hw], ?_⟩
  intro i hi
  have hlw := wordsBE_length mb
  rw [h2 i hi, dl64_word h i (by omega)]
  have : newest 16 i = i := by unfold newest; omega
  rw [this, ← sched_eq _ (by rw [List.length_take, hlw]; omega) 0 i (by omega)]
  show _ = w64 (((wordsBE mb).take 16).getD i 0)
  simp [hi]

theorem length8 {α : Type} {l : List α} (h : l.length = 8) : ∃ a b c d e f g i, l = [a, b, c, d, e, f, g, i] := by
  match l, h with
  | [a, b, c, d, e, f, g, i], _ => exact ⟨a, b, c, d, e, f, g, i, rfl⟩

theorem compress_length (h m : List UInt64) (hl : h.length = 8) : (compress h m).length = 8 := by
  obtain ⟨a, b, c, d, e, f, g, i, rfl⟩ := length8 hl
  simp only [compress, List.length_cons, List.length_nil]

/-- Adding the old hash value. -/
def addWorking (v h : Working) : List UInt64 :=
  let (a', b', c', d', e', f', g', i') := v
  let (a, b, c, d, e, f, g, i) := h
  [a' + a, b' + b, c' + c, d' + d, e' + e, f' + f, g' + g, i' + i]

theorem addLoop (v h : Working) :
    (forRange 8 (wl v, wl h) fun i (a, z) =>
      let a := a.set i (at' a i + at' z i)
      (a, z.set i (at' a i))) = ((addWorking v h).map w64, (addWorking v h).map w64) := by
  obtain ⟨a', b', c', d', e', f', g', i'⟩ := v
  obtain ⟨a, b, c, d, e, f, g, i⟩ := h
  simp only [wl, addWorking, List.map_cons, List.map_nil, forRange, List.range, List.range.loop, List.foldl_cons, List.foldl_nil]
  simp only [at', List.getD_cons_zero, List.getD_cons_succ, List.set_cons_zero, List.set_cons_succ, add_w64]

theorem compress_eq (a b c d e f g i : UInt64) (m : List UInt64) :
    compress [a, b, c, d, e, f, g, i] m = addWorking (shaRounds (a, b, c, d, e, f, g, i) (schedule m 64)) (a, b, c, d, e, f, g, i) := by
  unfold compress addWorking
  simp only

theorem wl_map (a b c d e f g i : UInt64) : [a, b, c, d, e, f, g, i].map w64 = wl (a, b, c, d, e, f, g, i) := rfl

attribute [local irreducible] forRange shaRounds schedule in
theorem shaBlock_eq (m : List V) (mb : Bytes) (hm : HasBytes m mb) (hl : 128 ≤ mb.length) (h : List UInt64) (hh : h.length = 8)
    (s : ShaState) (ha : s.a = h.map w64) (hb : s.b.length = 8) (hw : s.w.length = 16) :
    (shaBlock m (h.map w64) s).1 = (compress h ((wordsBE mb).take 16)).map w64 ∧
    (shaBlock m (h.map w64) s).2.a = (compress h ((wordsBE mb).take 16)).map w64 ∧
    (shaBlock m (h.map w64) s).2.b.length = 8 ∧ (shaBlock m (h.map w64) s).2.w.length = 16 := by
  have hlw := wordsBE_length mb
  have hwin := window_start m mb hm hl s.w hw
  obtain ⟨a, b, c, d, e, f, g, i, rfl⟩ := length8 hh
  have hr := rounds80 ((wordsBE mb).take 16) (by rw [List.length_take, hlw]; omega)
    { s with w := forRange 16 s.w fun i w => w.set i (dl64 (m.drop (8 * i))) } (a, b, c, d, e, f, g, i) (by rw [← wl_map]; exact ha) hb hwin
  rw [compress_eq, wl_map]
  unfold shaBlock
  simp only
  generalize forRange 80 _ shaRound = S at hr
  obtain ⟨h1, h2, h3⟩ := hr
  rw [h1, addLoop]
  exact ⟨rfl, rfl, h2, h3⟩

theorem wordsBE_take (b : Bytes) (i : Nat) : wordsBE (b.take (8 * i)) = (wordsBE b).take i := by
  induction i generalizing b with
  | zero => rfl
  | succ i ih =>
    match b with
    | b0 :: b1 :: b2 :: b3 :: b4 :: b5 :: b6 :: b7 :: t =>
      rw [show 8 * (i + 1) = 8 * i + 8 by omega]
      simp only [List.take_succ_cons, wordsBE]
      rw [ih t]
    | [] => simp [wordsBE]
    | [_] => simp [wordsBE, Nat.mul_add]
    | [_, _] => simp [wordsBE, Nat.mul_add]
    | [_, _, _] => simp [wordsBE, Nat.mul_add]
    | [_, _, _, _] => simp [wordsBE, Nat.mul_add]
    | [_, _, _, _, _] => simp [wordsBE, Nat.mul_add]
    | [_, _, _, _, _, _] => simp [wordsBE, Nat.mul_add]
    | [_, _, _, _, _, _, _] => simp [wordsBE, Nat.mul_add]

theorem compressAll_length (w : List UInt64) (h : List UInt64) (hh : h.length = 8) : (compressAll h w).length = 8 := by
  induction h, w using compressAll.induct with
  | case1 h w hw ih => rw [compressAll, if_pos hw]; exact ih (compress_length _ _ hh)
  | case2 h w hw => rw [compressAll, if_neg hw]; exact hh

theorem compressAll_append (w w' : List UInt64) (h : List UInt64) (q : Nat) (hq : w.length = 16 * q) :
    compressAll h (w ++ w') = compressAll (compressAll h w) w' := by
  induction q generalizing h w with
  | zero =>
    have : w = [] := List.length_eq_zero_iff.mp (by omega)
    subst this
    conv => rhs; arg 1; rw [compressAll]
    rfl
  | succ q ih =>
    conv => lhs; rw [compressAll, if_pos (by rw [List.length_append]; omega)]
    conv => rhs; arg 1; rw [compressAll, if_pos (by omega)]
    rw [← ih (w.drop 16) _ (by rw [List.length_drop]; omega), List.take_append_of_le_length (by omega),
      List.drop_append_of_le_length (by omega)]

theorem shaLoop_eq (n : Nat) : ∀ (m : List V) (mb : Bytes), HasBytes m mb → n ≤ mb.length → ∀ (h : List UInt64), h.length = 8 →
    ∀ (s : ShaState), s.a = h.map w64 → s.b.length = 8 → s.w.length = 16 →
    shaLoop m (h.map w64) s n = (compressAll h ((wordsBE mb).take (16 * (n / 128)))).map w64 := by
  induction n using Nat.strongRecOn with
  | _ n ih =>
    intro m mb hm hl h hh s ha hb hw
    unfold shaLoop
    by_cases hn : 128 ≤ n
    · rw [if_pos hn]
      obtain ⟨e1, e2, e3, e4⟩ := shaBlock_eq m mb hm (by omega) h hh s ha hb hw
      simp only
      rw [e1, ih (n - 128) (by omega) _ _ (hm.drop 128) (by rw [List.length_drop]; omega) _ (compress_length _ _ hh) _ e2 e3 e4]
      have hlw := wordsBE_length mb
      conv => rhs; rw [compressAll, if_pos (by rw [List.length_take, hlw]; omega)]
      rw [show 128 = 8 * 16 from rfl, wordsBE_drop, List.take_take, List.drop_take, show min 16 (16 * (n / (8 * 16))) = 16 by omega,
        show 16 * (n / (8 * 16)) - 16 = 16 * ((n - 8 * 16) / (8 * 16)) by omega]
    · rw [if_neg hn, show 16 * (n / 128) = 0 by omega, List.take_zero, compressAll, if_neg (by simp)]

theorem digitsBE_length (n x : Nat) : (digitsBE n x).length = n := by
  induction n generalizing x with
  | zero => rfl
  | succ n ih => simp [digitsBE, ih]

/-- Storing a big-endian word. -/
theorem ts64_eq (x : List V) (a : UInt64) (hx : 8 ≤ x.length) :
    ∃ y, ts64 x (w64 a) = y ++ x.drop 8 ∧ AreBytes y (digitsBE 8 a.toNat) := by
  match x, hx with
  | x0 :: x1 :: x2 :: x3 :: x4 :: x5 :: x6 :: x7 :: t, _ =>
    unfold ts64
    simp only [forRange, List.range, List.range.loop, List.foldl_cons, List.foldl_nil, Nat.reduceSub, List.set_cons_zero, List.set_cons_succ]
    simp only [shr_w64 _ 8 (by omega)]
    refine ⟨[_, _, _, _, _, _, _, _], rfl, ?_⟩
    have hb : ∀ b : UInt64, IsByte (u8 (w64 b)) (UInt8.ofNat b.toNat) := fun b => cast_u8_byte _
    have hd : ∀ b : UInt64, (b >>> UInt64.ofNat 8).toNat = b.toNat / 256 := by
      intro b
      rw [UInt64.toNat_shiftRight]
      show b.toNat >>> 8 = _
      rw [Nat.shiftRight_eq_div_pow]
    simp only [digitsBE, List.nil_append, List.cons_append]
    refine .cons ?_ (.cons ?_ (.cons ?_ (.cons ?_ (.cons ?_ (.cons ?_ (.cons ?_ (.cons ?_ .nil)))))))
    · simp only [← hd]; exact hb _
    · simp only [← hd]; exact hb _
    · simp only [← hd]; exact hb _
    · simp only [← hd]; exact hb _
    · simp only [← hd]; exact hb _
    · simp only [← hd]; exact hb _
    · simp only [← hd]; exact hb _
    · exact hb _

theorem store_words (z : List UInt64) (x : List V) (hx : 8 * z.length ≤ x.length) :
    ∃ y, (forRange z.length x fun i x => x.take (8 * i) ++ ts64 (x.drop (8 * i)) (at' (z.map w64) i)) = y ++ x.drop (8 * z.length) ∧
      AreBytes y (z.flatMap fun a => digitsBE 8 a.toNat) := by
  have : ∀ n, n ≤ z.length → ∃ y, (forRange n x fun i x => x.take (8 * i) ++ ts64 (x.drop (8 * i)) (at' (z.map w64) i)) = y ++ x.drop (8 * n) ∧
      AreBytes y ((z.take n).flatMap fun a => digitsBE 8 a.toNat) := by
    intro n hn
    induction n with
    | zero => exact ⟨[], rfl, .nil⟩
    | succ n ih =>
      obtain ⟨y, e, hy⟩ := ih (by omega)
      have ly := hy.length
      have : ((z.take n).flatMap fun a => digitsBE 8 a.toNat).length = 8 * n := by
        have hg : ∀ l : List UInt64, (l.flatMap fun a => digitsBE 8 a.toNat).length = 8 * l.length := by
          intro l
          induction l with
          | nil => rfl
          | cons a l ih => rw [List.flatMap_cons, List.length_append, ih, digitsBE_length, List.length_cons]; omega
        rw [hg, List.length_take]
        omega
      rw [this] at ly
      rw [forRange_succ, e, List.take_left' ly, List.drop_left' ly, at_map _ _ (by omega)]
      obtain ⟨u, eu, hu⟩ := ts64_eq (x.drop (8 * n)) (z.getD n 0) (by rw [List.length_drop]; omega)
      refine ⟨y ++ u, ?_, ?_⟩
      · rw [eu, List.drop_drop, List.append_assoc, show 8 * n + 8 = 8 * (n + 1) by omega]
      · rw [List.take_succ_eq_append_getElem (by omega), List.flatMap_append]
        refine hy.append ?_
        rw [List.getD_eq_getElem _ _ (by omega)] at hu
        simpa using hu
  have := this z.length (Nat.le_refl _)
  rw [List.take_length] at this
  exact this

theorem hashblocks_eq (x m : List V) (xb mb : Bytes) (n : Nat) (hx : HasBytes x xb) (hxl : xb.length = 64) (hm : HasBytes m mb)
    (hn : n ≤ mb.length) :
    AreBytes (hashblocks x m n)
      ((compressAll (wordsBE xb) ((wordsBE mb).take (16 * (n / 128)))).flatMap fun a => digitsBE 8 a.toNat) := by
  unfold hashblocks
  have hl8 := wordsBE_length xb
  have hz : (forRange 8 (intArray .u64 8) fun i z => z.set i (dl64 (x.drop (8 * i)))) = (wordsBE xb).map w64 := by
    obtain ⟨h1, h2⟩ := forRange_at 8 (intArray .u64 8) (fun i => dl64 (x.drop (8 * i))) (by simp [intArray])
    apply List.ext_getElem
    · rw [h1, List.length_map, hl8, hxl]; simp [intArray]
    · intro i g1 g2
      have hi : i < 8 := by rw [h1] at g1; simpa [intArray] using g1
      have := h2 i hi
      unfold at' at this
      rw [List.getD_eq_getElem _ _ g1] at this
      rw [this, dl64_word hx i (by omega), List.getElem_map, List.getD_eq_getElem _ _ (by omega)]
  simp only [hz]
  rw [shaLoop_eq n m mb hm hn (wordsBE xb) (by omega) _ rfl (by simp [intArray]) (by simp [intArray])]
  have hcl := compressAll_length ((wordsBE mb).take (16 * (n / 128))) (wordsBE xb) (by omega)
  have hxl' := hx.length
  obtain ⟨y, e, hy⟩ := store_words (compressAll (wordsBE xb) ((wordsBE mb).take (16 * (n / 128)))) x (by omega)
  rw [hcl] at e
  rw [e, List.drop_of_length_le (by omega), List.append_nil]
  exact hy

end Salt.Tweet
