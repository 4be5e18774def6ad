import Verif.Lemmas.ChkBox
import Verif.Model.ChkField

/-! The field arithmetic and X25519 with IndexError agree with those without. -/

namespace Salt.Chk

open Salt.Tweet (V at' intArray forRange forRange_succ gf Ladder)

theorem step_len {β : Type} {m : Except Err (List V)} {v : List V} {l : Nat} {f : List V → Except Err β} {r : β}
    (h : m = .ok v ∧ v.length = l) (h' : ∀ u, v = u → u.length = l → f u = .ok r) : (m >>= f) = .ok r := by
  rw [h.1]
  exact h' v rfl h.2

theorem step_pair {β : Type} {m : Except Err (List V × List V)} {v : List V × List V} {l l' : Nat} {f : List V × List V → Except Err β} {r : β}
    (h : m = .ok v ∧ v.1.length = l ∧ v.2.length = l')
    (h' : ∀ u u', v = (u, u') → u.length = l → u'.length = l' → f (u, u') = .ok r) : (m >>= f) = .ok r := by
  rw [h.1]
  exact h' v.1 v.2 rfl h.2.1 h.2.2

theorem gf_length : (gf []).length = 16 := rfl

theorem set25519_ok {r a : List V} (hr : 16 ≤ r.length) (ha : 16 ≤ a.length) :
    set25519 r a = .ok (Tweet.set25519 r a) ∧ (Tweet.set25519 r a).length = r.length :=
  fill_ok (n := 16) (off := 0) (l := r.length) rfl hr (by omega)

theorem carStep_ok {i : Nat} {o : List V} (hi : i < 16) (ho : 16 ≤ o.length) :
    carStep i o = .ok (Tweet.carStep i o) ∧ (Tweet.carStep i o).length = o.length := by
  unfold carStep Tweet.carStep
  have hj : (if i < 15 then i + 1 else 0) < 16 := by split <;> omega
  generalize (if i < 15 then i + 1 else 0) = j at hj ⊢
  chk []
  trivial

theorem car25519_ok {o : List V} (ho : 16 ≤ o.length) :
    car25519 o = .ok (Tweet.car25519 o) ∧ (Tweet.car25519 o).length = o.length :=
  loop_ok (fun y : List V => y.length = o.length) rfl fun i y hi hy => by
    have := carStep_ok hi (o := y) (by omega)
    exact ⟨this.1, this.2.trans hy⟩

theorem sel25519_ok {p q : List V} (b : V) (hp : 16 ≤ p.length) (hq : 16 ≤ q.length) :
    sel25519 p q b = .ok (Tweet.sel25519 p q b) ∧ (Tweet.sel25519 p q b).1.length = p.length ∧
      (Tweet.sel25519 p q b).2.length = q.length :=
  loop_ok (fun s : List V × List V => s.1.length = p.length ∧ s.2.length = q.length) ⟨rfl, rfl⟩ fun i s hi hs => by
    obtain ⟨h1, h2⟩ := hs
    chk [h1, h2]
    exact ⟨trivial, trivial, trivial⟩

theorem packStep_ok {t m : List V} {i : Nat} (hi : i < 14) (ht : 16 ≤ t.length) (hm : m.length = 16) :
    packStep t i m = .ok (Tweet.packStep t i m) ∧ (Tweet.packStep t i m).length = 16 := by
  unfold packStep Tweet.packStep
  chk []
  exact ⟨trivial, hm⟩

theorem packRound_ok {s : List V × List V} (h1 : s.1.length = 16) (h2 : s.2.length = 16) :
    packRound s = .ok (Tweet.packRound s) ∧ (Tweet.packRound s).1.length = 16 ∧ (Tweet.packRound s).2.length = 16 := by
  obtain ⟨t, m⟩ := s
  unfold packRound Tweet.packRound
  simp only at h1 h2 ⊢
  rw [get_ok (by omega), ok_bind, put_ok _ (by omega), ok_bind]
  obtain ⟨e, l⟩ := loop_ok (fun m : List V => m.length = 16) (n := 14) (s := m.set 0 (at' t 0 - 0xffed)) (body := packStep t)
    (body' := Tweet.packStep t) (by rw [List.length_set, h2]) fun i m hi hm => packStep_ok hi (by omega) hm
  rw [e, ok_bind]
  generalize forRange 14 _ _ = m' at l ⊢
  chk []
  have key : ∀ (q : List V) (b : V), q.length = 16 → sel25519 t q b = .ok (Tweet.sel25519 t q b) ∧
      (Tweet.sel25519 t q b).1.length = 16 ∧ (Tweet.sel25519 t q b).2.length = 16 := fun q b hq => by
    have := sel25519_ok (p := t) (q := q) b (by omega) (by omega)
    rw [h1, hq] at this
    exact this
  exact key _ _ (by simp only [List.length_set]; exact l)

theorem pack25519_ok {o n : List V} (ho : 32 ≤ o.length) (hn : 16 ≤ n.length) :
    pack25519 .list o n = .ok (Tweet.pack25519 o n) ∧ (Tweet.pack25519 o n).length = o.length := by
  unfold pack25519 Tweet.pack25519
  obtain ⟨e1, l1⟩ := fill_ok (n := 16) (off := 0) (l := 16) (x := gf []) (k := n) gf_length (by omega) (by omega)
  simp only [Nat.add_zero] at e1 l1
  rw [e1, ok_bind]
  simp only
  generalize forRange 16 (gf []) _ = t at l1 ⊢
  obtain ⟨e2, l2⟩ := car25519_ok (o := t) (by omega)
  rw [e2, ok_bind]
  obtain ⟨e3, l3⟩ := car25519_ok (o := Tweet.car25519 t) (by omega)
  rw [e3, ok_bind]
  obtain ⟨e4, l4⟩ := car25519_ok (o := Tweet.car25519 (Tweet.car25519 t)) (by omega)
  rw [e4, ok_bind]
  generalize Tweet.car25519 (Tweet.car25519 (Tweet.car25519 t)) = t' at l4 ⊢
  obtain ⟨e5, l5, l5'⟩ := packRound_ok (s := (t', gf [])) (by simp only; omega) gf_length
  rw [e5, ok_bind]
  obtain ⟨e6, l6, l6'⟩ := packRound_ok (s := Tweet.packRound (t', gf [])) l5 l5'
  rw [e6, ok_bind]
  generalize Tweet.packRound (Tweet.packRound (t', gf [])) = s at l6 ⊢
  refine loop_ok (fun y : List V => y.length = o.length) rfl fun i y hi hy => ?_
  unfold Kind.put
  chk []
  exact ⟨trivial, hy⟩

theorem neq25519_ok (w : Nat) {a b : List V} (ha : 16 ≤ a.length) (hb : 16 ≤ b.length) :
    neq25519 w a b = .ok (Tweet.neq25519 w a b) := by
  unfold neq25519 Tweet.neq25519
  obtain ⟨e1, l1⟩ := pack25519_ok (o := intArray .u8 32) (n := a) (by rw [intArray_length]) ha
  obtain ⟨e2, l2⟩ := pack25519_ok (o := intArray .u8 32) (n := b) (by rw [intArray_length]) hb
  rw [intArray_length] at l1 l2
  rw [e1, ok_bind, e2, ok_bind]
  exact vn_ok w (by omega) (by omega)

theorem par25519_ok {a : List V} (ha : 16 ≤ a.length) : par25519 a = .ok (Tweet.par25519 a) := by
  unfold par25519 Tweet.par25519
  obtain ⟨e1, l1⟩ := pack25519_ok (o := intArray .u8 32) (n := a) (by rw [intArray_length]) ha
  rw [intArray_length] at l1
  rw [e1, ok_bind, get_ok (by omega)]
  rfl

theorem unpack25519_ok {o n : List V} (ho : 16 ≤ o.length) (hn : 32 ≤ n.length) :
    unpack25519 o n = .ok (Tweet.unpack25519 o n) ∧ (Tweet.unpack25519 o n).length = o.length := by
  unfold unpack25519 Tweet.unpack25519
  obtain ⟨e, l⟩ := loop_ok (fun y : List V => y.length = o.length) (n := 16) (s := o)
    (body := fun i o => do
      let a ← get n (2 * i)
      let b ← get n (2 * i + 1)
      put o i (a + Tweet.i64 b <<< 8))
    (body' := fun i o => o.set i (at' n (2 * i) + Tweet.i64 (at' n (2 * i + 1)) <<< 8)) rfl fun i y hi hy => by
      chk []
      exact ⟨trivial, hy⟩
  rw [e, ok_bind]
  simp only
  generalize forRange 16 o _ = o' at l ⊢
  chk []
  exact ⟨trivial, l⟩

theorem A_ok {o a b : List V} (ho : 16 ≤ o.length) (ha : 16 ≤ a.length) (hb : 16 ≤ b.length) :
    A o a b = .ok (Tweet.A o a b) ∧ (Tweet.A o a b).length = o.length :=
  loop_ok (fun y : List V => y.length = o.length) rfl fun i y hi hy => by
    chk []
    exact ⟨trivial, hy⟩

theorem Z_ok {o a b : List V} (ho : 16 ≤ o.length) (ha : 16 ≤ a.length) (hb : 16 ≤ b.length) :
    Z o a b = .ok (Tweet.Z o a b) ∧ (Tweet.Z o a b).length = o.length :=
  loop_ok (fun y : List V => y.length = o.length) rfl fun i y hi hy => by
    chk []
    exact ⟨trivial, hy⟩

theorem mulTable_ok {a b : List V} (ha : 16 ≤ a.length) (hb : 16 ≤ b.length) :
    mulTable a b = .ok (Tweet.mulTable a b) ∧ (Tweet.mulTable a b).length = 31 :=
  loop_ok (fun y : List V => y.length = 31) (intArray_length _ _) fun i y hi hy =>
    loop_ok (fun y : List V => y.length = 31) hy fun j y hj hy => by
      chk []
      exact ⟨trivial, hy⟩

theorem M_ok {o a b : List V} (ho : 16 ≤ o.length) (ha : 16 ≤ a.length) (hb : 16 ≤ b.length) :
    M o a b = .ok (Tweet.M o a b) ∧ (Tweet.M o a b).length = o.length := by
  unfold M Tweet.M
  obtain ⟨e, l⟩ := mulTable_ok ha hb
  rw [e, ok_bind]
  simp only
  generalize Tweet.mulTable a b = t at l ⊢
  obtain ⟨e, l⟩ := loop_ok (fun y : List V => y.length = 31) (n := 15) (s := t)
    (body := fun i t => do
      let x ← get t i
      put t i (x + 38 * (← get t (i + 16))))
    (body' := fun i t => t.set i (at' t i + 38 * at' t (i + 16))) l fun i y hi hy => by
      chk []
      exact ⟨trivial, hy⟩
  rw [e, ok_bind]
  generalize forRange 15 t _ = t at l ⊢
  obtain ⟨e1, l1⟩ := fill_ok (n := 16) (off := 0) (l := o.length) (x := o) (k := t) rfl ho (by omega)
  simp only [Nat.add_zero] at e1 l1
  rw [e1, ok_bind]
  generalize forRange 16 o _ = o' at l1 ⊢
  obtain ⟨e2, l2⟩ := car25519_ok (o := o') (by omega)
  rw [e2, ok_bind]
  obtain ⟨e3, l3⟩ := car25519_ok (o := Tweet.car25519 o') (by omega)
  exact ⟨e3, by omega⟩

theorem S_ok {o a : List V} (ho : 16 ≤ o.length) (ha : 16 ≤ a.length) :
    S o a = .ok (Tweet.S o a) ∧ (Tweet.S o a).length = o.length := M_ok ho ha ha

theorem power_ok {i c : List V} {n : Nat} {P : Nat → Prop} [DecidablePred P] (hi : 16 ≤ i.length) (hc : c.length = 16) :
    loop n c (fun k c => do
      let c ← S c c
      if P k then M c c i else pure c) =
      .ok (forRange n c fun k c => if P k then Tweet.M (Tweet.S c c) (Tweet.S c c) i else Tweet.S c c) ∧
    (forRange n c fun k c => if P k then Tweet.M (Tweet.S c c) (Tweet.S c c) i else Tweet.S c c).length = 16 :=
  loop_ok (fun y : List V => y.length = 16) hc fun k y hk hy => by
    obtain ⟨e, l⟩ := S_ok (o := y) (a := y) (by omega) (by omega)
    rw [e, ok_bind]
    by_cases h : P k
    · rw [if_pos h, if_pos h]
      obtain ⟨e', l'⟩ := M_ok (o := Tweet.S y y) (a := Tweet.S y y) (b := i) (by omega) (by omega) (by omega)
      exact ⟨e', by omega⟩
    · rw [if_neg h, if_neg h]
      exact ⟨rfl, by omega⟩

theorem inv25519_ok {o i : List V} (ho : 16 ≤ o.length) (hi : 16 ≤ i.length) :
    inv25519 o i = .ok (Tweet.inv25519 o i) ∧ (Tweet.inv25519 o i).length = o.length := by
  unfold inv25519 Tweet.inv25519
  obtain ⟨e1, l1⟩ := fill_ok (n := 16) (off := 0) (l := 16) (x := gf []) (k := i) gf_length (by omega) (by omega)
  simp only [Nat.add_zero] at e1 l1
  rw [e1, ok_bind]
  simp only
  generalize forRange 16 (gf []) _ = c at l1 ⊢
  obtain ⟨e2, l2⟩ := power_ok (n := 254) (P := fun k => 253 - k ≠ 2 ∧ 253 - k ≠ 4) hi l1
  rw [e2, ok_bind]
  exact fill_ok (n := 16) (off := 0) (l := o.length) rfl ho (by omega)

theorem pow2523_ok {o i : List V} (ho : 16 ≤ o.length) (hi : 16 ≤ i.length) :
    pow2523 o i = .ok (Tweet.pow2523 o i) ∧ (Tweet.pow2523 o i).length = o.length := by
  unfold pow2523 Tweet.pow2523
  obtain ⟨e1, l1⟩ := fill_ok (n := 16) (off := 0) (l := 16) (x := gf []) (k := i) gf_length (by omega) (by omega)
  simp only [Nat.add_zero] at e1 l1
  rw [e1, ok_bind]
  simp only
  generalize forRange 16 (gf []) _ = c at l1 ⊢
  obtain ⟨e2, l2⟩ := power_ok (n := 251) (P := fun k => 250 - k ≠ 1) hi l1
  rw [e2, ok_bind]
  exact fill_ok (n := 16) (off := 0) (l := o.length) rfl ho (by omega)

/-! ### X25519 -/

/-- All six arrays have 16 items. -/
def Ladder.Ok (s : Ladder) : Prop :=
  s.a.length = 16 ∧ s.b.length = 16 ∧ s.c.length = 16 ∧ s.d.length = 16 ∧ s.e.length = 16 ∧ s.f.length = 16

attribute [local irreducible] Tweet.A Tweet.Z Tweet.M Tweet.S Tweet.sel25519 in
theorem ladderStep_ok {z x : List V} {i : Nat} {s : Ladder} (hz : i >>> 3 < z.length) (hx : 16 ≤ x.length) (h : Ladder.Ok s) :
    ladderStep z x i s = .ok (Tweet.ladderStep z x i s) ∧ Ladder.Ok (Tweet.ladderStep z x i s) := by
  obtain ⟨a, b, c, d, e, f⟩ := s
  obtain ⟨ha, hb, hc, hd, he, hf⟩ := h
  simp only at ha hb hc hd he hf
  suffices H : ∃ s', Tweet.ladderStep z x i ⟨a, b, c, d, e, f⟩ = s' ∧ ladderStep z x i ⟨a, b, c, d, e, f⟩ = .ok s' ∧ Ladder.Ok s' by
    obtain ⟨s', e1, e2, e3⟩ := H
    rw [e1]
    exact ⟨e2, e3⟩
  have hk : 16 ≤ Tweet.c121665.length := by decide
  unfold ladderStep Tweet.ladderStep
  simp only
  rw [get_ok hz, ok_bind]
  generalize (at' z (i >>> 3) >>> (i &&& 7)) &&& 1 = r
  obtain ⟨q, l, l'⟩ := sel25519_ok (p := a) (q := b) r (by omega) (by omega)
  rw [q, ok_bind]; clear q
  generalize Tweet.sel25519 a b r = ab at l l' ⊢
  obtain ⟨a, b⟩ := ab
  simp only at l l' ⊢
  obtain ⟨q, m, m'⟩ := sel25519_ok (p := c) (q := d) r (by omega) (by omega)
  rw [q, ok_bind]; clear q
  generalize Tweet.sel25519 c d r = ab at m m' ⊢
  obtain ⟨c, d⟩ := ab
  simp only at m m' ⊢
  replace ha : a.length = 16 := by omega
  replace hb : b.length = 16 := by omega
  replace hc : c.length = 16 := by omega
  replace hd : d.length = 16 := by omega
  clear l l' m m'
  obtain ⟨q, l⟩ := A_ok (o := e) (a := a) (b := c) (by omega) (by omega) (by omega)
  rw [q, ok_bind]; clear q; rw [he] at l; clear he; generalize Tweet.A e a c = e at l ⊢; rename' l => he
  obtain ⟨q, l⟩ := Z_ok (o := a) (a := a) (b := c) (by omega) (by omega) (by omega)
  rw [q, ok_bind]; clear q; rw [ha] at l; clear ha; generalize Tweet.Z a a c = a at l ⊢; rename' l => ha
  obtain ⟨q, l⟩ := A_ok (o := c) (a := b) (b := d) (by omega) (by omega) (by omega)
  rw [q, ok_bind]; clear q; rw [hc] at l; clear hc; generalize Tweet.A c b d = c at l ⊢; rename' l => hc
  obtain ⟨q, l⟩ := Z_ok (o := b) (a := b) (b := d) (by omega) (by omega) (by omega)
  rw [q, ok_bind]; clear q; rw [hb] at l; clear hb; generalize Tweet.Z b b d = b at l ⊢; rename' l => hb
  obtain ⟨q, l⟩ := S_ok (o := d) (a := e) (by omega) (by omega)
  rw [q, ok_bind]; clear q; rw [hd] at l; clear hd; generalize Tweet.S d e = d at l ⊢; rename' l => hd
  obtain ⟨q, l⟩ := S_ok (o := f) (a := a) (by omega) (by omega)
  rw [q, ok_bind]; clear q; rw [hf] at l; clear hf; generalize Tweet.S f a = f at l ⊢; rename' l => hf
  obtain ⟨q, l⟩ := M_ok (o := a) (a := c) (b := a) (by omega) (by omega) (by omega)
  rw [q, ok_bind]; clear q; rw [ha] at l; clear ha; generalize Tweet.M a c a = a at l ⊢; rename' l => ha
  obtain ⟨q, l⟩ := M_ok (o := c) (a := b) (b := e) (by omega) (by omega) (by omega)
  rw [q, ok_bind]; clear q; rw [hc] at l; clear hc; generalize Tweet.M c b e = c at l ⊢; rename' l => hc
  obtain ⟨q, l⟩ := A_ok (o := e) (a := a) (b := c) (by omega) (by omega) (by omega)
  rw [q, ok_bind]; clear q; rw [he] at l; clear he; generalize Tweet.A e a c = e at l ⊢; rename' l => he
  obtain ⟨q, l⟩ := Z_ok (o := a) (a := a) (b := c) (by omega) (by omega) (by omega)
  rw [q, ok_bind]; clear q; rw [ha] at l; clear ha; generalize Tweet.Z a a c = a at l ⊢; rename' l => ha
  obtain ⟨q, l⟩ := S_ok (o := b) (a := a) (by omega) (by omega)
  rw [q, ok_bind]; clear q; rw [hb] at l; clear hb; generalize Tweet.S b a = b at l ⊢; rename' l => hb
  obtain ⟨q, l⟩ := Z_ok (o := c) (a := d) (b := f) (by omega) (by omega) (by omega)
  rw [q, ok_bind]; clear q; rw [hc] at l; clear hc; generalize Tweet.Z c d f = c at l ⊢; rename' l => hc
  obtain ⟨q, l⟩ := M_ok (o := a) (a := c) (b := Tweet.c121665) (by omega) (by omega) hk
  rw [q, ok_bind]; clear q; rw [ha] at l; clear ha; generalize Tweet.M a c Tweet.c121665 = a at l ⊢; rename' l => ha
  obtain ⟨q, l⟩ := A_ok (o := a) (a := a) (b := d) (by omega) (by omega) (by omega)
  rw [q, ok_bind]; clear q; rw [ha] at l; clear ha; generalize Tweet.A a a d = a at l ⊢; rename' l => ha
  obtain ⟨q, l⟩ := M_ok (o := c) (a := c) (b := a) (by omega) (by omega) (by omega)
  rw [q, ok_bind]; clear q; rw [hc] at l; clear hc; generalize Tweet.M c c a = c at l ⊢; rename' l => hc
  obtain ⟨q, l⟩ := M_ok (o := a) (a := d) (b := f) (by omega) (by omega) (by omega)
  rw [q, ok_bind]; clear q; rw [ha] at l; clear ha; generalize Tweet.M a d f = a at l ⊢; rename' l => ha
  obtain ⟨q, l⟩ := M_ok (o := d) (a := b) (b := x) (by omega) (by omega) (by omega)
  rw [q, ok_bind]; clear q; rw [hd] at l; clear hd; generalize Tweet.M d b x = d at l ⊢; rename' l => hd
  obtain ⟨q, l⟩ := S_ok (o := b) (a := e) (by omega) (by omega)
  rw [q, ok_bind]; clear q; rw [hb] at l; clear hb; generalize Tweet.S b e = b at l ⊢; rename' l => hb
  obtain ⟨q, l, l'⟩ := sel25519_ok (p := a) (q := b) r (by omega) (by omega)
  rw [q, ok_bind]; clear q
  generalize Tweet.sel25519 a b r = ab at l l' ⊢
  obtain ⟨a, b⟩ := ab
  simp only at l l' ⊢
  obtain ⟨q, m, m'⟩ := sel25519_ok (p := c) (q := d) r (by omega) (by omega)
  rw [q, ok_bind]; clear q
  generalize Tweet.sel25519 c d r = ab at m m' ⊢
  obtain ⟨c, d⟩ := ab
  simp only at m m' ⊢
  exact ⟨_, rfl, rfl, by simp only; omega, by simp only; omega, by simp only; omega, by simp only; omega, he, hf⟩

theorem clampScalar_ok {n : List V} (hn : 32 ≤ n.length) :
    clampScalar n = .ok (Tweet.clampScalar n) ∧ (Tweet.clampScalar n).length = 32 := by
  unfold clampScalar Tweet.clampScalar
  obtain ⟨e1, l1⟩ := fill_ok (n := 31) (off := 0) (l := 32) (x := intArray .u8 32) (k := n) (intArray_length _ _) (by omega) (by omega)
  simp only [Nat.add_zero] at e1 l1
  rw [e1, ok_bind]
  generalize forRange 31 _ _ = z at l1 ⊢
  chk []
  exact ⟨trivial, l1⟩

theorem ladderStart_ok {x : List V} (hx : 16 ≤ x.length) : ∃ s, ladderStart x = .ok s ∧ Ladder.Ok s ∧
    (let s' : Ladder := forRange 16 ⟨gf [], gf [], gf [], gf [], gf [], gf []⟩ fun i s =>
      { s with b := s.b.set i (at' x i), d := s.d.set i 0, a := s.a.set i 0, c := s.c.set i 0 }
    s = { s' with a := s'.a.set 0 1, d := s'.d.set 0 1 }) := by
  unfold ladderStart
  obtain ⟨e, l⟩ := loop_ok (fun s : Ladder => Ladder.Ok s) (n := 16) (s := ⟨gf [], gf [], gf [], gf [], gf [], gf []⟩)
    (body := fun i s => do
      let b ← put s.b i (← get x i)
      let d ← put s.d i 0
      let a ← put s.a i 0
      let c ← put s.c i 0
      pure { s with b := b, d := d, a := a, c := c })
    (body' := fun i s => { s with b := s.b.set i (at' x i), d := s.d.set i 0, a := s.a.set i 0, c := s.c.set i 0 })
    ⟨rfl, rfl, rfl, rfl, rfl, rfl⟩ fun i s hi hs => by
      obtain ⟨ha, hb, hc, hd, he, hf⟩ := hs
      unfold Ladder.Ok
      chk []
      exact ⟨trivial, ha, hb, hc, hd, he, hf⟩
  simp only
  rw [e, ok_bind]
  generalize forRange 16 (_ : Ladder) _ = s at l ⊢
  obtain ⟨ha, hb, hc, hd, he, hf⟩ := l
  rw [put_ok _ (by omega), ok_bind, put_ok _ (by omega), ok_bind]
  exact ⟨_, rfl, ⟨by simp only [List.length_set]; exact ha, hb, hc, by simp only [List.length_set]; exact hd, he, hf⟩, rfl⟩

theorem scalarmultCurve_ok {q n p : List V} (hq : 32 ≤ q.length) (hn : 32 ≤ n.length) (hp : 32 ≤ p.length) :
    scalarmultCurve q n p = .ok (Tweet.scalarmultCurve q n p) ∧ (Tweet.scalarmultCurve q n p).length = q.length := by
  unfold scalarmultCurve Tweet.scalarmultCurve
  obtain ⟨e1, l1⟩ := clampScalar_ok hn
  rw [e1, ok_bind]
  simp only
  generalize Tweet.clampScalar n = z at l1 ⊢
  obtain ⟨e2, l2⟩ := unpack25519_ok (o := intArray .i64 80) (by simp [intArray_length]) hp
  rw [intArray_length] at l2
  rw [e2, ok_bind]
  generalize Tweet.unpack25519 (intArray .i64 80) p = x at l2 ⊢
  obtain ⟨s, e3, l3, es⟩ := ladderStart_ok (x := x) (by omega)
  simp only at es
  rw [e3, ok_bind, ← es]
  clear es
  obtain ⟨e4, l4⟩ := loop_ok (fun s : Ladder => Ladder.Ok s) (n := 255) (body := fun k s => ladderStep z x (254 - k) s)
    (body' := fun k s => Tweet.ladderStep z x (254 - k) s) l3 fun k s hk hs =>
      ladderStep_ok (by rw [Nat.shiftRight_eq_div_pow]; omega) (by omega) hs
  rw [e4, ok_bind]
  generalize forRange 255 s _ = s at l4 ⊢
  obtain ⟨ha, hb, hc, hd, he, hf⟩ := l4
  obtain ⟨e5, l5⟩ := loop_ok (fun x : List V => x.length = 80) (n := 16) (s := x)
    (body := fun i x => do
      let x ← put x (i + 16) (← get s.a i)
      let x ← put x (i + 32) (← get s.c i)
      let x ← put x (i + 48) (← get s.b i)
      put x (i + 64) (← get s.d i))
    (body' := fun i x => (((x.set (i + 16) (at' s.a i)).set (i + 32) (at' s.c i)).set (i + 48) (at' s.b i)).set (i + 64) (at' s.d i))
    l2 fun i x hi hx => by
      chk []
      exact ⟨trivial, hx⟩
  rw [e5, ok_bind]
  generalize forRange 16 x _ = x at l5 ⊢
  obtain ⟨e6, l6⟩ := inv25519_ok (o := x.drop 32) (i := x.drop 32) (by simp only [List.length_drop]; omega) (by simp only [List.length_drop]; omega)
  rw [e6, ok_bind]
  have l7 := splice_length x (Tweet.inv25519 (x.drop 32) (x.drop 32)) 32 l6
  generalize x.take 32 ++ Tweet.inv25519 (x.drop 32) (x.drop 32) = x' at l7 ⊢
  obtain ⟨e8, l8⟩ := M_ok (o := x'.drop 16) (a := x'.drop 16) (b := x'.drop 32) (by simp only [List.length_drop]; omega)
    (by simp only [List.length_drop]; omega) (by simp only [List.length_drop]; omega)
  rw [e8, ok_bind]
  have l9 := splice_length x' (Tweet.M (x'.drop 16) (x'.drop 16) (x'.drop 32)) 16 l8
  generalize x'.take 16 ++ Tweet.M (x'.drop 16) (x'.drop 16) (x'.drop 32) = y at l9 ⊢
  exact pack25519_ok hq (by simp only [List.length_drop]; omega)

theorem nine_length : Tweet.nine.length = 32 := rfl

theorem scalarmultCurveBase_ok {q n : List V} (hq : 32 ≤ q.length) (hn : 32 ≤ n.length) :
    scalarmultCurveBase q n = .ok (Tweet.scalarmultCurveBase q n) ∧ (Tweet.scalarmultCurveBase q n).length = q.length :=
  scalarmultCurve_ok hq hn (by rw [nine_length])

theorem boxBeforenm_ok (w : Nat) {k y x : List V} (hk : 32 ≤ k.length) (hy : 32 ≤ y.length) (hx : 32 ≤ x.length) :
    boxBeforenm w k y x = .ok (Tweet.boxBeforenm w k y x) ∧ (Tweet.boxBeforenm w k y x).length = k.length := by
  unfold boxBeforenm Tweet.boxBeforenm
  obtain ⟨e, l⟩ := scalarmultCurve_ok (q := intArray .u8 32) (by rw [intArray_length]) hx hy
  rw [intArray_length] at l
  rw [e, ok_bind]
  simp only
  generalize Tweet.scalarmultCurve (intArray .u8 32) x y = s at l ⊢
  exact core_ok w (by rw [intArray_length]) (by omega) (by rw [sigma_length]) (by simpa using hk)

end Salt.Chk
