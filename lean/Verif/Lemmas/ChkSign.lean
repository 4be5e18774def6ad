import Verif.Lemmas.ChkField
import Verif.Lemmas.ChkSha
import Verif.Model.ChkSign
import Verif.Lemmas.Sign2
import Verif.Lemmas.SignOpen

/-! The signatures with IndexError and ValueError agree with those without. -/

namespace Salt.Chk

open Salt.Tweet (V at' intArray forRange forRange_succ gf Pt byteItem IsByte AreBytes)

theorem gfl : (gf []).length = 16 := rfl
theorem gf0l : Tweet.gf0.length = 16 := rfl
theorem gf1l : Tweet.gf1.length = 16 := rfl
theorem cDl : Tweet.cD.length = 16 := rfl
theorem cD2l : Tweet.cD2.length = 16 := rfl
theorem cXl : Tweet.cX.length = 16 := rfl
theorem cYl : Tweet.cY.length = 16 := rfl
theorem cIl : Tweet.cI.length = 16 := rfl
theorem cLl : Tweet.cL.length = 32 := rfl

/-- The four coordinates have 16 items. -/
def PtOk (p : Pt) : Prop := p.p0.length = 16 ∧ p.p1.length = 16 ∧ p.p2.length = 16 ∧ p.p3.length = 16

theorem ptOk_new : PtOk Pt.new := ⟨rfl, rfl, rfl, rfl⟩

attribute [local irreducible] Tweet.A Tweet.Z Tweet.M Tweet.S in
theorem add_ok {p q : Pt} (hp : PtOk p) (hq : PtOk q) : add p q = .ok (Tweet.add p q) ∧ PtOk (Tweet.add p q) := by
  obtain ⟨p0, p1, p2, p3⟩ := p
  obtain ⟨q0, q1, q2, q3⟩ := q
  obtain ⟨hp0, hp1, hp2, hp3⟩ := hp
  obtain ⟨hq0, hq1, hq2, hq3⟩ := hq
  simp only at hp0 hp1 hp2 hp3 hq0 hq1 hq2 hq3
  suffices H : ∃ s, Tweet.add ⟨p0, p1, p2, p3⟩ ⟨q0, q1, q2, q3⟩ = s ∧ add ⟨p0, p1, p2, p3⟩ ⟨q0, q1, q2, q3⟩ = .ok s ∧ PtOk s by
    obtain ⟨s, e1, e2, e3⟩ := H
    rw [e1]
    exact ⟨e2, e3⟩
  have hg := gfl
  have hk := cD2l
  unfold add Tweet.add
  simp only
  obtain ⟨q, ha1⟩ := Z_ok (o := (gf [])) (a := p1) (b := p0) (by omega) (by omega) (by omega)
  rw [q, ok_bind]; clear q; generalize Tweet.Z (gf []) p1 p0 = a1 at ha1 ⊢
  obtain ⟨q, ht1⟩ := Z_ok (o := (gf [])) (a := q1) (b := q0) (by omega) (by omega) (by omega)
  rw [q, ok_bind]; clear q; generalize Tweet.Z (gf []) q1 q0 = t1 at ht1 ⊢
  obtain ⟨q, ha2⟩ := M_ok (o := a1) (a := a1) (b := t1) (by omega) (by omega) (by omega)
  rw [q, ok_bind]; clear q; generalize Tweet.M a1 a1 t1 = a2 at ha2 ⊢
  obtain ⟨q, hb1⟩ := A_ok (o := (gf [])) (a := p0) (b := p1) (by omega) (by omega) (by omega)
  rw [q, ok_bind]; clear q; generalize Tweet.A (gf []) p0 p1 = b1 at hb1 ⊢
  obtain ⟨q, ht2⟩ := A_ok (o := t1) (a := q0) (b := q1) (by omega) (by omega) (by omega)
  rw [q, ok_bind]; clear q; generalize Tweet.A t1 q0 q1 = t2 at ht2 ⊢
  obtain ⟨q, hb2⟩ := M_ok (o := b1) (a := b1) (b := t2) (by omega) (by omega) (by omega)
  rw [q, ok_bind]; clear q; generalize Tweet.M b1 b1 t2 = b2 at hb2 ⊢
  obtain ⟨q, hc1⟩ := M_ok (o := (gf [])) (a := p3) (b := q3) (by omega) (by omega) (by omega)
  rw [q, ok_bind]; clear q; generalize Tweet.M (gf []) p3 q3 = c1 at hc1 ⊢
  obtain ⟨q, hc2⟩ := M_ok (o := c1) (a := c1) (b := Tweet.cD2) (by omega) (by omega) (by omega)
  rw [q, ok_bind]; clear q; generalize Tweet.M c1 c1 Tweet.cD2 = c2 at hc2 ⊢
  obtain ⟨q, hd1⟩ := M_ok (o := (gf [])) (a := p2) (b := q2) (by omega) (by omega) (by omega)
  rw [q, ok_bind]; clear q; generalize Tweet.M (gf []) p2 q2 = d1 at hd1 ⊢
  obtain ⟨q, hd2⟩ := A_ok (o := d1) (a := d1) (b := d1) (by omega) (by omega) (by omega)
  rw [q, ok_bind]; clear q; generalize Tweet.A d1 d1 d1 = d2 at hd2 ⊢
  obtain ⟨q, he⟩ := Z_ok (o := (gf [])) (a := b2) (b := a2) (by omega) (by omega) (by omega)
  rw [q, ok_bind]; clear q; generalize Tweet.Z (gf []) b2 a2 = e at he ⊢
  obtain ⟨q, hf⟩ := Z_ok (o := (gf [])) (a := d2) (b := c2) (by omega) (by omega) (by omega)
  rw [q, ok_bind]; clear q; generalize Tweet.Z (gf []) d2 c2 = f at hf ⊢
  obtain ⟨q, hg⟩ := A_ok (o := (gf [])) (a := d2) (b := c2) (by omega) (by omega) (by omega)
  rw [q, ok_bind]; clear q; generalize Tweet.A (gf []) d2 c2 = g at hg ⊢
  obtain ⟨q, hh⟩ := A_ok (o := (gf [])) (a := b2) (b := a2) (by omega) (by omega) (by omega)
  rw [q, ok_bind]; clear q; generalize Tweet.A (gf []) b2 a2 = h at hh ⊢
  obtain ⟨q, hr0⟩ := M_ok (o := p0) (a := e) (b := f) (by omega) (by omega) (by omega)
  rw [q, ok_bind]; clear q; generalize Tweet.M p0 e f = r0 at hr0 ⊢
  obtain ⟨q, hr1⟩ := M_ok (o := p1) (a := h) (b := g) (by omega) (by omega) (by omega)
  rw [q, ok_bind]; clear q; generalize Tweet.M p1 h g = r1 at hr1 ⊢
  obtain ⟨q, hr2⟩ := M_ok (o := p2) (a := g) (b := f) (by omega) (by omega) (by omega)
  rw [q, ok_bind]; clear q; generalize Tweet.M p2 g f = r2 at hr2 ⊢
  obtain ⟨q, hr3⟩ := M_ok (o := p3) (a := e) (b := h) (by omega) (by omega) (by omega)
  rw [q, ok_bind]; clear q; generalize Tweet.M p3 e h = r3 at hr3 ⊢
  exact ⟨_, rfl, rfl, by simp only; omega, by simp only; omega, by simp only; omega, by simp only; omega⟩

theorem cswap_ok {p q : Pt} (b : V) (hp : PtOk p) (hq : PtOk q) :
    cswap p q b = .ok (Tweet.cswap p q b) ∧ PtOk (Tweet.cswap p q b).1 ∧ PtOk (Tweet.cswap p q b).2 := by
  obtain ⟨hp0, hp1, hp2, hp3⟩ := hp
  obtain ⟨hq0, hq1, hq2, hq3⟩ := hq
  obtain ⟨e0, l0, l0'⟩ := sel25519_ok (p := p.p0) (q := q.p0) b (by omega) (by omega)
  obtain ⟨e1, l1, l1'⟩ := sel25519_ok (p := p.p1) (q := q.p1) b (by omega) (by omega)
  obtain ⟨e2, l2, l2'⟩ := sel25519_ok (p := p.p2) (q := q.p2) b (by omega) (by omega)
  obtain ⟨e3, l3, l3'⟩ := sel25519_ok (p := p.p3) (q := q.p3) b (by omega) (by omega)
  unfold cswap Tweet.cswap
  rw [e0, ok_bind, e1, ok_bind, e2, ok_bind, e3, ok_bind]
  exact ⟨rfl, ⟨by simp only; omega, by simp only; omega, by simp only; omega, by simp only; omega⟩,
    by simp only; omega, by simp only; omega, by simp only; omega, by simp only; omega⟩

theorem multStep_ok {s : List V} {i : Nat} {x : Pt × Pt} (hs : i / 8 < s.length) (hx : PtOk x.1 ∧ PtOk x.2) :
    multStep s i x = .ok (Tweet.multStep s i x) ∧ PtOk (Tweet.multStep s i x).1 ∧ PtOk (Tweet.multStep s i x).2 := by
  obtain ⟨p, q⟩ := x
  obtain ⟨hp, hq⟩ := hx
  unfold multStep Tweet.multStep
  simp only at hp hq ⊢
  rw [get_ok hs, ok_bind]
  generalize Tweet.u8 _ = b
  obtain ⟨e1, l1, l1'⟩ := cswap_ok b hp hq
  rw [e1, ok_bind]
  generalize Tweet.cswap p q b = y at l1 l1' ⊢
  obtain ⟨p, q⟩ := y
  simp only at l1 l1' ⊢
  obtain ⟨e2, l2⟩ := add_ok l1' l1
  rw [e2, ok_bind]
  generalize Tweet.add q p = q' at l2 ⊢
  obtain ⟨e3, l3⟩ := add_ok l1 l1
  rw [e3, ok_bind]
  exact cswap_ok b l3 l2

theorem scalarmult_ok {p q : Pt} {s : List V} (hp : PtOk p) (hq : PtOk q) (hs : 32 ≤ s.length) :
    scalarmult p q s = .ok (Tweet.scalarmult p q s) ∧ PtOk (Tweet.scalarmult p q s) := by
  obtain ⟨hp0, hp1, hp2, hp3⟩ := hp
  have g0 := gf0l
  have g1 := gf1l
  unfold scalarmult Tweet.scalarmult
  obtain ⟨e0, l0⟩ := set25519_ok (r := p.p0) (a := Tweet.gf0) (by omega) (by omega)
  obtain ⟨e1, l1⟩ := set25519_ok (r := p.p1) (a := Tweet.gf1) (by omega) (by omega)
  obtain ⟨e2, l2⟩ := set25519_ok (r := p.p2) (a := Tweet.gf1) (by omega) (by omega)
  obtain ⟨e3, l3⟩ := set25519_ok (r := p.p3) (a := Tweet.gf0) (by omega) (by omega)
  rw [e0, ok_bind, e1, ok_bind, e2, ok_bind, e3, ok_bind]
  simp only
  have lp : PtOk ⟨Tweet.set25519 p.p0 Tweet.gf0, Tweet.set25519 p.p1 Tweet.gf1, Tweet.set25519 p.p2 Tweet.gf1, Tweet.set25519 p.p3 Tweet.gf0⟩ :=
    ⟨by simp only; omega, by simp only; omega, by simp only; omega, by simp only; omega⟩
  generalize (⟨Tweet.set25519 p.p0 Tweet.gf0, Tweet.set25519 p.p1 Tweet.gf1, Tweet.set25519 p.p2 Tweet.gf1, Tweet.set25519 p.p3 Tweet.gf0⟩ : Pt) = p' at lp ⊢
  obtain ⟨e, l⟩ := loop_ok (fun x : Pt × Pt => PtOk x.1 ∧ PtOk x.2) (n := 256) (s := (p', q)) (body := fun k x => multStep s (255 - k) x)
    (body' := fun k x => Tweet.multStep s (255 - k) x) ⟨lp, hq⟩ fun k x hk hx => multStep_ok (by omega) hx
  rw [e, ok_bind]
  exact ⟨rfl, l.1⟩

theorem scalarbase_ok {p : Pt} {s : List V} (hp : PtOk p) (hs : 32 ≤ s.length) :
    scalarbase p s = .ok (Tweet.scalarbase p s) ∧ PtOk (Tweet.scalarbase p s) := by
  have g := gfl
  have g1 := gf1l
  have gx := cXl
  have gy := cYl
  unfold scalarbase Tweet.scalarbase
  obtain ⟨e0, l0⟩ := set25519_ok (r := gf []) (a := Tweet.cX) (by omega) (by omega)
  obtain ⟨e1, l1⟩ := set25519_ok (r := gf []) (a := Tweet.cY) (by omega) (by omega)
  obtain ⟨e2, l2⟩ := set25519_ok (r := gf []) (a := Tweet.gf1) (by omega) (by omega)
  obtain ⟨e3, l3⟩ := M_ok (o := gf []) (a := Tweet.cX) (b := Tweet.cY) (by omega) (by omega) (by omega)
  rw [e0, ok_bind, e1, ok_bind, e2, ok_bind, e3, ok_bind]
  exact scalarmult_ok hp ⟨by simp only; omega, by simp only; omega, by simp only; omega, by simp only; omega⟩ hs

/-! ### Reduction modulo the group order -/

theorem modLCol_ok {i t : Nat} {s : List V × V} (h1 : 32 ≤ i) (h2 : i < 64) (ht : t < 32) (hs : s.1.length = 64) :
    modLCol i t s = .ok (Tweet.modLCol i t s) ∧ (Tweet.modLCol i t s).1.length = 64 := by
  obtain ⟨x, carry⟩ := s
  have hL := cLl
  unfold modLCol Tweet.modLCol
  simp only at hs ⊢
  chk []
  exact ⟨trivial, hs⟩

theorem modLRow_ok {i : Nat} {x : List V} (h1 : 32 ≤ i) (h2 : i < 64) (hx : x.length = 64) :
    modLRow i x = .ok (Tweet.modLRow i x) ∧ (Tweet.modLRow i x).length = 64 := by
  unfold modLRow Tweet.modLRow
  obtain ⟨e, l⟩ := loop_ok (fun s : List V × V => s.1.length = 64) (n := 20) (s := (x, 0)) (body := modLCol i) (body' := Tweet.modLCol i)
    hx fun t s ht hs => modLCol_ok h1 h2 (by omega) hs
  rw [e, ok_bind]
  generalize forRange 20 _ _ = s at l ⊢
  chk []
  exact ⟨trivial, l⟩

theorem modLTop_ok {j : Nat} {s : List V × V} (hj : j < 32) (hs : s.1.length = 64) :
    modLTop j s = .ok (Tweet.modLTop j s) ∧ (Tweet.modLTop j s).1.length = 64 := by
  obtain ⟨x, carry⟩ := s
  have hL := cLl
  unfold modLTop Tweet.modLTop
  simp only at hs ⊢
  chk []
  exact ⟨trivial, hs⟩

theorem forRange_hom {α β : Type} (f : α → β) {n : Nat} {s : α} {b : Nat → α → α} {b' : Nat → β → β} (h : ∀ i s, f (b i s) = b' i (f s)) :
    f (forRange n s b) = forRange n (f s) b' := by
  induction n with
  | zero => rfl
  | succ n ih => rw [forRange_succ, forRange_succ, h, ih]

theorem putByte_ok {x : List V} {i : Nat} {a : V} (h : i < x.length) (h0 : 0 ≤ a.v) (h1 : a.v < 256) : putByte x i a = .ok (x.set i (byteItem a)) := by
  unfold putByte
  rw [if_pos ⟨h0, h1⟩, put_ok _ h]
  rfl

/-- What becomes of an item. -/
def Kind.item : Kind → V → V
  | .list => id
  | .bytearray => byteItem

theorem Kind.put_ok (kind : Kind) {x : List V} {i : Nat} {a : V} (h : i < x.length) (h0 : 0 ≤ a.v) (h1 : a.v < 256) :
    kind.put x i a = .ok (x.set i (kind.item a)) := by
  cases kind with
  | list => exact Chk.put_ok a h
  | bytearray => exact putByte_ok h h0 h1

theorem and255 (a : V) : 0 ≤ (a &&& 255).v ∧ (a &&& 255).v < 256 := by
  have : a &&& 255 = Tweet.pl (Int.land a.v 255) := Tweet.typed_right _ _ _ rfl
  have e2 : Tweet.pl a.v &&& 255 = Tweet.pl (Int.land a.v 255) := Tweet.typed_right _ _ _ rfl
  rw [this, ← e2, Tweet.land255]
  show 0 ≤ a.v % 256 ∧ a.v % 256 < 256
  omega

theorem modL_ok (kind : Kind) {r x : List V} (hr : 32 ≤ r.length) (hx : x.length = 64) :
    modL kind (r.map kind.item) x = .ok ((Tweet.modL r x).map kind.item) ∧ (Tweet.modL r x).length = r.length := by
  have hL := cLl
  unfold modL Tweet.modL
  obtain ⟨e, l⟩ := loop_ok (fun x : List V => x.length = 64) (n := 32) (body := fun k x => modLRow (63 - k) x) (body' := fun k x => Tweet.modLRow (63 - k) x)
    hx fun k x hk hx => modLRow_ok (by omega) (by omega) hx
  rw [e, ok_bind]
  simp only
  generalize forRange 32 x _ = x at l ⊢
  obtain ⟨e, l⟩ := loop_ok (fun s : List V × V => s.1.length = 64) (n := 32) (s := (x, 0)) (body := modLTop) (body' := Tweet.modLTop)
    l fun t s ht hs => modLTop_ok ht hs
  rw [e, ok_bind]
  generalize forRange 32 (x, (0 : V)) _ = s at l ⊢
  obtain ⟨x, carry⟩ := s
  simp only at l ⊢
  obtain ⟨e, l⟩ := loop_ok (fun x : List V => x.length = 64) (n := 32) (s := x)
    (body := fun j x => do
      let a ← get x j
      put x j (a - carry * (← get Tweet.cL j)))
    (body' := fun j x => x.set j (at' x j - carry * at' Tweet.cL j)) l fun t s ht hs => by
      chk []
      exact ⟨trivial, hs⟩
  rw [e, ok_bind]
  generalize forRange 32 x _ = x at l ⊢
  have hom := forRange_hom (fun s : List V × List V => (s.1, s.2.map kind.item)) (n := 32) (s := (x, r))
    (b := fun i (x, r) => (x.set (i + 1) (at' x (i + 1) + at' x i >>> 8), r.set i (at' x i &&& 255)))
    (b' := fun i (x, r) => (x.set (i + 1) (at' x (i + 1) + at' x i >>> 8), r.set i (kind.item (at' x i &&& 255))))
    fun i s => by simp only [List.map_set]
  obtain ⟨e, l⟩ := loop_ok (fun s : List V × List V => s.1.length = 64 ∧ s.2.length = r.length) (n := 32) (s := (x, r.map kind.item))
    (body := fun i s => do
      let a ← get s.1 (i + 1)
      let x ← put s.1 (i + 1) (a + (← get s.1 i) >>> 8)
      let r ← kind.put s.2 i ((← get x i) &&& 255)
      pure (x, r))
    (body' := fun i (x, r) => (x.set (i + 1) (at' x (i + 1) + at' x i >>> 8), r.set i (kind.item (at' x i &&& 255))))
    ⟨l, by simp⟩ fun i s hi hs => by
      obtain ⟨x, y⟩ := s
      obtain ⟨h1, h2⟩ := hs
      simp only at h1 h2 ⊢
      rw [get_ok (by omega), ok_bind, get_ok (by omega), ok_bind, put_ok _ (by omega), ok_bind, get_ok (by rw [List.length_set]; omega), ok_bind,
        kind.put_ok (by omega) (and255 _).1 (and255 _).2, Tweet.at'_set _ _ _ _ (by omega), if_neg (by omega)]
      exact ⟨rfl, by simp [h1], by simp [h2]⟩
  rw [e, ok_bind]
  simp only at hom
  rw [← hom] at l ⊢
  generalize forRange 32 (x, r) _ = y at l ⊢
  refine ⟨rfl, ?_⟩
  have := l.2
  simp only [List.length_map] at this
  exact this

theorem reduce_ok {r : List V} (hr : 64 ≤ r.length) : reduce r = .ok (Tweet.reduce r) ∧ (Tweet.reduce r).length = 64 := by
  unfold reduce Tweet.reduce
  obtain ⟨e, l⟩ := loop_ok (fun x : List V => x.length = 64) (n := 64) (s := intArray .i64 64)
    (body := fun i x => do put x i (Tweet.u64 (← get r i)))
    (body' := fun i x => x.set i (Tweet.u64 (at' r i))) (intArray_length _ _) fun t s ht hs => by
      chk []
      exact ⟨trivial, hs⟩
  rw [e, ok_bind]
  simp only
  generalize forRange 64 _ _ = x at l ⊢
  have := modL_ok .list (r := intArray .u8 64) (x := x) (by simp [intArray_length]) l
  simp only [Kind.item, List.map_id_fun, id_eq, intArray_length] at this
  exact this

theorem clampHash_ok {d : List V} (hd : 32 ≤ d.length) : clampHash d = .ok (Tweet.clampHash d) ∧ (Tweet.clampHash d).length = d.length := by
  unfold clampHash Tweet.clampHash
  chk []
  exact ⟨trivial, trivial⟩

theorem mulAdd_ok {x h d : List V} (hx : x.length = 64) (hh : 32 ≤ h.length) (hd : 32 ≤ d.length) :
    mulAdd x h d = .ok (Tweet.mulAdd x h d) ∧ (Tweet.mulAdd x h d).length = 64 :=
  loop_ok (fun y : List V => y.length = 64) hx fun i y hi hy =>
    loop_ok (fun y : List V => y.length = 64) hy fun j y hj hy => by
      chk []
      exact ⟨trivial, hy⟩

attribute [local irreducible] Tweet.A Tweet.Z Tweet.M Tweet.S Tweet.set25519 Tweet.unpack25519 Tweet.pow2523 Tweet.neq25519 Tweet.par25519 in
theorem unpackneg_ok (w : Nat) {r : Pt} {p : List V} (hr : PtOk r) (hp : 32 ≤ p.length) :
    unpackneg w r p = .ok (Tweet.unpackneg w r p) ∧ PtOk (Tweet.unpackneg w r p).2 := by
  obtain ⟨p0, p1, p2, p3⟩ := r
  obtain ⟨hp0, hp1, hp2, hp3⟩ := hr
  simp only at hp0 hp1 hp2 hp3
  suffices H : ∃ s, Tweet.unpackneg w ⟨p0, p1, p2, p3⟩ p = s ∧ unpackneg w ⟨p0, p1, p2, p3⟩ p = .ok s ∧ PtOk s.2 by
    obtain ⟨s, e1, e2, e3⟩ := H
    rw [e1]
    exact ⟨e2, e3⟩
  have hg := gfl
  have hg0 := gf0l
  have hg1 := gf1l
  have hcd := cDl
  have hci := cIl
  unfold unpackneg Tweet.unpackneg
  simp only
  obtain ⟨q, hr2⟩ := set25519_ok (r := p2) (a := Tweet.gf1) (by omega) (by omega)
  rw [q, ok_bind]; clear q; generalize Tweet.set25519 p2 Tweet.gf1 = r2 at hr2 ⊢
  obtain ⟨q, hr1⟩ := unpack25519_ok (o := p1) (n := p) (by omega) (by omega)
  rw [q, ok_bind]; clear q; generalize Tweet.unpack25519 p1 p = r1 at hr1 ⊢
  obtain ⟨q, hnum1⟩ := S_ok (o := (gf [])) (a := r1) (by omega) (by omega)
  rw [q, ok_bind]; clear q; generalize Tweet.S (gf []) r1 = num1 at hnum1 ⊢
  obtain ⟨q, hden1⟩ := M_ok (o := (gf [])) (a := num1) (b := Tweet.cD) (by omega) (by omega) (by omega)
  rw [q, ok_bind]; clear q; generalize Tweet.M (gf []) num1 Tweet.cD = den1 at hden1 ⊢
  obtain ⟨q, hnum⟩ := Z_ok (o := num1) (a := num1) (b := r2) (by omega) (by omega) (by omega)
  rw [q, ok_bind]; clear q; generalize Tweet.Z num1 num1 r2 = num at hnum ⊢
  obtain ⟨q, hden⟩ := A_ok (o := den1) (a := r2) (b := den1) (by omega) (by omega) (by omega)
  rw [q, ok_bind]; clear q; generalize Tweet.A den1 r2 den1 = den at hden ⊢
  obtain ⟨q, hden2⟩ := S_ok (o := (gf [])) (a := den) (by omega) (by omega)
  rw [q, ok_bind]; clear q; generalize Tweet.S (gf []) den = den2 at hden2 ⊢
  obtain ⟨q, hden4⟩ := S_ok (o := (gf [])) (a := den2) (by omega) (by omega)
  rw [q, ok_bind]; clear q; generalize Tweet.S (gf []) den2 = den4 at hden4 ⊢
  obtain ⟨q, hden6⟩ := M_ok (o := (gf [])) (a := den4) (b := den2) (by omega) (by omega) (by omega)
  rw [q, ok_bind]; clear q; generalize Tweet.M (gf []) den4 den2 = den6 at hden6 ⊢
  obtain ⟨q, ht1⟩ := M_ok (o := (gf [])) (a := den6) (b := num) (by omega) (by omega) (by omega)
  rw [q, ok_bind]; clear q; generalize Tweet.M (gf []) den6 num = t1 at ht1 ⊢
  obtain ⟨q, ht2⟩ := M_ok (o := t1) (a := t1) (b := den) (by omega) (by omega) (by omega)
  rw [q, ok_bind]; clear q; generalize Tweet.M t1 t1 den = t2 at ht2 ⊢
  obtain ⟨q, ht3⟩ := pow2523_ok (o := t2) (i := t2) (by omega) (by omega)
  rw [q, ok_bind]; clear q; generalize Tweet.pow2523 t2 t2 = t3 at ht3 ⊢
  obtain ⟨q, ht4⟩ := M_ok (o := t3) (a := t3) (b := num) (by omega) (by omega) (by omega)
  rw [q, ok_bind]; clear q; generalize Tweet.M t3 t3 num = t4 at ht4 ⊢
  obtain ⟨q, ht5⟩ := M_ok (o := t4) (a := t4) (b := den) (by omega) (by omega) (by omega)
  rw [q, ok_bind]; clear q; generalize Tweet.M t4 t4 den = t5 at ht5 ⊢
  obtain ⟨q, ht6⟩ := M_ok (o := t5) (a := t5) (b := den) (by omega) (by omega) (by omega)
  rw [q, ok_bind]; clear q; generalize Tweet.M t5 t5 den = t6 at ht6 ⊢
  obtain ⟨q, hr0⟩ := M_ok (o := p0) (a := t6) (b := den) (by omega) (by omega) (by omega)
  rw [q, ok_bind]; clear q; generalize Tweet.M p0 t6 den = r0 at hr0 ⊢
  obtain ⟨q, hchk1⟩ := S_ok (o := (gf [])) (a := r0) (by omega) (by omega)
  rw [q, ok_bind]; clear q; generalize Tweet.S (gf []) r0 = chk1 at hchk1 ⊢
  obtain ⟨q, hchk2⟩ := M_ok (o := chk1) (a := chk1) (b := den) (by omega) (by omega) (by omega)
  rw [q, ok_bind]; clear q; generalize Tweet.M chk1 chk1 den = chk2 at hchk2 ⊢
  rw [neq25519_ok w (by omega) (by omega), ok_bind]
  have hif : ∃ r0', (if (Tweet.neq25519 w chk2 num).v ≠ 0 then M r0 r0 Tweet.cI else pure r0) = .ok r0' ∧
      (if (Tweet.neq25519 w chk2 num).v ≠ 0 then Tweet.M r0 r0 Tweet.cI else r0) = r0' ∧ r0'.length = 16 := by
    split
    · obtain ⟨q, l⟩ := M_ok (o := r0) (a := r0) (b := Tweet.cI) (by omega) (by omega) (by omega)
      exact ⟨_, q, rfl, by omega⟩
    · exact ⟨_, rfl, rfl, by omega⟩
  obtain ⟨r0', e1, e2, l0⟩ := hif
  rw [e1, e2, ok_bind]
  clear e1 e2
  obtain ⟨q, hchk3⟩ := S_ok (o := chk2) (a := r0') (by omega) (by omega)
  rw [q, ok_bind]; clear q; generalize Tweet.S chk2 r0' = chk3 at hchk3 ⊢
  obtain ⟨q, hchk4⟩ := M_ok (o := chk3) (a := chk3) (b := den) (by omega) (by omega) (by omega)
  rw [q, ok_bind]; clear q; generalize Tweet.M chk3 chk3 den = chk4 at hchk4 ⊢
  rw [neq25519_ok w (by omega) (by omega), ok_bind]
  by_cases hn : (Tweet.neq25519 w chk4 num).v ≠ 0
  · rw [if_pos hn, if_pos hn]
    exact ⟨_, rfl, rfl, l0, by simp only; omega, by simp only; omega, by simp only; omega⟩
  · rw [if_neg hn, if_neg hn, par25519_ok (by omega), ok_bind, get_ok (by omega), ok_bind]
    have hif : ∃ r0'', (if (Tweet.par25519 r0').v = (at' p 31 >>> 7).v then Z r0' Tweet.gf0 r0' else pure r0') = .ok r0'' ∧
        (if (Tweet.par25519 r0').v = (at' p 31 >>> 7).v then Tweet.Z r0' Tweet.gf0 r0' else r0') = r0'' ∧ r0''.length = 16 := by
      split
      · obtain ⟨q, l⟩ := Z_ok (o := r0') (a := Tweet.gf0) (b := r0') (by omega) (by omega) (by omega)
        exact ⟨_, q, rfl, by omega⟩
      · exact ⟨_, rfl, rfl, by omega⟩
    obtain ⟨r0'', e1, e2, l0'⟩ := hif
    rw [e1, e2, ok_bind]
    clear e1 e2
    obtain ⟨q, h3⟩ := M_ok (o := p3) (a := r0'') (b := r1) (by omega) (by omega) (by omega)
    rw [q, ok_bind]
    exact ⟨_, rfl, rfl, l0', by simp only; omega, by simp only; omega, by simp only; omega⟩

/-! ### Encoding of points -/

theorem pack_items (n : Nat) (o : List V) (f g : Nat → V) (h : 2 * n ≤ o.length) (i : Nat) (hi : i < n) :
    at' (forRange n o fun i o => (o.set (2 * i) (f i)).set (2 * i + 1) (g i)) (2 * i) = f i ∧
    at' (forRange n o fun i o => (o.set (2 * i) (f i)).set (2 * i + 1) (g i)) (2 * i + 1) = g i := by
  induction n with
  | zero => omega
  | succ n ih =>
    rw [forRange_succ]
    have l : (forRange n o fun i o => (o.set (2 * i) (f i)).set (2 * i + 1) (g i)).length = o.length := forRange_len fun i y => by simp
    have ih := ih (by omega)
    generalize (forRange n o fun i o => (o.set (2 * i) (f i)).set (2 * i + 1) (g i)) = y at l ih ⊢
    rw [Tweet.at'_set _ _ _ _ (by rw [List.length_set]; omega), Tweet.at'_set _ _ _ _ (by omega), Tweet.at'_set _ _ _ _ (by rw [List.length_set]; omega),
      Tweet.at'_set _ _ _ _ (by omega)]
    by_cases e : i = n
    · subst e
      rw [if_neg (by omega), if_pos rfl, if_pos rfl]
      exact ⟨rfl, rfl⟩
    · rw [if_neg (by omega), if_neg (by omega), if_neg (by omega), if_neg (by omega)]
      exact ih (by omega)

/-- What `pack25519` writes. -/
theorem pack25519_digits {n : List V} (hn : 16 ≤ n.length) : ∃ t : List V, t.length = 16 ∧ ∀ o : List V,
    Tweet.pack25519 o n = (forRange 16 o fun i o => (o.set (2 * i) (at' t i &&& 0xff)).set (2 * i + 1) (at' t i >>> 8)) ∧
    ∀ kind : Kind, pack25519 kind o n = loop 16 o (fun i o => do
      let o ← kind.put o (2 * i) ((← get t i) &&& 0xff)
      kind.put o (2 * i + 1) ((← get t i) >>> 8)) := by
  unfold pack25519 Tweet.pack25519
  obtain ⟨e1, l1⟩ := fill_ok (n := 16) (off := 0) (l := 16) (x := gf []) (k := n) gf_length (by omega) (by omega)
  simp only [Nat.add_zero] at e1 l1
  simp only
  rw [e1]
  generalize forRange 16 (gf []) _ = t at l1 ⊢
  obtain ⟨e2, l2⟩ := car25519_ok (o := t) (by omega)
  obtain ⟨e3, l3⟩ := car25519_ok (o := Tweet.car25519 t) (by omega)
  obtain ⟨e4, l4⟩ := car25519_ok (o := Tweet.car25519 (Tweet.car25519 t)) (by omega)
  obtain ⟨e5, l5, l5'⟩ := packRound_ok (s := (Tweet.car25519 (Tweet.car25519 (Tweet.car25519 t)), gf [])) (by simp only; omega) gf_length
  obtain ⟨e6, l6, l6'⟩ := packRound_ok (s := Tweet.packRound (Tweet.car25519 (Tweet.car25519 (Tweet.car25519 t)), gf [])) l5 l5'
  refine ⟨_, l6, fun o => ⟨rfl, fun kind => ?_⟩⟩
  rw [ok_bind, e2, ok_bind, e3, ok_bind, e4, ok_bind, e5, ok_bind, e6, ok_bind]

theorem byte_range {x : List V} {b : Bytes} (h : AreBytes x b) (i : Nat) : 0 ≤ (at' x i).v ∧ (at' x i).v < 256 := by
  have := (h.at' i).2
  have := (b.getD i 0).toNat_lt
  omega

theorem pack25519_kind (kind : Kind) {o n y : List V} {b : Bytes} (hn : 16 ≤ n.length) (ho : 32 ≤ o.length)
    (h : Tweet.pack25519 o n = y ++ o.drop 32) (hy : AreBytes y b) (hl : b.length = 32) :
    pack25519 kind (o.map kind.item) n = .ok ((Tweet.pack25519 o n).map kind.item) := by
  obtain ⟨t, lt, ht⟩ := pack25519_digits hn
  rw [(ht _).2 kind, (ht _).1]
  rw [(ht o).1] at h
  have hi := fun i (hi : i < 16) => pack_items 16 o (fun i => at' t i &&& 0xff) (fun i => at' t i >>> 8) (by omega) i hi
  have hom := forRange_hom (fun s : List V => s.map kind.item) (n := 16) (s := o)
    (b := fun i o => (o.set (2 * i) (at' t i &&& 0xff)).set (2 * i + 1) (at' t i >>> 8))
    (b' := fun i o => (o.set (2 * i) (kind.item (at' t i &&& 0xff))).set (2 * i + 1) (kind.item (at' t i >>> 8)))
    fun i s => by simp only [List.map_set]
  rw [hom]
  rw [h] at hi
  have hyl : y.length = 32 := by rw [hy.length, hl]
  have hr : ∀ i, i < 16 → (0 ≤ (at' t i &&& 0xff).v ∧ (at' t i &&& 0xff).v < 256) ∧ 0 ≤ (at' t i >>> 8).v ∧ (at' t i >>> 8).v < 256 := by
    intro i hi'
    obtain ⟨h1, h2⟩ := hi i hi'
    have e : ∀ k, k < 32 → at' (y ++ o.drop 32) k = at' y k := by
      intro k hk
      unfold at'
      rw [List.getD_append _ _ _ _ (by omega)]
    rw [e _ (by omega)] at h1 h2
    rw [← h1, ← h2]
    exact ⟨byte_range hy _, byte_range hy _⟩
  refine (loop_ok (fun y : List V => y.length = o.length) (by simp) fun i y hi hy => ?_).1
  obtain ⟨⟨r1, r2⟩, r3, r4⟩ := hr i hi
  rw [get_ok (by omega), ok_bind, kind.put_ok (by omega) r1 r2, ok_bind, ok_bind, kind.put_ok (by rw [List.length_set]; omega) r3 r4]
  exact ⟨rfl, by simp [hy]⟩

theorem xor_item (kind : Kind) (a : V) (b : Int) : kind.item a ^^^ Tweet.pl b = a ^^^ Tweet.pl b := by
  cases kind with
  | list => rfl
  | bytearray =>
    have e1 : byteItem a ^^^ Tweet.pl b = Tweet.pl (Int.xor (byteItem a).v b) := Tweet.typed_right _ _ _ rfl
    have e2 : a ^^^ Tweet.pl b = Tweet.pl (Int.xor a.v b) := Tweet.typed_right _ _ _ rfl
    exact e1.trans e2.symm

theorem pack_ok (kind : Kind) {r : List V} {p : Pt} {P : Spec.EdPt} (hp : Tweet.PtIs p P) (hpl : PtOk p) (hr : 32 ≤ r.length) :
    pack kind (r.map kind.item) p = .ok ((Tweet.pack r p).map kind.item) ∧ (Tweet.pack r p).length = r.length := by
  obtain ⟨y', e', hy'⟩ := Tweet.pack_point (r := r) hp hr
  have hlen : (Tweet.pack r p).length = r.length := by
    rw [e', List.length_append, hy'.length, Tweet.edEncode_length, List.length_drop]
    omega
  refine ⟨?_, hlen⟩
  obtain ⟨⟨X, Y, Z, T⟩, ⟨h0, h1, h2, h3⟩, -⟩ := hp
  obtain ⟨hp0, hp1, hp2, hp3⟩ := hpl
  have g := gfl
  simp only at h0 h1 h2
  have hi := (Tweet.inv_fe (o := gf []) h2 (by omega) Tweet.gf_len).1
  have tx := (Tweet.M_fe Tweet.gf_len h0 hi (by omega)).1
  have ty := (Tweet.M_fe Tweet.gf_len h1 hi (by omega)).1
  unfold pack
  unfold Tweet.pack at e' ⊢
  simp only at e' ⊢
  obtain ⟨q1, l1⟩ := inv25519_ok (o := gf []) (i := p.p2) (by omega) (by omega)
  rw [q1, ok_bind]
  generalize Tweet.inv25519 (gf []) p.p2 = zi at *
  obtain ⟨q2, l2⟩ := M_ok (o := gf []) (a := p.p0) (b := zi) (by omega) (by omega) (by omega)
  rw [q2, ok_bind]
  generalize Tweet.M (gf []) p.p0 zi = tx' at *
  obtain ⟨q3, l3⟩ := M_ok (o := gf []) (a := p.p1) (b := zi) (by omega) (by omega) (by omega)
  rw [q3, ok_bind]
  generalize Tweet.M (gf []) p.p1 zi = ty' at *
  obtain ⟨y, e1, hb⟩ := Tweet.pack_eq (o := r) (by omega) ty hr
  have hl : y.length = 32 := by rw [hb.length, Tweet.digits_length]
  rw [pack25519_kind kind (by omega) hr e1 hb (Tweet.digits_length _ _), ok_bind, par25519_ok (by omega)]
  rw [Tweet.par_fe (by omega) tx] at e' ⊢
  rw [e1] at e' ⊢
  have hyl : y'.length = 32 := by rw [hy'.length, Tweet.edEncode_length]
  have hll : (y ++ r.drop 32).length = r.length := by rw [List.length_append, List.length_drop]; omega
  rw [get_ok (by rw [List.length_map]; omega), ok_bind, ok_bind]
  have e2 : at' ((y ++ r.drop 32).map kind.item) 31 = kind.item (at' (y ++ r.drop 32) 31) := by
    unfold at'
    rw [List.getD_eq_getElem?_getD, List.getD_eq_getElem?_getD, List.getElem?_map, List.getElem?_eq_getElem (by omega)]
    rfl
  have e3 : ∀ z : Int, Tweet.pl z <<< 7 = Tweet.pl (z * 2 ^ 7) := fun z => Tweet.shl_pl z 7
  rw [e3] at e' ⊢
  rw [e2, xor_item]
  generalize at' (y ++ r.drop 32) 31 ^^^ Tweet.pl _ = c at e' ⊢
  have h31 : at' ((y ++ r.drop 32).set 31 c) 31 = at' (y' ++ r.drop 32) 31 := by rw [e']
  rw [Tweet.at'_set _ _ _ _ (by omega), if_pos rfl] at h31
  have h32 := byte_range hy' 31
  have e4 : at' (y' ++ r.drop 32) 31 = at' y' 31 := by
    unfold at'
    rw [List.getD_append _ _ _ _ (by omega)]
  rw [← e4, ← h31] at h32
  rw [kind.put_ok (by rw [List.length_map]; omega) h32.1 h32.2, List.map_set]

end Salt.Chk
