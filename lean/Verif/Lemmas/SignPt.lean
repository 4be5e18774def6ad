import Verif.Lemmas.ModL3
import Verif.Lemmas.EdExt

/-! The point operations of the code, in terms of the group of points. -/

namespace Salt.Tweet

open Salt.Spec

/-- The four arrays have the values `e`. -/
def PtFe (p : Pt) (e : Ext) : Prop := Fe (2 ^ 17) p.p0 e.X ∧ Fe (2 ^ 17) p.p1 e.Y ∧ Fe (2 ^ 17) p.p2 e.Z ∧ Fe (2 ^ 17) p.p3 e.T

/-- The four arrays stand for a point of the curve. -/
def PtIs (p : Pt) (P : EdPt) : Prop := ∃ e, PtFe p e ∧ e.Is P

theorem fe_dec {x : List V} {z : Fp} (h1 : 16 ≤ x.length)
    (h2 : ∀ i, i < 16 → ((at' x i).ty = .plain ∨ (at' x i).ty = .i64) ∧ -131072 ≤ (at' x i).v ∧ (at' x i).v ≤ 131072)
    (h3 : ((part x 16 : Int) : Fp) = z) : Fe (2 ^ 17) x z := ⟨h1, h2, h3⟩

theorem gf0_fe : Fe (2 ^ 17) gf0 0 := fe_dec (by decide) (by decide) (by decide +kernel)
theorem gf1_fe : Fe (2 ^ 17) gf1 1 := fe_dec (by decide) (by decide) (by decide +kernel)
theorem cD2_fe : Fe (2 ^ 17) cD2 edD2 := fe_dec (by decide) (by decide) (by decide +kernel)
theorem cD_fe : Fe (2 ^ 17) cD edD := by
  rw [edD_num]
  exact fe_dec (by decide) (by decide) (by decide +kernel)
theorem cX_fe : Fe (2 ^ 17) cX edBase.1 := fe_dec (by decide) (by decide) (by decide +kernel)
theorem cY_fe : Fe (2 ^ 17) cY edBase.2 := fe_dec (by decide) (by decide) (by decide +kernel)
theorem cI_fe : Fe (2 ^ 17) cI sqrtM1 := fe_dec (by decide) (by decide) (by decide +kernel)

theorem fe_len {B : Int} {x : List V} {z : Fp} (h : Fe B x z) : 16 ≤ x.length := h.1

theorem gf_len : 16 ≤ (gf []).length := by decide

section
attribute [local irreducible] gf M A Z sel25519 set25519 Fe

theorem add_fe {p q : Pt} {e f : Ext} (hp : PtFe p e) (hq : PtFe q f) : PtFe (add p q) (extAdd e f) := by
  obtain ⟨p0, p1, p2, p3⟩ := hp
  obtain ⟨q0, q1, q2, q3⟩ := hq
  have g := gf_len
  unfold add
  simp only
  have a1 := Z17 g p1 p0
  have t1 := Z17 g q1 q0
  have a2 := M18 (fe_len a1) a1 t1
  have b1 := A17 g p0 p1
  have t2 := A17 (fe_len t1) q0 q1
  have b2 := M18 (fe_len b1) b1 t2
  have c1 := M18 g (up p3) (up q3)
  have c2 := M18 (fe_len c1) (up c1) (up cD2_fe)
  have d1 := M18 g (up p2) (up q2)
  have d2 := A17 (fe_len d1) d1 d1
  have e1 := Z17 g b2 a2
  have f1 := (Z_fe g d2 c2 (by omega)).1
  have g1 := (A_fe g d2 c2 (by omega)).1
  have h1 := A17 g b2 a2
  refine ⟨?_, ?_, ?_, ?_⟩
  · exact (M_fe (fe_len p0) e1 f1 (by omega)).1.mono (by omega)
  · exact (M_fe (fe_len p1) h1 g1 (by omega)).1.mono (by omega)
  · exact (M_fe (fe_len p2) g1 f1 (by omega)).1.mono (by omega)
  · exact (M_fe (fe_len p3) e1 h1 (by omega)).1.mono (by omega)

theorem add_is {p q : Pt} {P Q : EdPt} (hp : PtIs p P) (hq : PtIs q Q) : PtIs (add p q) (P + Q) := by
  obtain ⟨e, he, he'⟩ := hp
  obtain ⟨f, hf, hf'⟩ := hq
  exact ⟨_, add_fe he hf, extAdd_is he' hf'⟩

theorem cswap_is {p q : Pt} {P Q : EdPt} (hp : PtIs p P) (hq : PtIs q Q) {b : V} {s : Bool} (hb : b.v = if s then 1 else 0) :
    PtIs (cswap p q b).1 (if s then Q else P) ∧ PtIs (cswap p q b).2 (if s then P else Q) := by
  obtain ⟨e, ⟨e0, e1, e2, e3⟩, he⟩ := hp
  obtain ⟨f, ⟨f0, f1, f2, f3⟩, hf⟩ := hq
  have r0 := sel_fe (by omega) e0 f0 hb
  have r1 := sel_fe (by omega) e1 f1 hb
  have r2 := sel_fe (by omega) e2 f2 hb
  have r3 := sel_fe (by omega) e3 f3 hb
  unfold cswap
  cases s
  · exact ⟨⟨e, ⟨r0.1, r1.1, r2.1, r3.1⟩, he⟩, ⟨f, ⟨r0.2.1, r1.2.1, r2.2.1, r3.2.1⟩, hf⟩⟩
  · exact ⟨⟨f, ⟨r0.1, r1.1, r2.1, r3.1⟩, hf⟩, ⟨e, ⟨r0.2.1, r1.2.1, r2.2.1, r3.2.1⟩, he⟩⟩

end

theorem mult_bit {s : List V} {sb : Bytes} (hs : AreBytes s sb) (i : Nat) :
    (u8 ((at' s (i / 8) >>> (i &&& 7)) &&& 1)).v = if (num sb).testBit i then 1 else 0 := by
  have h := scalar_bit hs i
  rw [show i >>> 3 = i / 8 from Nat.shiftRight_eq_div_pow i 3] at h
  unfold u8
  rw [h]
  split <;> rfl

theorem multStep_is {s : List V} {sb : Bytes} (hs : AreBytes s sb) (i m : Nat) {x : Pt × Pt} {Q : EdPt}
    (hp : PtIs x.1 (m • Q)) (hq : PtIs x.2 ((m + 1) • Q)) :
    PtIs (multStep s i x).1 ((2 * m + if (num sb).testBit i then 1 else 0) • Q) ∧
    PtIs (multStep s i x).2 ((2 * m + (if (num sb).testBit i then 1 else 0) + 1) • Q) := by
  have hb := mult_bit hs i
  obtain ⟨p, q⟩ := x
  unfold multStep
  simp only at hp hq ⊢
  generalize (num sb).testBit i = b at hb ⊢
  generalize u8 ((at' s (i / 8) >>> (i &&& 7)) &&& 1) = r at hb ⊢
  obtain ⟨h1, h2⟩ := cswap_is hp hq hb
  generalize cswap p q r = pq at h1 h2 ⊢
  obtain ⟨p, q⟩ := pq
  simp only at h1 h2 ⊢
  have h3 := add_is h2 h1
  have h4 := add_is h1 h1
  have h5 := cswap_is h4 h3 hb
  cases b
  · simp only [if_false, Bool.false_eq_true] at h5 ⊢
    rw [← add_nsmul, ← add_nsmul] at h5
    rw [show 2 * m + 0 = m + m by omega, show m + m + 1 = m + 1 + m by omega]
    exact h5
  · simp only [if_true] at h5 ⊢
    rw [← add_nsmul, ← add_nsmul] at h5
    rw [show 2 * m + 1 = m + (m + 1) by omega, show m + (m + 1) + 1 = m + 1 + (m + 1) by omega]
    exact h5

theorem mult_run {s : List V} {sb : Bytes} (hs : AreBytes s sb) (N : Nat) (hN : N < 2 ^ 256) (hbits : ∀ i, i < 256 → N.testBit i = (num sb).testBit i)
    {p q : Pt} {Q : EdPt} (hp : PtIs p 0) (hq : PtIs q Q) (k : Nat) (hk : k ≤ 256) :
    let x := forRange k (p, q) fun k x => multStep s (255 - k) x
    PtIs x.1 ((N / 2 ^ (256 - k)) • Q) ∧ PtIs x.2 ((N / 2 ^ (256 - k) + 1) • Q) := by
  induction k with
  | zero =>
    have : N / 2 ^ (256 - 0) = 0 := Nat.div_eq_of_lt hN
    rw [this]
    refine ⟨?_, ?_⟩
    · rw [zero_nsmul]; exact hp
    · rw [zero_add, one_nsmul]; exact hq
  | succ k ih =>
    obtain ⟨h1, h2⟩ := ih (by omega)
    rw [forRange_succ]
    have h := multStep_is hs (255 - k) _ h1 h2
    rw [← hbits (255 - k) (by omega)] at h
    have e := div_bit N (255 - k)
    rw [show 255 - k + 1 = 256 - k by omega] at e
    rw [show 256 - (k + 1) = 255 - k by omega, e]
    exact h

theorem ptNew_is (p : Pt) (l0 : 16 ≤ p.p0.length) (l1 : 16 ≤ p.p1.length) (l2 : 16 ≤ p.p2.length) (l3 : 16 ≤ p.p3.length) :
    PtIs ⟨set25519 p.p0 gf0, set25519 p.p1 gf1, set25519 p.p2 gf1, set25519 p.p3 gf0⟩ 0 := by
  have h0 := (set_fe l0 gf0_fe).1
  have h1 := (set_fe l1 gf1_fe).1
  have h2 := (set_fe l2 gf1_fe).1
  have h3 := (set_fe l3 gf0_fe).1
  generalize set25519 p.p0 gf0 = a at *
  generalize set25519 p.p1 gf1 = b at *
  generalize set25519 p.p2 gf1 = c at *
  generalize set25519 p.p3 gf0 = d at *
  exact ⟨extZero, ⟨h0, h1, h2, h3⟩, extZero_is⟩

theorem ptBase_is : PtIs ⟨set25519 (gf []) cX, set25519 (gf []) cY, set25519 (gf []) gf1, M (gf []) cX cY⟩ basePt := by
  have h0 := (set_fe gf_len cX_fe).1
  have h1 := (set_fe gf_len cY_fe).1
  have h2 := (set_fe gf_len gf1_fe).1
  have h3 := M18 gf_len (up cX_fe) (up cY_fe)
  generalize set25519 (gf []) cX = a at *
  generalize set25519 (gf []) cY = b at *
  generalize set25519 (gf []) gf1 = c at *
  generalize M (gf []) cX cY = d at *
  exact ⟨extBase, ⟨h0, h1, h2, h3⟩, extBase_is⟩

theorem scalarmult_is {p q : Pt} {s : List V} {sb : Bytes} {Q : EdPt} (hs : AreBytes s sb) (N : Nat) (hN : N < 2 ^ 256)
    (hbits : ∀ i, i < 256 → N.testBit i = (num sb).testBit i) (hq : PtIs q Q)
    (l0 : 16 ≤ p.p0.length) (l1 : 16 ≤ p.p1.length) (l2 : 16 ≤ p.p2.length) (l3 : 16 ≤ p.p3.length) :
    PtIs (scalarmult p q s) (N • Q) := by
  have h0 := ptNew_is p l0 l1 l2 l3
  unfold scalarmult
  simp only
  generalize (⟨set25519 p.p0 gf0, set25519 p.p1 gf1, set25519 p.p2 gf1, set25519 p.p3 gf0⟩ : Pt) = p at *
  have h := (mult_run hs N hN hbits h0 hq 256 (by omega)).1
  rw [Nat.sub_self, pow_zero, Nat.div_one] at h
  exact h

theorem scalarbase_is {p : Pt} {s : List V} {sb : Bytes} (hs : AreBytes s sb) (N : Nat) (hN : N < 2 ^ 256)
    (hbits : ∀ i, i < 256 → N.testBit i = (num sb).testBit i)
    (l0 : 16 ≤ p.p0.length) (l1 : 16 ≤ p.p1.length) (l2 : 16 ≤ p.p2.length) (l3 : 16 ≤ p.p3.length) :
    PtIs (scalarbase p s) (N • basePt) := by
  have h := ptBase_is
  unfold scalarbase
  simp only
  generalize (⟨set25519 (gf []) cX, set25519 (gf []) cY, set25519 (gf []) gf1, M (gf []) cX cY⟩ : Pt) = q at *
  exact scalarmult_is hs N hN hbits h l0 l1 l2 l3

/-- The lowest bit of a field element. -/
theorem par_bytes {y : List V} {n : Nat} (h : AreBytes y (digits 32 n)) : at' y 0 &&& 1 = pl ((n % 2 : Nat) : Int) := by
  have h0 := h.at' 0
  have e2 : at' y 0 &&& 1 = pl (Int.land (at' y 0).v 1) := typed_right _ _ _ rfl
  rw [e2, h0.2, show (digits 32 n).getD 0 0 = UInt8.ofNat n from rfl]
  have : ∀ q : Nat, Int.land (q : Int) 1 = (q : Int) % 2 := fun q => land_mask 1 (q : Int)
  rw [this, UInt8.toNat_ofNat', show ((n % 2 ^ 8 : Nat) : Int) % 2 = ((n % 2 : Nat) : Int) by omega]

theorem par_fe {B : Int} (hB : B ≤ 2 ^ 24) {a : List V} {z : Fp} (ha : Fe B a z) : par25519 a = pl ((z.val % 2 : Nat) : Int) := by
  obtain ⟨y, e, h⟩ := pack_eq (o := intArray .u8 32) hB ha (by simp [intArray])
  unfold par25519
  rw [e, show (intArray .u8 32).drop 32 = [] by simp [intArray], List.append_nil]
  exact par_bytes h

theorem digits_getD (n : Nat) : ∀ (m i : Nat), i < n → ((digits n m).getD i 0).toNat = m / 256 ^ i % 256 := by
  induction n with
  | zero => intro m i h; omega
  | succ n ih =>
    intro m i h
    rw [digits]
    cases i with
    | zero => simp
    | succ i =>
      rw [List.getD_cons_succ, ih _ _ (by omega), Nat.pow_succ', Nat.div_div_eq_div_mul]

end Salt.Tweet
