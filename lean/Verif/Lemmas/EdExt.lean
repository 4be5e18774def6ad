import Verif.Lemmas.Ed25519
import Mathlib.Tactic.FieldSimp

/-! Extended coordinates (RFC 8032, section 5.1.4), and multiples of a point by double and add. -/

namespace Salt.Spec

open Salt.Edwards

/-- Extended coordinates. -/
structure Ext where
  X : Fp
  Y : Fp
  Z : Fp
  T : Fp

/-- The coordinates stand for the point. -/
def Ext.Is (e : Ext) (P : EdPt) : Prop := e.Z ≠ 0 ∧ e.X = P.1.1 * e.Z ∧ e.Y = P.1.2 * e.Z ∧ e.T = P.1.1 * P.1.2 * e.Z

/-- The constant 2d. -/
def edD2 : Fp := 16295367250680780974490674513165176452449235426866156013048779062215315747161

theorem edD2_eq : edD2 = 2 * edD := by
  rw [edD_num]
  decide +kernel

/-- The sum in extended coordinates. -/
def extAdd (p q : Ext) : Ext :=
  let a := (p.Y - p.X) * (q.Y - q.X)
  let b := (p.X + p.Y) * (q.X + q.Y)
  let c := p.T * q.T * edD2
  let d := p.Z * q.Z + p.Z * q.Z
  let e := b - a
  let f := d - c
  let g := d + c
  let h := b + a
  ⟨e * f, h * g, g * f, e * h⟩

theorem two_ne : (2 : Fp) ≠ 0 := by decide +kernel

theorem extAdd_is {p q : Ext} {P Q : EdPt} (hp : p.Is P) (hq : q.Is Q) : (extAdd p q).Is (P + Q) := by
  obtain ⟨X1, Y1, Z1, T1⟩ := p
  obtain ⟨X2, Y2, Z2, T2⟩ := q
  simp only [Ext.Is] at hp hq
  obtain ⟨z1, rfl, rfl, rfl⟩ := hp
  obtain ⟨z2, rfl, rfl, rfl⟩ := hq
  have hdp := den_p curve P.2 Q.2
  have hdm := den_m curve P.2 Q.2
  obtain ⟨x, y, hs⟩ : ∃ x y, (P + Q).1 = (x, y) := ⟨_, _, rfl⟩
  have hsum := (eadd_iff curve P.2 Q.2 x y).mp hs
  obtain ⟨⟨x1, y1⟩, h1⟩ := P
  obtain ⟨⟨x2, y2⟩, h2⟩ := Q
  have e2 := two_ne
  simp only [Ext.Is, extAdd, hs] at *
  obtain ⟨s1, s2⟩ := hsum
  rw [edD2_eq, show edD = curve.d from rfl]
  generalize curve.d = d at *
  refine ⟨?_, ?_, ?_, ?_⟩
  · have : (x1 * y1 * Z1 * 0 + Z1 * Z2 + Z1 * Z2 + x1 * y1 * Z1 * (x2 * y2 * Z2) * (2 * d)) * (Z1 * Z2 + Z1 * Z2 - x1 * y1 * Z1 * (x2 * y2 * Z2) * (2 * d)) =
        (2 * Z1 * Z2) ^ 2 * ((1 + d * x1 * x2 * y1 * y2) * (1 - d * x1 * x2 * y1 * y2)) := by ring
    rw [show Z1 * Z2 + Z1 * Z2 + x1 * y1 * Z1 * (x2 * y2 * Z2) * (2 * d) = x1 * y1 * Z1 * 0 + Z1 * Z2 + Z1 * Z2 + x1 * y1 * Z1 * (x2 * y2 * Z2) * (2 * d) by ring, this]
    exact mul_ne_zero (pow_ne_zero _ (mul_ne_zero (mul_ne_zero e2 z1) z2)) (mul_ne_zero hdp hdm)
  · linear_combination (-4 * Z1 ^ 2 * Z2 ^ 2 * (1 - d * x1 * x2 * y1 * y2)) * s1
  · linear_combination (-4 * Z1 ^ 2 * Z2 ^ 2 * (1 + d * x1 * x2 * y1 * y2)) * s2
  · linear_combination (-4 * Z1 ^ 2 * Z2 ^ 2 * y * (1 - d * x1 * x2 * y1 * y2)) * s1 + (-4 * Z1 ^ 2 * Z2 ^ 2 * (x1 * y2 + x2 * y1)) * s2

/-- The coordinates of the neutral point. -/
def extZero : Ext := ⟨0, 1, 1, 0⟩

theorem extZero_is : extZero.Is 0 := by
  refine ⟨one_ne_zero, ?_, ?_, ?_⟩ <;> simp [extZero, zero_val]

theorem ext_unique {e : Ext} {P Q : EdPt} (h1 : e.Is P) (h2 : e.Is Q) : P = Q := by
  obtain ⟨z, a1, a2, -⟩ := h1
  obtain ⟨-, b1, b2, -⟩ := h2
  exact Subtype.ext (Prod.ext (mul_right_cancel₀ z (a1.symm.trans b1)) (mul_right_cancel₀ z (a2.symm.trans b2)))

/-- Double and add, over the bits `n - 1` to 0 of `k`. -/
def extMul (q : Ext) (k : Nat) : Nat → Ext → Ext
  | 0, e => e
  | n + 1, e => extMul q k n (if k.testBit n then extAdd (extAdd e e) q else extAdd e e)

theorem div_bit (k n : Nat) : k / 2 ^ n = 2 * (k / 2 ^ (n + 1)) + if k.testBit n then 1 else 0 := by
  rw [Nat.pow_succ, ← Nat.div_div_eq_div_mul, Nat.testBit_eq_decide_div_mod_eq]
  generalize k / 2 ^ n = a
  by_cases h : a % 2 = 1
  · rw [if_pos (by simpa using h)]; omega
  · rw [if_neg (by simpa using h)]; omega

theorem extMul_is {q : Ext} {Q : EdPt} (hq : q.Is Q) (k n : Nat) : ∀ {e : Ext}, e.Is ((k / 2 ^ n) • Q) → (extMul q k n e).Is (k • Q) := by
  induction n with
  | zero =>
    intro e he
    rw [pow_zero, Nat.div_one] at he
    exact he
  | succ n ih =>
    intro e he
    rw [extMul]
    apply ih
    rw [div_bit k n, add_nsmul, mul_nsmul', two_nsmul]
    have h2 := extAdd_is he he
    split
    · rw [one_nsmul]
      exact extAdd_is h2 hq
    · rw [zero_nsmul, add_zero]
      exact h2

/-- The coordinates of the base point. -/
def extBase : Ext := ⟨edBase.1, edBase.2, 1, edBase.1 * edBase.2⟩

theorem extBase_is : extBase.Is basePt := by
  refine ⟨one_ne_zero, ?_, ?_, ?_⟩ <;> simp [extBase, basePt]

theorem base_mul (k : Nat) (n : Nat) (h : k < 2 ^ n) : (extMul extBase k n extZero).Is (k • basePt) := by
  apply extMul_is extBase_is
  rw [Nat.div_eq_of_lt h, zero_nsmul]
  exact extZero_is

/-- The order of the base point divides L. -/
theorem order_base : orderL • basePt = 0 := by
  have h := base_mul orderL 253 (by decide +kernel)
  refine ext_unique h ⟨h.1, ?_, ?_, ?_⟩
  · rw [zero_val]; decide +kernel
  · rw [zero_val]; decide +kernel
  · rw [zero_val]; decide +kernel

theorem base_mod (n : Nat) : (n % orderL) • basePt = n • basePt := by
  conv => rhs; rw [← Nat.div_add_mod n orderL, add_nsmul, mul_nsmul, order_base, nsmul_zero, zero_add]

end Salt.Spec
