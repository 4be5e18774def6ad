import Verif.Lemmas.ModL2

/-! `reduce` and the last step of `crypto_sign_ed25519_tweet`. -/

namespace Salt.Tweet

open Salt.Spec

theorem pv_num {x : List V} {b : Bytes} (h : AreBytes x b) : pv x b.length = num b := by
  induction h with
  | nil => rfl
  | cons h _ ih =>
    rw [List.length_cons, pv_cons, ih, h.2, num]
    push_cast
    rfl

theorem u64_byte {x : V} {b : UInt8} (h : IsByte x b) : u64 x = ⟨.u64, (b.toNat : Int)⟩ := by
  unfold u64
  rw [h.2, cast_nat _ (by simp)]
  have := b.toNat_lt
  show (⟨.u64, ((b.toNat % 2 ^ 64 : Nat) : Int)⟩ : V) = _
  rw [Nat.mod_eq_of_lt (by omega)]

/-- `reduce` of 64 bytes: the 32 bytes of the remainder modulo the order. -/
theorem reduce_eq {r : List V} {b : Bytes} (h : AreBytes r b) (hb : b.length = 64) :
    ∃ y, reduce r = y ++ intArray .u8 32 ∧ y.length = 32 ∧ (∀ a ∈ y, a.ty = .plain) ∧ AreBytes y (digits 32 (num b % orderL)) := by
  unfold reduce
  simp only
  rw [forRange_set0 64 _ _ (by simp [intArray])]
  have e : (intArray .i64 64).drop 64 = [] := by simp [intArray]
  rw [e, List.append_nil]
  have hat : ∀ i, i < 64 → at' ((List.range 64).map fun i => u64 (at' r i)) i = ⟨.u64, ((b.getD i 0).toNat : Int)⟩ := by
    intro i hi
    have := at'_map_range (fun i => u64 (at' r i)) 64 [] i hi
    rw [List.append_nil] at this
    rw [this]
    exact u64_byte (h.at' i)
  have hv : pv ((List.range 64).map fun i => u64 (at' r i)) 64 = num b := by
    rw [← pv_num h, hb]
    exact pv_congr (fun i hi => by rw [hat i hi, (h.at' i).2])
  exact modL_eq (r := intArray .u8 64) (by simp) (by simp [intArray]) hv (fun j hj => by
    rw [hat j hj]
    have := (b.getD j 0).toNat_lt
    show -(2 ^ 22) ≤ ((b.getD j 0).toNat : Int) ∧ ((b.getD j 0).toNat : Int) ≤ 2 ^ 22
    omega)

/-- One row of the product in `crypto_sign_ed25519_tweet`. -/
theorem mul_row {h d : List V} {i : Nat} {hi : Int} (hh : at' h i = pl hi) (h0 : 0 ≤ hi) (h1 : hi < 256) {db : Bytes} (hd : AreBytes d db)
    (x : List V) (hl : x.length = 64) (hi32 : i < 32) (t : Nat) (ht : t ≤ 32) :
    let y := forRange t x fun j x => x.set (i + j) (at' x (i + j) + at' h i * u64 (at' d j))
    y.length = 64 ∧ (∀ j, (j < i ∨ i + t ≤ j) → at' y j = at' x j) ∧
    (∀ j, i ≤ j → j < i + t → 0 ≤ (at' y j).v - (at' x j).v ∧ (at' y j).v - (at' x j).v ≤ 255 * 255) ∧
    pv y 64 = pv x 64 + 256 ^ i * hi * pv d t := by
  induction t with
  | zero =>
    refine ⟨hl, fun _ _ => rfl, fun j a b => absurd b (by omega), ?_⟩
    show pv x 64 = pv x 64 + 256 ^ i * hi * 0
    ring
  | succ t ih =>
    obtain ⟨g1, g2, g3, g4⟩ := ih (by omega)
    rw [forRange_succ]
    generalize (forRange t x fun j x => x.set (i + j) (at' x (i + j) + at' h i * u64 (at' d j))) = y at *
    rw [hh, mul_l, u64_byte (hd.at' t), add_r]
    have hb := (db.getD t 0).toNat_lt
    have hdt := (hd.at' t).2
    simp only
    generalize hq : ((db.getD t 0).toNat : Int) = q at *
    have q0 : 0 ≤ q := by omega
    have q1 : q ≤ 255 := by omega
    refine ⟨by simp [g1], ?_, ?_, ?_⟩
    · intro j hj
      rw [at'_set _ _ _ _ (by omega), if_neg (by omega)]
      exact g2 j (by omega)
    · intro j j1 j2
      rw [at'_set _ _ _ _ (by omega)]
      by_cases e : j = i + t
      · rw [if_pos e, e, g2 (i + t) (by omega), pl_v]
        constructor <;> nlinarith
      · rw [if_neg e]
        exact g3 j j1 (by omega)
    · rw [pv_set _ _ _ (by omega), if_pos (by omega), pl_v, g4, show pv d (t + 1) = pv d t + 256 ^ t * (at' d t).v from rfl, hdt, pow_add]
      ring

theorem mulAdd_inv {h d : List V} {hb db : Bytes} (hh : AreBytes h hb) (hp : ∀ i, i < 32 → (at' h i).ty = .plain) (hd : AreBytes d db)
    (x : List V) (hl : x.length = 64) (h0 : ∀ j, j < 64 → 0 ≤ (at' x j).v ∧ (at' x j).v ≤ 255) (t : Nat) (ht : t ≤ 32) :
    let y := forRange t x fun i x => forRange 32 x fun j x => x.set (i + j) (at' x (i + j) + at' h i * u64 (at' d j))
    y.length = 64 ∧ (∀ j, j < 64 → 0 ≤ (at' y j).v ∧ (at' y j).v ≤ 255 + 255 * 255 * t) ∧
    pv y 64 = pv x 64 + pv h t * pv d 32 := by
  induction t with
  | zero =>
    refine ⟨hl, fun j hj => ⟨(h0 j hj).1, Int.le_trans (h0 j hj).2 (by omega)⟩, ?_⟩
    show pv x 64 = pv x 64 + 0 * _
    ring
  | succ t ih =>
    obtain ⟨g1, g2, g3⟩ := ih (by omega)
    rw [forRange_succ]
    generalize (forRange t x fun i x => forRange 32 x fun j x => x.set (i + j) (at' x (i + j) + at' h i * u64 (at' d j))) = y at *
    have hbt := (hb.getD t 0).toNat_lt
    have e : at' h t = pl ((hb.getD t 0).toNat : Int) := by
      have h1 := hp t (by omega)
      have h2 := (hh.at' t).2
      generalize at' h t = a at h1 h2 ⊢
      obtain ⟨ty, v⟩ := a
      simp only at h1 h2
      subst h1 h2
      rfl
    obtain ⟨k1, k2, k3, k4⟩ := mul_row (d := d) e (by omega) (by omega) hd y g1 (by omega) 32 (by omega)
    refine ⟨k1, ?_, ?_⟩
    · intro j hj
      have := g2 j hj
      by_cases e1 : j < t ∨ t + 32 ≤ j
      · rw [k2 j e1]
        push_cast
        omega
      · have := k3 j (by omega) (by omega)
        push_cast
        omega
    · rw [k4, g3, show pv h (t + 1) = pv h t + 256 ^ t * (at' h t).v from rfl, e, pl_v]
      ring

theorem mulAdd_eq {h d : List V} {hb db : Bytes} (hh : AreBytes h hb) (hp : ∀ i, i < 32 → (at' h i).ty = .plain) (hd : AreBytes d db)
    (x : List V) (hl : x.length = 64) (h0 : ∀ j, j < 64 → 0 ≤ (at' x j).v ∧ (at' x j).v ≤ 255) :
    (mulAdd x h d).length = 64 ∧ (∀ j, j < 64 → -(2 ^ 22) ≤ (at' (mulAdd x h d) j).v ∧ (at' (mulAdd x h d) j).v ≤ 2 ^ 22) ∧
    pv (mulAdd x h d) 64 = pv x 64 + pv h 32 * pv d 32 := by
  obtain ⟨h1, h2, h3⟩ := mulAdd_inv hh hp hd x hl h0 32 (by omega)
  refine ⟨h1, fun j hj => ?_, h3⟩
  have := h2 j hj
  unfold mulAdd
  constructor
  · omega
  · exact Int.le_trans this.2 (by omega)

end Salt.Tweet
