import Verif.Lemmas.Field2

/-! Lemmas on `sel25519` and `pack25519`. -/

namespace Salt.Tweet

open Salt.Spec

/-! ### Bitwise operations -/

theorem xor_cancel (x y : Int) : Int.xor x (Int.xor x y) = y := by
  have h : ∀ m n : Nat, m ^^^ (m ^^^ n) = n := by intro m n; rw [← Nat.xor_assoc, Nat.xor_self, Nat.zero_xor]
  cases x <;> cases y <;> simp [Int.xor, h]

theorem xor_cancel' (x y : Int) : Int.xor y (Int.xor x y) = x := by
  have h : ∀ m n : Nat, n ^^^ (m ^^^ n) = m := by
    intro m n
    rw [Nat.xor_comm m n, ← Nat.xor_assoc, Nat.xor_self, Nat.zero_xor]
  cases x <;> cases y <;> simp [Int.xor, h]

theorem xor_zero (x : Int) : Int.xor x 0 = x := by
  rw [show (0 : Int) = Int.ofNat 0 from rfl]
  cases x <;> simp [Int.xor]

theorem land_zero (x : Int) : Int.land 0 x = 0 := by
  rw [show (0 : Int) = Int.ofNat 0 from rfl]
  cases x <;> simp [Int.land, Nat.ldiff]

theorem land_neg_one (x : Int) : Int.land (-1) x = x := by
  rw [show (-1 : Int) = Int.negSucc 0 from rfl]
  cases x with
  | ofNat n =>
    simp only [Int.land]
    congr 1
    apply Nat.eq_of_testBit_eq
    intro i
    simp [Nat.testBit_ldiff]
  | negSucc n => simp [Int.land]

theorem xor_bound (k : Nat) (x y : Int) (hx : -2 ^ k ≤ x ∧ x < 2 ^ k) (hy : -2 ^ k ≤ y ∧ y < 2 ^ k) :
    -2 ^ k ≤ Int.xor x y ∧ Int.xor x y < 2 ^ k := by
  have e : ((2 : Int) ^ k) = ((2 ^ k : Nat) : Int) := by push_cast; rfl
  rw [e] at hx hy ⊢
  have h := fun m n (hm : m < 2 ^ k) (hn : n < 2 ^ k) => Nat.xor_lt_two_pow (n := k) (x := m) (y := n) hm hn
  generalize 2 ^ k = K at hx hy h ⊢
  cases x with
  | ofNat m =>
    cases y with
    | ofNat n =>
      have := h m n (by change _ ∧ (m : Int) < K at hx; omega) (by change _ ∧ (n : Int) < K at hy; omega)
      show -(K : Int) ≤ ((m ^^^ n : Nat) : Int) ∧ ((m ^^^ n : Nat) : Int) < K
      omega
    | negSucc n =>
      have := h m n (by change _ ∧ (m : Int) < K at hx; omega) (by omega)
      show -(K : Int) ≤ Int.negSucc (m ^^^ n) ∧ Int.negSucc (m ^^^ n) < K
      omega
  | negSucc m =>
    cases y with
    | ofNat n =>
      have := h m n (by omega) (by change _ ∧ (n : Int) < K at hy; omega)
      show -(K : Int) ≤ Int.negSucc (m ^^^ n) ∧ Int.negSucc (m ^^^ n) < K
      omega
    | negSucc n =>
      have := h m n (by omega) (by omega)
      show -(K : Int) ≤ ((m ^^^ n : Nat) : Int) ∧ ((m ^^^ n : Nat) : Int) < K
      omega

theorem land_mask (k : Nat) (x : Int) : Int.land x ((2 ^ k - 1 : Nat) : Int) = x % 2 ^ k := by
  cases x with
  | ofNat n =>
    show ((n &&& (2 ^ k - 1) : Nat) : Int) = _
    rw [Nat.and_two_pow_sub_one_eq_mod]
    push_cast
    rfl
  | negSucc n =>
    show ((Nat.ldiff (2 ^ k - 1) n : Nat) : Int) = _
    have hlt : n % 2 ^ k < 2 ^ k := Nat.mod_lt _ (Nat.two_pow_pos k)
    have e : Nat.ldiff (2 ^ k - 1) n = 2 ^ k - (n % 2 ^ k + 1) := by
      apply Nat.eq_of_testBit_eq
      intro i
      rw [Nat.testBit_ldiff, Nat.testBit_two_pow_sub_succ hlt, Nat.testBit_two_pow_sub_one, Nat.testBit_mod_two_pow]
      by_cases hi : i < k <;> simp [hi]
    rw [e]
    have e2 : ((2 : Int) ^ k) = ((2 ^ k : Nat) : Int) := by push_cast; rfl
    rw [e2]
    generalize 2 ^ k = K at *
    rw [Int.negSucc_eq, show (-((n : Int) + 1)) = (K - (n % K + 1 : Nat) : Nat) + (K : Int) * (-(n / K : Nat) - 1) by
      have := Nat.div_add_mod n K
      have h3 : (n : Int) = K * (n / K : Nat) + (n % K : Nat) := by exact_mod_cast this.symm
      rw [h3, Nat.cast_sub (by omega)]
      push_cast
      ring]
    rw [Int.add_mul_emod_self_left, Int.emod_eq_of_lt (by omega) (by omega)]

/-! ### `sel25519` -/

/-- One item of `sel25519`. -/
theorem sel_item {B : Int} (hB : B < 2 ^ 62) {x y : V} (hx : OkV B x) (hy : OkV B y) (s : Bool) :
    let t := (⟨.i64, if s then -1 else 0⟩ : V) &&& (x ^^^ y)
    OkV B (x ^^^ t) ∧ OkV B (y ^^^ t) ∧ (x ^^^ t).v = (if s then y.v else x.v) ∧ (y ^^^ t).v = (if s then x.v else y.v) := by
  intro t
  obtain ⟨x1, x2⟩ := hx
  obtain ⟨y1, y2⟩ := hy
  have hb := xor_bound 62 x.v y.v (by omega) (by omega)
  obtain ⟨e1, t1⟩ := typed_exact Int.xor x1 y1 (by omega) (by omega)
  have hl : Int.land (if s then -1 else 0) (Int.xor x.v y.v) = if s then Int.xor x.v y.v else 0 := by
    cases s
    · exact land_zero _
    · exact land_neg_one _
  obtain ⟨e2, t2⟩ := typed_exact Int.land (a := ⟨.i64, if s then -1 else 0⟩) (b := x ^^^ y) (.inr rfl) t1
    (by show -2 ^ 63 < Int.land (if s then -1 else 0) (typed Int.xor x y).v
        rw [e1, hl]; split <;> omega)
    (by show Int.land (if s then -1 else 0) (typed Int.xor x y).v < _
        rw [e1, hl]; split <;> omega)
  have e3 : t.v = if s then Int.xor x.v y.v else 0 := by
    refine e2.trans ?_
    show Int.land (if s then -1 else 0) (typed Int.xor x y).v = _
    rw [e1, hl]
  have t3 : t.ty = .plain ∨ t.ty = .i64 := t2
  have hxt : Int.xor x.v t.v = if s then y.v else x.v := by
    rw [e3]
    cases s
    · exact xor_zero _
    · exact xor_cancel _ _
  have hyt : Int.xor y.v t.v = if s then x.v else y.v := by
    rw [e3]
    cases s
    · exact xor_zero _
    · exact xor_cancel' _ _
  obtain ⟨e4, t4⟩ := typed_exact Int.xor x1 t3 (by rw [hxt]; split <;> omega) (by rw [hxt]; split <;> omega)
  obtain ⟨e5, t5⟩ := typed_exact Int.xor y1 t3 (by rw [hyt]; split <;> omega) (by rw [hyt]; split <;> omega)
  have e4' : (x ^^^ t).v = if s then y.v else x.v := e4.trans hxt
  have e5' : (y ^^^ t).v = if s then x.v else y.v := e5.trans hyt
  refine ⟨⟨t4, ?_⟩, ⟨t5, ?_⟩, e4', e5'⟩
  · rw [e4']; split <;> omega
  · rw [e5']; split <;> omega

theorem sel_loop (p q : List V) (c : V) (n : Nat) (hp : n ≤ p.length) (hq : n ≤ q.length) :
    (forRange n (p, q) fun i (p, q) =>
      let t := c &&& (at' p i ^^^ at' q i)
      (p.set i (at' p i ^^^ t), q.set i (at' q i ^^^ t))) =
    ((List.range n).map (fun i => at' p i ^^^ (c &&& (at' p i ^^^ at' q i))) ++ p.drop n,
     (List.range n).map (fun i => at' q i ^^^ (c &&& (at' p i ^^^ at' q i))) ++ q.drop n) := by
  induction n with
  | zero => rfl
  | succ n ih =>
    rw [forRange_succ, ih (by omega) (by omega)]
    have h1 : ∀ (f : Nat → V) (l : List V), n < l.length → at' ((List.range n).map f ++ l.drop n) n = at' l n := by
      intro f l hl
      unfold at'
      rw [List.getD_append_right _ _ _ _ (by simp)]
      simp
    have h2 : ∀ (f : Nat → V) (l : List V) (x : V), n < l.length →
        ((List.range n).map f ++ l.drop n).set n x = (List.range n).map f ++ x :: l.drop (n + 1) := by
      intro f l x hl
      rw [List.drop_eq_getElem_cons hl]
      have := set_mid ((List.range n).map f) (l.drop (n + 1)) l[n] x
      rwa [List.length_map, List.length_range] at this
    simp only [h1 _ p (by omega), h1 _ q (by omega), h2 _ p _ (by omega), h2 _ q _ (by omega), List.range_succ, List.map_append,
      List.map_cons, List.map_nil, List.append_assoc, List.singleton_append]

theorem sel_mask {b : V} {s : Bool} (hb : b.v = if s then 1 else 0) : i64 (b - 1).inv = ⟨.i64, if s then -1 else 0⟩ := by
  have h : b - 1 = pl (b.v - 1) := typed_right _ _ _ rfl
  rw [h, hb]
  cases s <;> rfl

/-- `sel25519` exchanges the arrays or leaves them as they are. -/
theorem sel_vals {B : Int} (hB : B < 2 ^ 62) {p q : List V} (hp : 16 ≤ p.length) (hq : 16 ≤ q.length)
    (op : ∀ i, i < 16 → OkV B (at' p i)) (oq : ∀ i, i < 16 → OkV B (at' q i)) {b : V} {s : Bool} (hb : b.v = if s then 1 else 0) :
    (sel25519 p q b).1.length = p.length ∧ (sel25519 p q b).2.length = q.length ∧
    ∀ i, i < 16 → OkV B (at' (sel25519 p q b).1 i) ∧ OkV B (at' (sel25519 p q b).2 i) ∧
      (at' (sel25519 p q b).1 i).v = (at' (if s then q else p) i).v ∧
      (at' (sel25519 p q b).2 i).v = (at' (if s then p else q) i).v := by
  unfold sel25519
  rw [sel_mask hb]
  simp only
  rw [sel_loop p q _ 16 hp hq]
  refine ⟨by simp; omega, by simp; omega, ?_⟩
  intro i hi
  rw [at'_map_range _ _ _ _ hi, at'_map_range _ _ _ _ hi]
  have h := sel_item hB (op i hi) (oq i hi) s
  cases s <;> exact h

theorem sel_plain {p q : List V} (hp : 16 ≤ p.length) (hq : 16 ≤ q.length) (b : V) (i : Nat) (hi : i < 16)
    (h : (at' p i).ty = .plain) : (at' (sel25519 p q b).1 i).ty = .plain := by
  unfold sel25519
  simp only
  rw [sel_loop p q _ 16 hp hq, at'_map_range _ _ _ _ hi]
  have : ∀ t : V, (at' p i ^^^ t).ty = .plain := by
    intro t
    show (typed Int.xor (at' p i) t).ty = _
    rw [typed_left _ _ _ h]
  exact this _

theorem part_congr {x y : List V} {n : Nat} (h : ∀ i, i < n → (at' x i).v = (at' y i).v) : part x n = part y n := by
  unfold part
  congr 1
  apply List.map_congr_left
  intro i hi
  exact h i (by simpa using hi)

theorem sel_fe {B : Int} (hB : B < 2 ^ 62) {p q : List V} {x y : Fp} (hp : Fe B p x) (hq : Fe B q y) {b : V} {s : Bool}
    (hb : b.v = if s then 1 else 0) :
    Fe B (sel25519 p q b).1 (if s then y else x) ∧ Fe B (sel25519 p q b).2 (if s then x else y) ∧
    (sel25519 p q b).1.length = p.length ∧ (sel25519 p q b).2.length = q.length := by
  obtain ⟨h1, h2, h3⟩ := sel_vals hB hp.1 hq.1 hp.2.1 hq.2.1 hb
  refine ⟨⟨by rw [h1]; exact hp.1, fun i hi => (h3 i hi).1, ?_⟩, ⟨by rw [h2]; exact hq.1, fun i hi => (h3 i hi).2.1, ?_⟩, h1, h2⟩
  · rw [part_congr (fun i hi => (h3 i hi).2.2.1), ← hp.2.2, ← hq.2.2]
    cases s <;> rfl
  · rw [part_congr (fun i hi => (h3 i hi).2.2.2), ← hp.2.2, ← hq.2.2]
    cases s <;> rfl

end Salt.Tweet
