import Verif.Lemmas.Field6

/-! The ladder of `crypto_scalarmult_curve25519_tweet` is that of RFC 7748. -/

namespace Salt.Tweet

open Salt.Spec

theorem digits_length (n : Nat) : ∀ x, (digits n x).length = n := by
  induction n with
  | zero => intro x; rfl
  | succ n ih => intro x; rw [digits, List.length_cons, ih]

/-! ### Bits of the scalar -/

theorem areBytes_of_at {x : List V} {b : Bytes} (hl : x.length = b.length) (h : ∀ i, i < b.length → IsByte (at' x i) (b.getD i 0)) :
    AreBytes x b := by
  induction b generalizing x with
  | nil =>
    have : x = [] := by simpa using hl
    subst this
    exact .nil
  | cons c b ih =>
    cases x with
    | nil => simp at hl
    | cons a x =>
      refine .cons (h 0 (by simp)) (ih (by simpa using hl) ?_)
      intro i hi
      exact h (i + 1) (by simpa using hi)

theorem testBit_num (b : Bytes) : ∀ i, (num b).testBit i = (b.getD (i / 8) 0).toNat.testBit (i % 8) := by
  induction b with
  | nil => intro i; simp [num]
  | cons x b ih =>
    intro i
    have hx := x.toNat_lt
    have e : num (x :: b) = 2 ^ 8 * num b + x.toNat := by simp only [num]; omega
    rw [e, Nat.testBit_two_pow_mul_add _ hx]
    by_cases hi : i < 8
    · rw [if_pos hi, show i / 8 = 0 by omega, show i % 8 = i by omega]
      rfl
    · rw [if_neg hi, ih, show i / 8 = (i - 8) / 8 + 1 by omega, show i % 8 = (i - 8) % 8 by omega]
      rfl

theorem scalar_bit {z : List V} {zb : Bytes} (hz : AreBytes z zb) (i : Nat) :
    ((at' z (i >>> 3) >>> (i &&& 7)) &&& 1 : V).v = if (num zb).testBit i then 1 else 0 := by
  rw [testBit_num, show i &&& 7 = i % 8 from Nat.and_two_pow_sub_one_eq_mod i 3, show i >>> 3 = i / 8 from Nat.shiftRight_eq_div_pow i 3]
  have h := hz.at' (i / 8)
  generalize zb.getD (i / 8) 0 = b at h ⊢
  have hb := b.toNat_lt
  obtain ⟨h1, h2⟩ := h
  generalize at' z (i / 8) = x at h1 h2 ⊢
  obtain ⟨t, v⟩ := x
  simp only at h1 h2
  subst h2
  have e1 : ((⟨t, (b.toNat : Int)⟩ : V) >>> (i % 8)).v = ((b.toNat / 2 ^ (i % 8) : Nat) : Int) := by
    show (cast t ((b.toNat : Int) / 2 ^ (i % 8))).v = _
    rw [show (b.toNat : Int) / 2 ^ (i % 8) = ((b.toNat / 2 ^ (i % 8) : Nat) : Int) by push_cast; rfl]
    rcases h1 with rfl | rfl
    · rw [cast_nat _ (by simp)]
      show ((_ % 2 ^ 8 : Nat) : Int) = _
      rw [Nat.mod_eq_of_lt (Nat.lt_of_le_of_lt (Nat.div_le_self _ _) hb)]
    · rfl
  generalize (⟨t, (b.toNat : Int)⟩ : V) >>> (i % 8) = y at e1 ⊢
  have e2 : (y &&& 1 : V) = pl (Int.land y.v 1) := typed_right _ _ _ rfl
  rw [e2, e1]
  have e3 : ∀ q : Nat, (pl (Int.land (q : Int) 1)).v = (q : Int) % 2 := fun q => land_mask 1 (q : Int)
  rw [e3, Nat.testBit_eq_decide_div_mod_eq]
  generalize b.toNat / 2 ^ (i % 8) = q
  by_cases hq : q % 2 = 1
  · rw [if_pos (by simpa using hq)]; omega
  · rw [if_neg (by simpa using hq)]; omega

theorem clamp_bytes {n : List V} {nb : Bytes} (hn : AreBytes n nb) (hl : nb.length = 32) :
    AreBytes (clampScalar n) ((nb.set 0 (nb.getD 0 0 &&& 248)).set 31 ((nb.getD 31 0 &&& 127) ||| 64)) := by
  unfold clampScalar
  simp only
  rw [forRange_set0 31 _ _ (by decide)]
  have hlen : ((List.range 31).map (fun i => at' n i) ++ (intArray .u8 32).drop 31).length = 32 := by simp [intArray]
  have hat : ∀ i, i < 31 → at' ((List.range 31).map (fun i => at' n i) ++ (intArray .u8 32).drop 31) i = at' n i :=
    fun i hi => at'_map_range _ _ _ _ hi
  generalize (List.range 31).map (fun i => at' n i) ++ (intArray .u8 32).drop 31 = z at *
  have hand : ∀ (x : V) (b m : UInt8), IsByte x b → IsByte (x &&& pl m.toNat) (b &&& m) := by
    intro x b m hx
    have e : x &&& pl m.toNat = pl (Int.land x.v m.toNat) := typed_right _ _ _ rfl
    rw [e, hx.2]
    refine ⟨.inr rfl, ?_⟩
    show ((b.toNat &&& m.toNat : Nat) : Int) = _
    rw [UInt8.toNat_and]
  have hor : ∀ (x : V) (b m : UInt8), IsByte x b → IsByte (x ||| pl m.toNat) (b ||| m) := by
    intro x b m hx
    have e : x ||| pl m.toNat = pl (Int.lor x.v m.toNat) := typed_right _ _ _ rfl
    rw [e, hx.2]
    refine ⟨.inr rfl, ?_⟩
    show ((b.toNat ||| m.toNat : Nat) : Int) = _
    rw [UInt8.toNat_or]
  apply areBytes_of_at
  · simp [hlen, hl]
  · intro i hi
    have hi' : i < 32 := by simpa [hl] using hi
    rw [at'_set _ _ _ _ (by simp [hlen]), at'_set _ _ _ _ (by omega), at'_set _ _ _ _ (by omega)]
    by_cases h0 : i = 0
    · subst h0
      rw [if_pos rfl, if_neg (by omega), hat 0 (by omega)]
      have h := hand _ _ 248 (hn.at' 0)
      have e : ((nb.set 0 (nb.getD 0 0 &&& 248)).set 31 ((nb.getD 31 0 &&& 127) ||| 64)).getD 0 0 = nb.getD 0 0 &&& 248 := by simp [hl]
      rw [e]
      exact h
    · rw [if_neg h0]
      by_cases h31 : i = 31
      · subst h31
        rw [if_pos rfl]
        have h := hor _ _ 64 (hand _ _ 127 (hn.at' 31))
        have e : ((nb.set 0 (nb.getD 0 0 &&& 248)).set 31 ((nb.getD 31 0 &&& 127) ||| 64)).getD 31 0 = (nb.getD 31 0 &&& 127) ||| 64 := by simp [hl]
        rw [e]
        exact h
      · rw [if_neg h31, hat i (by omega)]
        have := hn.at' i
        simpa [Ne.symm h0, Ne.symm h31] using this

/-! ### The ladder -/

theorem A17 {o a b : List V} {x y : Fp} (ho : 16 ≤ o.length) (ha : Fe (2 ^ 17) a x) (hb : Fe (2 ^ 17) b y) :
    Fe (2 ^ 18) (A o a b) (x + y) := (A_fe ho ha hb (by omega)).1

theorem Z17 {o a b : List V} {x y : Fp} (ho : 16 ≤ o.length) (ha : Fe (2 ^ 17) a x) (hb : Fe (2 ^ 17) b y) :
    Fe (2 ^ 18) (Z o a b) (x - y) := (Z_fe ho ha hb (by omega)).1

theorem M18 {o a b : List V} {x y : Fp} (ho : 16 ≤ o.length) (ha : Fe (2 ^ 18) a x) (hb : Fe (2 ^ 18) b y) :
    Fe (2 ^ 17) (M o a b) (x * y) := (M_fe ho ha hb (by omega)).1.mono (by omega)

theorem up {x : List V} {z : Fp} (h : Fe (2 ^ 17) x z) : Fe (2 ^ 18) x z := h.mono (by omega)

theorem c121665_fe : Fe (2 ^ 18) c121665 121665 := by
  refine ⟨by decide, ?_, ?_⟩
  · have : ∀ i, i < 16 → ((at' c121665 i).ty = .plain ∨ (at' c121665 i).ty = .i64) ∧ -262144 ≤ (at' c121665 i).v ∧ (at' c121665 i).v ≤ 262144 := by
      decide
    exact this
  · rw [show part c121665 16 = ((121665 : Nat) : Int) by decide]
    rw [Int.cast_natCast]
    rfl

/-- The relation between the arrays of the code and the variables of the specification. -/
def LadderRel (s : Ladder) (m : MLadder) : Prop :=
  Fe (2 ^ 17) s.a (cswap m.swap m.x2 m.x3).1 ∧ Fe (2 ^ 17) s.b (cswap m.swap m.x2 m.x3).2 ∧
  Fe (2 ^ 17) s.c (cswap m.swap m.z2 m.z3).1 ∧ Fe (2 ^ 17) s.d (cswap m.swap m.z2 m.z3).2 ∧
  16 ≤ s.e.length ∧ 16 ≤ s.f.length

theorem ladder_step {z x : List V} {zb : Bytes} (hz : AreBytes z zb) {x1 : Fp} (hx : Fe (2 ^ 17) x x1) (i : Nat) {s : Ladder} {m : MLadder}
    (h : LadderRel s m) : LadderRel (ladderStep z x i s) (mladderStep x1 m ((num zb).testBit i)) := by
  obtain ⟨ha, hb, hc, hd, he, hf⟩ := h
  obtain ⟨a, b, c, d, e, f⟩ := s
  obtain ⟨x2, z2, x3, z3, sw⟩ := m
  simp only at ha hb hc hd he hf
  have hr := scalar_bit hz i
  unfold ladderStep
  simp only
  generalize ((at' z (i >>> 3) >>> (i &&& 7)) &&& 1 : V) = r at hr ⊢
  generalize (num zb).testBit i = kt at hr ⊢
  obtain ⟨a1, b1, _, _⟩ := sel_fe (by omega) ha hb hr
  obtain ⟨c1, d1, _, _⟩ := sel_fe (by omega) hc hd hr
  generalize hX2 : (cswap (sw ^^ kt) x2 x3).1 = X2
  generalize hX3 : (cswap (sw ^^ kt) x2 x3).2 = X3
  generalize hZ2 : (cswap (sw ^^ kt) z2 z3).1 = Z2
  generalize hZ3 : (cswap (sw ^^ kt) z2 z3).2 = Z3
  have w1 : (if kt then (cswap sw x2 x3).2 else (cswap sw x2 x3).1) = X2 := by rw [← hX2]; cases kt <;> cases sw <;> rfl
  have w2 : (if kt then (cswap sw x2 x3).1 else (cswap sw x2 x3).2) = X3 := by rw [← hX3]; cases kt <;> cases sw <;> rfl
  have w3 : (if kt then (cswap sw z2 z3).2 else (cswap sw z2 z3).1) = Z2 := by rw [← hZ2]; cases kt <;> cases sw <;> rfl
  have w4 : (if kt then (cswap sw z2 z3).1 else (cswap sw z2 z3).2) = Z3 := by rw [← hZ3]; cases kt <;> cases sw <;> rfl
  rw [w1] at a1
  rw [w2] at b1
  rw [w3] at c1
  rw [w4] at d1
  generalize sel25519 a b r = ab at a1 b1 ⊢
  generalize sel25519 c d r = cd at c1 d1 ⊢
  obtain ⟨a, b⟩ := ab
  obtain ⟨c, d⟩ := cd
  simp only at a1 b1 c1 d1 ⊢
  have e2 := A17 he a1 c1
  have a2 := Z17 a1.1 a1 c1
  have c2 := A17 c1.1 b1 d1
  have b2 := Z17 b1.1 b1 d1
  generalize A e a c = e at *
  generalize Z a a c = a at *
  generalize A c b d = c at *
  generalize Z b b d = b at *
  have d2 : Fe (2 ^ 17) (S d e) _ := M18 d1.1 e2 e2
  have f2 : Fe (2 ^ 17) (S f a) _ := M18 hf a2 a2
  have a3 := M18 a2.1 c2 a2
  have c3 := M18 c2.1 b2 e2
  generalize S d e = d at *
  generalize S f a = f at *
  generalize M a c a = a at *
  generalize M c b e = c at *
  have e3 := A17 e2.1 a3 c3
  have a4 := Z17 a3.1 a3 c3
  generalize A e a c = e at *
  generalize Z a a c = a at *
  have b3 : Fe (2 ^ 17) (S b a) _ := M18 b2.1 a4 a4
  have c4 := Z17 c3.1 d2 f2
  generalize S b a = b at *
  generalize Z c d f = c at *
  have a5 := M18 a4.1 c4 c121665_fe
  generalize M a c c121665 = a at *
  have a6 := A17 a5.1 a5 d2
  generalize A a a d = a at *
  have c5 := M18 c4.1 c4 a6
  have a7 := M18 a6.1 (up d2) (up f2)
  generalize M c c a = c at *
  generalize M a d f = a at *
  have d3 := M18 d2.1 (up b3) (up hx)
  have b4 : Fe (2 ^ 17) (S b e) _ := M18 b3.1 e3 e3
  generalize M d b x = d at *
  generalize S b e = b at *
  obtain ⟨a8, b5, _, _⟩ := sel_fe (by omega) a7 b4 hr
  obtain ⟨c6, d4, _, _⟩ := sel_fe (by omega) c5 d3 hr
  unfold mladderStep
  simp only [hX2, hX3, hZ2, hZ3]
  refine ⟨?_, ?_, ?_, ?_, e3.1, f2.1⟩
  · convert a8 using 1
    cases kt
    · show (X2 + Z2) ^ 2 * (X2 - Z2) ^ 2 = _
      simp only [if_false, Bool.false_eq_true]; ring
    · show ((X3 - Z3) * (X2 + Z2) + (X3 + Z3) * (X2 - Z2)) ^ 2 = _
      simp only [if_true]; ring
  · convert b5 using 1
    cases kt
    · show ((X3 - Z3) * (X2 + Z2) + (X3 + Z3) * (X2 - Z2)) ^ 2 = _
      simp only [if_false, Bool.false_eq_true]; ring
    · show (X2 + Z2) ^ 2 * (X2 - Z2) ^ 2 = _
      simp only [if_true]; ring
  · convert c6 using 1
    cases kt
    · show ((X2 + Z2) ^ 2 - (X2 - Z2) ^ 2) * ((X2 + Z2) ^ 2 + 121665 * ((X2 + Z2) ^ 2 - (X2 - Z2) ^ 2)) = _
      simp only [if_false, Bool.false_eq_true]; ring
    · show x1 * ((X3 - Z3) * (X2 + Z2) - (X3 + Z3) * (X2 - Z2)) ^ 2 = _
      simp only [if_true]; ring
  · convert d4 using 1
    cases kt
    · show x1 * ((X3 - Z3) * (X2 + Z2) - (X3 + Z3) * (X2 - Z2)) ^ 2 = _
      simp only [if_false, Bool.false_eq_true]; ring
    · show ((X2 + Z2) ^ 2 - (X2 - Z2) ^ 2) * ((X2 + Z2) ^ 2 + 121665 * ((X2 + Z2) ^ 2 - (X2 - Z2) ^ 2)) = _
      simp only [if_true]; ring

theorem ladder_run {z x : List V} {zb : Bytes} (hz : AreBytes z zb) {x1 : Fp} (hx : Fe (2 ^ 17) x x1) (n : Nat) :
    ∀ (N k : Nat) {s : Ladder} {m : MLadder}, N = n + k → LadderRel (forRange k s fun k s => ladderStep z x (N - 1 - k) s) m →
    LadderRel (forRange N s fun k s => ladderStep z x (N - 1 - k) s) (mladder x1 (num zb) n m) := by
  induction n with
  | zero =>
    intro N k s m hN h
    rw [show N = k by omega] at h ⊢
    exact h
  | succ n ih =>
    intro N k s m hN h
    rw [mladder]
    apply ih N (k + 1) (by omega)
    rw [forRange_succ]
    have := ladder_step hz hx (N - 1 - k) h
    rw [show N - 1 - k = n by omega] at this ⊢
    exact this

theorem fe_const {B : Int} {x : List V} (hl : 16 ≤ x.length) (c : Int) (hok : ∀ i, i < 16 → OkV B (at' x i))
    (hv : ∀ i, i < 16 → (at' x i).v = if i = 0 then c else 0) : Fe B x (c : Fp) := by
  refine ⟨hl, hok, ?_⟩
  have h : ∀ n, n < 16 → part x (n + 1) = c := by
    intro n
    induction n with
    | zero =>
      intro h
      rw [part_succ, hv 0 (by omega)]
      simp [part, num16]
    | succ n ih =>
      intro h
      rw [part_succ, ih (by omega), hv _ h, if_neg (by omega)]
      omega
  rw [h 15 (by omega)]

/-- The state at the start of the main loop. -/
def ladderInit (x : List V) (n : Nat) : Ladder :=
  forRange n ⟨gf [], gf [], gf [], gf [], gf [], gf []⟩ fun i s =>
    { s with b := s.b.set i (at' x i), d := s.d.set i 0, a := s.a.set i 0, c := s.c.set i 0 }

theorem ladder_init (x : List V) (n : Nat) (hn : n ≤ 16) :
    let s := ladderInit x n
    s.a.length = 16 ∧ s.b.length = 16 ∧ s.c.length = 16 ∧ s.d.length = 16 ∧ s.e.length = 16 ∧ s.f.length = 16 ∧
    ∀ i, i < n → at' s.a i = pl 0 ∧ at' s.b i = at' x i ∧ at' s.c i = pl 0 ∧ at' s.d i = pl 0 := by
  induction n with
  | zero => exact ⟨rfl, rfl, rfl, rfl, rfl, rfl, fun i hi => absurd hi (by omega)⟩
  | succ n ih =>
    obtain ⟨h1, h2, h3, h4, h5, h6, h7⟩ := ih (by omega)
    unfold ladderInit at *
    rw [forRange_succ]
    refine ⟨by simpa using h1, by simpa using h2, by simpa using h3, by simpa using h4, h5, h6, ?_⟩
    intro i hi
    simp only
    rw [at'_set _ _ _ _ (by omega), at'_set _ _ _ _ (by omega), at'_set _ _ _ _ (by omega), at'_set _ _ _ _ (by omega)]
    by_cases e : i = n
    · rw [if_pos e, if_pos e, if_pos e, if_pos e, e]
      exact ⟨rfl, rfl, rfl, rfl⟩
    · rw [if_neg e, if_neg e, if_neg e, if_neg e]
      exact h7 i (by omega)

theorem ok_pl {B c : Int} (h1 : -B ≤ c) (h2 : c ≤ B) : OkV B (pl c) := ⟨.inl rfl, h1, h2⟩

attribute [local irreducible] ladderInit in
theorem ladder_start {x : List V} {x1 : Fp} (hx : Fe (2 ^ 17) x x1) :
    LadderRel { ladderInit x 16 with a := (ladderInit x 16).a.set 0 1, d := (ladderInit x 16).d.set 0 1 } ⟨1, 0, x1, 1, false⟩ := by
  obtain ⟨h1, h2, h3, h4, h5, h6, h7⟩ := ladder_init x 16 (by omega)
  have one : ∀ y : List V, y.length = 16 → (∀ i, i < 16 → at' y i = pl 0) → Fe (2 ^ 17) (y.set 0 1) 1 := by
    intro y hy h0
    have := fe_const (B := 2 ^ 17) (x := y.set 0 1) (by simp [hy]) 1 ?_ ?_
    · rwa [Int.cast_one] at this
    · intro i hi
      rw [at'_set _ _ _ _ (by omega)]
      split
      · exact ok_pl (c := 1) (by omega) (by omega)
      · rw [h0 i hi]; exact ok_pl (by omega) (by omega)
    · intro i hi
      rw [at'_set _ _ _ _ (by omega)]
      split
      · rfl
      · rw [h0 i hi]; rfl
  refine ⟨one _ h1 (fun i hi => (h7 i hi).1), ?_, ?_, one _ h4 (fun i hi => (h7 i hi).2.2.2), by rw [h5], by rw [h6]⟩
  · show Fe (2 ^ 17) (ladderInit x 16).b x1
    refine ⟨by omega, ?_, ?_⟩
    · intro i hi
      rw [(h7 i hi).2.1]
      exact hx.2.1 i hi
    · rw [part_congr (y := x) (fun i hi => by rw [(h7 i hi).2.1]), hx.2.2]
  · have := fe_const (B := 2 ^ 17) (x := (ladderInit x 16).c) (by omega) 0 ?_ ?_
    · rwa [Int.cast_zero] at this
    · intro i hi
      rw [(h7 i hi).2.2.1]
      exact ok_pl (by omega) (by omega)
    · intro i hi
      rw [(h7 i hi).2.2.1]
      split <;> rfl

/-- The copy of the result into `x`. -/
def ladderOut (x a b c d : List V) (n : Nat) : List V :=
  forRange n x fun i x => (((x.set (i + 16) (at' a i)).set (i + 32) (at' c i)).set (i + 48) (at' b i)).set (i + 64) (at' d i)

theorem ladder_out (x a b c d : List V) (hx : x.length = 80) (n : Nat) (hn : n ≤ 16) :
    (ladderOut x a b c d n).length = 80 ∧
    ∀ i, i < n → at' (ladderOut x a b c d n) (i + 16) = at' a i ∧ at' (ladderOut x a b c d n) (i + 32) = at' c i := by
  induction n with
  | zero => exact ⟨hx, fun i hi => absurd hi (by omega)⟩
  | succ n ih =>
    obtain ⟨h1, h2⟩ := ih (by omega)
    unfold ladderOut at *
    rw [forRange_succ]
    refine ⟨by simpa using h1, ?_⟩
    intro i hi
    have s4 : ∀ (t : List V), t.length = 80 → ∀ (j : Nat) (v1 v2 v3 v4 : V),
        at' ((((t.set (n + 16) v1).set (n + 32) v2).set (n + 48) v3).set (n + 64) v4) j =
          if j = n + 64 then v4 else if j = n + 48 then v3 else if j = n + 32 then v2 else if j = n + 16 then v1 else at' t j := by
      intro t ht j v1 v2 v3 v4
      rw [at'_set _ _ _ _ (by simp; omega), at'_set _ _ _ _ (by simp; omega), at'_set _ _ _ _ (by simp; omega), at'_set _ _ _ _ (by omega)]
    rw [s4 _ h1, s4 _ h1]
    by_cases e : i = n
    · subst e
      rw [if_neg (by omega), if_neg (by omega), if_neg (by omega), if_pos rfl, if_neg (by omega), if_neg (by omega), if_pos rfl]
      exact ⟨rfl, rfl⟩
    · rw [if_neg (by omega), if_neg (by omega), if_neg (by omega), if_neg (by omega), if_neg (by omega), if_neg (by omega), if_neg (by omega), if_neg (by omega)]
      exact h2 i (by omega)

theorem at'_drop (x : List V) (k i : Nat) : at' (x.drop k) i = at' x (i + k) := by
  unfold at'
  rw [List.getD_eq_getElem?_getD, List.getD_eq_getElem?_getD, List.getElem?_drop, Nat.add_comm]

theorem fe_congr {B : Int} {x y : List V} {z : Fp} (hx : Fe B x z) (hl : 16 ≤ y.length) (h : ∀ i, i < 16 → at' y i = at' x i) : Fe B y z := by
  refine ⟨hl, fun i hi => by rw [h i hi]; exact hx.2.1 i hi, ?_⟩
  rw [part_congr (y := x) (fun i hi => by rw [h i hi]), hx.2.2]

attribute [local irreducible] forRange in
theorem scalarmultCurve_unfold (q n p : List V) :
    scalarmultCurve q n p =
      (let x := unpack25519 (intArray .i64 80) p
       let s := forRange 255 { ladderInit x 16 with a := (ladderInit x 16).a.set 0 1, d := (ladderInit x 16).d.set 0 1 }
         fun k s => ladderStep (clampScalar n) x (254 - k) s
       let x := ladderOut x s.a s.b s.c s.d 16
       let x := x.take 32 ++ inv25519 (x.drop 32) (x.drop 32)
       let x := x.take 16 ++ M (x.drop 16) (x.drop 16) (x.drop 32)
       pack25519 q (x.drop 16)) := rfl

theorem mladder_run (x1 : Fp) (zb : Bytes) (N : Nat) (hN : N = 255) {z x : List V} (hz : AreBytes z zb) (hx : Fe (2 ^ 17) x x1) (s : Ladder) (m : MLadder)
    (h : LadderRel s m) :
    LadderRel (forRange 255 s fun k s => ladderStep z x (254 - k) s) (mladder x1 (num zb) N m) := by
  have := ladder_run hz hx N N 0 (s := s) (m := m) rfl h
  subst hN
  exact this

/-- The result of `crypto_scalarmult_curve25519_tweet` on arrays of bytes: X25519 of RFC 7748. -/
theorem scalarmultCurve_eq {q n p : List V} {nb pb : Bytes} (hn : AreBytes n nb) (hp : AreBytes p pb) (hnl : nb.length = 32) (hpl : pb.length = 32)
    (hq : q.length = 32) : AreBytes (scalarmultCurve q n p) (x25519 nb pb) := by
  rw [scalarmultCurve_unfold]
  have hz := clamp_bytes hn hnl
  obtain ⟨hx, hxl⟩ := unpack_fe (o := intArray .i64 80) hp hpl (by simp [intArray])
  replace hx := hx.mono (C := 2 ^ 17) (by omega)
  rw [show (intArray .i64 80).length = 80 by simp [intArray]] at hxl
  simp only
  generalize unpack25519 (intArray .i64 80) p = x at hx hxl ⊢
  have hr := mladder_run (decodeU pb) _ 255 rfl hz hx _ _ (ladder_start hx)
  generalize forRange 255 _ _ = s at hr ⊢
  unfold x25519 decodeScalar
  simp only
  generalize mladder (decodeU pb) _ 255 _ = m at hr ⊢
  obtain ⟨ha, -, hc, -⟩ := hr
  obtain ⟨hol, ho⟩ := ladder_out x s.a s.b s.c s.d hxl 16 (by omega)
  generalize ladderOut x s.a s.b s.c s.d 16 = x at hol ho ⊢
  have hc' := fe_congr (y := x.drop 32) hc (by simp; omega) (fun i hi => by rw [at'_drop]; exact (ho i hi).2)
  obtain ⟨hi, hil⟩ := inv_fe (o := x.drop 32) hc' (by omega) (by simp; omega)
  generalize inv25519 (x.drop 32) (x.drop 32) = y at hi hil ⊢
  have hyl : y.length = 48 := by rw [hil]; simp; omega
  have htl : (x.take 32).length = 32 := by simp; omega
  generalize p25519 - 2 = e at hi ⊢
  have hy : Fe (2 ^ 20) ((x.take 32 ++ y).drop 32) ((cswap m.swap m.z2 m.z3).1 ^ e) := by rw [List.drop_left' htl]; exact hi
  have ha' := fe_congr (y := (x.take 32 ++ y).drop 16) ha (by simp; omega) (fun i hi => by
    rw [at'_drop]
    rw [← (ho i hi).1]
    unfold at'
    rw [List.getD_append _ _ _ _ (by omega)]
    rw [List.getD_eq_getElem?_getD, List.getD_eq_getElem?_getD, List.getElem?_take_of_lt (by omega)])
  obtain ⟨hm, -⟩ := M_fe (o := (x.take 32 ++ y).drop 16) (by simp; omega) ha' hy (by omega)
  generalize M ((x.take 32 ++ y).drop 16) ((x.take 32 ++ y).drop 16) ((x.take 32 ++ y).drop 32) = w at hm ⊢
  have htl2 : ((x.take 32 ++ y).take 16).length = 16 := by simp; omega
  rw [List.drop_left' htl2]
  obtain ⟨v, hv, hb⟩ := pack_eq (o := q) (by omega) hm (by omega)
  rw [hv, List.drop_of_length_le (by omega), List.append_nil]
  exact hb

end Salt.Tweet
