import Verif.Lemmas.Field5

/-! Lemmas on `unpack25519` and powers. -/

namespace Salt.Tweet

open Salt.Spec

/-! ### Unpacking -/

theorem unpack_item {x y : V} {a b : UInt8} (hx : IsByte x a) (hy : IsByte y b) :
    OkV 65535 (x + i64 y <<< 8) ∧ (x + i64 y <<< 8).v = a.toNat + 256 * b.toNat := by
  obtain ⟨t, v⟩ := x
  obtain ⟨h1, h2⟩ := hx
  simp only at h1 h2
  have ha := a.toNat_lt
  have hb := b.toNat_lt
  have e1 : i64 y <<< 8 = ⟨.i64, (b.toNat : Int) * 256⟩ := by
    unfold i64
    rw [hy.2, cast_exact (.inr rfl) (by omega) (by omega)]
    show cast .i64 _ = _
    simp only
    rw [cast_exact (.inr rfl) (by omega) (by omega)]
    rfl
  rw [e1]
  subst h2
  rcases h1 with rfl | rfl
  · have e2 : (⟨.u8, (a.toNat : Int)⟩ : V) + ⟨.i64, (b.toNat : Int) * 256⟩ = ⟨.i64, (a.toNat : Int) + (b.toNat : Int) * 256⟩ := by
      show typed _ _ _ = _
      unfold typed promote
      rw [if_neg (by simp [Ty.order]), if_neg (by simp [Ty.order])]
      exact cast_exact (.inr rfl) (x := (a.toNat : Int) + (b.toNat : Int) * 256) (by omega) (by omega)
    rw [e2]
    exact ⟨⟨.inr rfl, by show -65535 ≤ (a.toNat : Int) + (b.toNat : Int) * 256; omega,
      by show (a.toNat : Int) + (b.toNat : Int) * 256 ≤ 65535; omega⟩, by show (a.toNat : Int) + (b.toNat : Int) * 256 = _; omega⟩
  · have e2 : (⟨.plain, (a.toNat : Int)⟩ : V) + ⟨.i64, (b.toNat : Int) * 256⟩ = pl ((a.toNat : Int) + (b.toNat : Int) * 256) :=
      typed_left _ _ _ rfl
    rw [e2]
    exact ⟨⟨.inl rfl, by show -65535 ≤ (a.toNat : Int) + (b.toNat : Int) * 256; omega,
      by show (a.toNat : Int) + (b.toNat : Int) * 256 ≤ 65535; omega⟩, by show (a.toNat : Int) + (b.toNat : Int) * 256 = _; omega⟩

theorem num_pairs (n : Nat) : ∀ b : Bytes, b.length = 2 * n →
    num16 ((List.range n).map fun i => ((b.getD (2 * i) 0).toNat : Int) + 256 * ((b.getD (2 * i + 1) 0).toNat : Int)) = (num b : Int) := by
  induction n with
  | zero =>
    intro b hb
    have : b = [] := by simpa using hb
    subst this
    rfl
  | succ n ih =>
    intro b hb
    match b, hb with
    | x :: y :: b, hb =>
      rw [List.range_succ_eq_map, List.map_cons, List.map_map]
      simp only [num16, num, Function.comp_def]
      have := ih b (by simp at hb; omega)
      simp only [Nat.mul_add, List.getD_cons_zero, List.getD_cons_succ, Nat.mul_zero, Nat.zero_add,
        show ∀ i : Nat, 2 * Nat.succ i = 2 * i + 1 + 1 from fun i => by omega]
      rw [this]
      push_cast
      omega

theorem num_lt (b : Bytes) : num b < 256 ^ b.length := by
  induction b with
  | nil => simp [num]
  | cons x b ih =>
    have := x.toNat_lt
    simp only [num, List.length_cons, pow_succ]
    generalize 256 ^ b.length = K at *
    omega

/-- `unpack25519` reads a number, without its highest bit. -/
theorem unpack_fe {o n : List V} {b : Bytes} (hn : AreBytes n b) (hb : b.length = 32) (ho : 16 ≤ o.length) :
    Fe 65535 (unpack25519 o n) (decodeU b) ∧ (unpack25519 o n).length = o.length := by
  unfold unpack25519
  simp only
  rw [forRange_set0 16 o _ ho]
  have hitem : ∀ i, i < 16 → at' ((List.range 16).map (fun i => at' n (2 * i) + i64 (at' n (2 * i + 1)) <<< 8) ++ o.drop 16) i =
      at' n (2 * i) + i64 (at' n (2 * i + 1)) <<< 8 := fun i hi => at'_map_range _ _ _ _ hi
  have hlen : ((List.range 16).map (fun i => at' n (2 * i) + i64 (at' n (2 * i + 1)) <<< 8) ++ o.drop 16).length = o.length := by
    simp; omega
  generalize (List.range 16).map (fun i => at' n (2 * i) + i64 (at' n (2 * i + 1)) <<< 8) ++ o.drop 16 = x at *
  have hv := fun i => unpack_item (hn.at' (2 * i)) (hn.at' (2 * i + 1))
  have h15 : at' x 15 &&& 0x7fff = pl ((at' x 15).v % 32768) := by
    refine (typed_right _ _ _ rfl).trans ?_
    show pl (Int.land (at' x 15).v ((2 ^ 15 - 1 : Nat) : Int)) = _
    rw [land_mask]
    rfl
  have hx15 : (at' x 15).v = ((b.getD 30 0).toNat : Int) + 256 * ((b.getD 31 0).toNat : Int) := by
    rw [hitem 15 (by omega)]
    exact (hv 15).2
  rw [h15]
  refine ⟨⟨by simp; omega, ?_, ?_⟩, by simp [hlen]⟩
  · intro i hi
    rw [at'_set _ _ _ _ (by omega)]
    split
    · refine ⟨.inl rfl, ?_, ?_⟩
      · show (-65535 : Int) ≤ (at' x 15).v % 32768; omega
      · show (at' x 15).v % 32768 ≤ 65535; omega
    · rw [hitem i hi]
      exact (hv i).1
  · have e : part (x.set 15 (pl ((at' x 15).v % 32768))) 16 = ((num b % 2 ^ 255 : Nat) : Int) := by
      have hp := num_pairs 16 b hb
      rw [List.range_succ, List.map_append, num16_append] at hp
      rw [part_succ, at'_set _ _ _ _ (by omega), if_pos rfl]
      have hlow : part (x.set 15 (pl ((at' x 15).v % 32768))) 15 =
          num16 ((List.range 15).map fun i => ((b.getD (2 * i) 0).toNat : Int) + 256 * ((b.getD (2 * i + 1) 0).toNat : Int)) := by
        unfold part
        congr 1
        apply List.map_congr_left
        intro i hi
        have hi' : i < 15 := by simpa using hi
        rw [at'_set _ _ _ _ (by omega), if_neg (by omega), hitem i (by omega)]
        exact (hv i).2
      rw [hlow]
      have hr := num16_range ((List.range 15).map fun i => ((b.getD (2 * i) 0).toNat : Int) + 256 * ((b.getD (2 * i + 1) 0).toNat : Int)) (by
        intro d hd
        obtain ⟨i, _, rfl⟩ := List.mem_map.mp hd
        have h1 := (b.getD (2 * i) 0).toNat_lt
        have h2 := (b.getD (2 * i + 1) 0).toNat_lt
        unfold Dig
        omega)
      simp only [List.length_map, List.length_range] at hr hp
      generalize num16 ((List.range 15).map fun i => ((b.getD (2 * i) 0).toNat : Int) + 256 * ((b.getD (2 * i + 1) 0).toNat : Int)) = lo at *
      simp only [List.map_cons, List.map_nil, num16, Int.mul_zero, Int.add_zero] at hp
      rw [show 2 * 15 = 30 from rfl, ← hx15] at hp
      show lo + 65536 ^ 15 * ((at' x 15).v % 32768) = _
      have hx0 : 0 ≤ (at' x 15).v := by rw [hx15]; omega
      generalize (at' x 15).v = X at *
      omega
    rw [e]
    rfl

/-! ### Powers -/

/-- The exponents in `inv25519`. -/
def invExp : Nat → Nat
  | 0 => 1
  | k + 1 => 2 * invExp k + if 253 - k ≠ 2 ∧ 253 - k ≠ 4 then 1 else 0

theorem invExp_254 : invExp 254 = p25519 - 2 := by decide +kernel

/-- The exponents in `pow2523`. -/
def powExp : Nat → Nat
  | 0 => 1
  | k + 1 => 2 * powExp k + if 250 - k ≠ 1 then 1 else 0

theorem powExp_251 : powExp 251 = (p25519 - 5) / 8 := by decide +kernel

theorem pow_step {i c : List V} {x y : Fp} {B : Int} (hi : Fe B i x) (hB : B ≤ 2 ^ 20) (hc : Fe (2 ^ 20) c y) (e : Prop) [Decidable e] :
    Fe (2 ^ 20) (if e then M (S c c) (S c c) i else S c c) (y * y * if e then x else 1) ∧
      (if e then M (S c c) (S c c) i else S c c).length = c.length := by
  obtain ⟨s1, s2⟩ := M_fe hc.1 hc hc (by omega)
  split
  · obtain ⟨m1, m2⟩ := M_fe (o := S c c) (by show 16 ≤ (M c c c).length; rw [s2]; exact hc.1) (by exact s1) hi (by omega)
    exact ⟨m1.mono (by omega), m2.trans s2⟩
  · rw [mul_one]
    exact ⟨s1.mono (by omega), s2⟩

theorem inv_loop {i : List V} {x : Fp} {B : Int} (hi : Fe B i x) (hB : B ≤ 2 ^ 20) (k : Nat) :
    Fe (2 ^ 20) (forRange k (forRange 16 (gf []) fun a c => c.set a (at' i a)) fun k c =>
      if 253 - k ≠ 2 ∧ 253 - k ≠ 4 then M (S c c) (S c c) i else S c c) (x ^ invExp k) := by
  induction k with
  | zero =>
    rw [forRange_zero, invExp, pow_one]
    exact (fe_of_range (gf []) (fun a => at' i a) x (by decide) hi.2.1 hi.2.2).1.mono hB
  | succ k ih =>
    rw [forRange_succ]
    have := (pow_step hi hB ih (253 - k ≠ 2 ∧ 253 - k ≠ 4)).1
    rw [invExp, pow_add, two_mul, pow_add]
    have e : (x ^ if 253 - k ≠ 2 ∧ 253 - k ≠ 4 then 1 else 0) = if 253 - k ≠ 2 ∧ 253 - k ≠ 4 then x else 1 := by
      split
      · rw [pow_one]
      · rw [pow_zero]
    rw [e]
    exact this

theorem inv_fe' {o i : List V} {x : Fp} {B : Int} (hi : Fe B i x) (hB : B ≤ 2 ^ 20) (ho : 16 ≤ o.length) (e N : Nat) (hN : N = 254) (he : e = invExp N) :
    Fe (2 ^ 20) (inv25519 o i) (x ^ e) ∧ (inv25519 o i).length = o.length := by
  have h := inv_loop hi hB N
  rw [← he] at h
  unfold inv25519
  rw [← hN]
  exact fe_of_range o (fun a => at' _ a) _ ho h.2.1 h.2.2

theorem inv_fe {o i : List V} {x : Fp} {B : Int} (hi : Fe B i x) (hB : B ≤ 2 ^ 20) (ho : 16 ≤ o.length) :
    Fe (2 ^ 20) (inv25519 o i) (x ^ (p25519 - 2)) ∧ (inv25519 o i).length = o.length :=
  inv_fe' hi hB ho _ 254 rfl invExp_254.symm

theorem pow_loop {i : List V} {x : Fp} {B : Int} (hi : Fe B i x) (hB : B ≤ 2 ^ 20) (k : Nat) :
    Fe (2 ^ 20) (forRange k (forRange 16 (gf []) fun a c => c.set a (at' i a)) fun k c =>
      if 250 - k ≠ 1 then M (S c c) (S c c) i else S c c) (x ^ powExp k) := by
  induction k with
  | zero =>
    rw [forRange_zero, powExp, pow_one]
    exact (fe_of_range (gf []) (fun a => at' i a) x (by decide) hi.2.1 hi.2.2).1.mono hB
  | succ k ih =>
    rw [forRange_succ]
    have := (pow_step hi hB ih (250 - k ≠ 1)).1
    rw [powExp, pow_add, two_mul, pow_add]
    have e : (x ^ if 250 - k ≠ 1 then 1 else 0) = if 250 - k ≠ 1 then x else 1 := by
      split
      · rw [pow_one]
      · rw [pow_zero]
    rw [e]
    exact this

theorem pow2523_fe' {o i : List V} {x : Fp} {B : Int} (hi : Fe B i x) (hB : B ≤ 2 ^ 20) (ho : 16 ≤ o.length) (e N : Nat) (hN : N = 251) (he : e = powExp N) :
    Fe (2 ^ 20) (pow2523 o i) (x ^ e) ∧ (pow2523 o i).length = o.length := by
  have h := pow_loop hi hB N
  rw [← he] at h
  unfold pow2523
  rw [← hN]
  exact fe_of_range o (fun a => at' _ a) _ ho h.2.1 h.2.2

theorem pow2523_fe {o i : List V} {x : Fp} {B : Int} (hi : Fe B i x) (hB : B ≤ 2 ^ 20) (ho : 16 ≤ o.length) :
    Fe (2 ^ 20) (pow2523 o i) (x ^ ((p25519 - 5) / 8)) ∧ (pow2523 o i).length = o.length :=
  pow2523_fe' hi hB ho _ 251 rfl powExp_251.symm

end Salt.Tweet
