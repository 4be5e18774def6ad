import Verif.Lemmas.Sha3

/-! SHA-512: the padding and the whole hash. -/

namespace Salt.Tweet

open Salt.Spec

theorem HasBytes.set {x : List V} {b : Bytes} (h : HasBytes x b) (i : Nat) (v : V) (c : UInt8) (hv : v.v = c.toNat) :
    HasBytes (x.set i v) (b.set i c) := by
  induction h generalizing i with
  | nil => exact .nil
  | cons h1 h2 ih =>
    cases i with
    | zero => exact .cons hv h2
    | succ i => exact .cons h1 (ih i)

theorem digitsBE_add (a b x : Nat) : digitsBE (a + b) x = digitsBE a (x / 256 ^ b) ++ digitsBE b x := by
  induction b generalizing x with
  | zero => simp [digitsBE]
  | succ b ih =>
    rw [← Nat.add_assoc]
    simp only [digitsBE]
    rw [ih, Nat.div_div_eq_div_mul, ← Nat.pow_succ', List.append_assoc]

theorem digitsBE_mod (n x : Nat) : digitsBE n (x % 256 ^ n) = digitsBE n x := by
  induction n generalizing x with
  | zero => rfl
  | succ n ih =>
    simp only [digitsBE]
    rw [Nat.pow_succ', Nat.mod_mul_right_div_self, ih]
    congr 2
    apply UInt8.toNat_inj.mp
    rw [UInt8.toNat_ofNat', UInt8.toNat_ofNat']
    exact Nat.mod_mod_of_dvd _ (Nat.dvd_mul_right _ _)

theorem digitsBE_zero (n : Nat) : digitsBE n 0 = List.replicate n 0 := by
  induction n with
  | zero => rfl
  | succ n ih => rw [List.replicate_succ', ← ih]; rfl

/-- The length field. -/
theorem length_field (n : Nat) (hn : n < 2 ^ 64) :
    digitsBE 16 (8 * n) = List.replicate 7 0 ++ [UInt8.ofNat (n / 2 ^ 61)] ++ digitsBE 8 (n * 8 % 2 ^ 64) := by
  rw [show 16 = 8 + 8 from rfl, digitsBE_add 8 8, show 2 ^ 64 = 256 ^ 8 from rfl, digitsBE_mod, Nat.mul_comm n 8]
  congr 1
  show digitsBE 7 (8 * n / 256 ^ 8 / 256) ++ [UInt8.ofNat (8 * n / 256 ^ 8)] = _
  have e1 : 8 * n / 256 ^ 8 / 256 = 0 := by omega
  have e2 : 8 * n / 256 ^ 8 = n / 2 ^ 61 := by omega
  rw [e1, e2, digitsBE_zero]

theorem set_replicate (r k i : Nat) (a : UInt8) (l : Bytes) (hl : l.length = r) (hi : i < k) :
    (l ++ List.replicate k 0).set (r + i) a = l ++ List.replicate i 0 ++ [a] ++ List.replicate (k - i - 1) 0 := by
  rw [List.set_append, if_neg (by omega), hl, show r + i - r = i by omega, List.append_assoc, List.append_assoc]
  congr 1
  apply List.ext_getElem
  · simp; omega
  · intro j h1 h2
    simp only [List.length_set, List.length_replicate] at h1
    rw [List.getElem_set, List.getElem_append]
    split
    · rename_i e
      subst e
      simp
    · rename_i e
      simp only [List.length_replicate, List.getElem_replicate]
      split
      · rfl
      · rw [List.getElem_append_right (by simp; omega)]
        simp

theorem shaLast_eq (m : List V) (mb : Bytes) (hm : HasBytes m mb) (n : Nat) (hn : n ≤ mb.length) (h64 : n < 2 ^ 64) :
    ∃ t, HasBytes (shaLast m n).1 ((pad (mb.take n)).drop (n - n % 128) ++ t) ∧
      (shaLast m n).2 = ((pad (mb.take n)).drop (n - n % 128)).length := by
  have hr : n % 128 < 128 := Nat.mod_lt _ (by omega)
  obtain ⟨r, er⟩ : ∃ r, r = n % 128 := ⟨_, rfl⟩
  obtain ⟨N, eN⟩ : ∃ N, N = 256 - 128 * (if r < 112 then 1 else 0) := ⟨_, rfl⟩
  have hN : N = 128 ∧ r < 112 ∨ N = 256 ∧ ¬ r < 112 := by rw [eN]; split <;> omega
  -- the specification
  have lm : (mb.take n).length = n := by rw [List.length_take]; omega
  have zz : (128 - (n + 17) % 128) % 128 = N - r - 17 := by omega
  have epad : (pad (mb.take n)).drop (n - r) =
      (mb.take n).drop (n - r) ++ [0x80] ++ List.replicate (N - r - 10) 0 ++ [UInt8.ofNat (n / 2 ^ 61)] ++ digitsBE 8 (n * 8 % 2 ^ 64) := by
    unfold pad
    rw [lm, zz, length_field n h64, List.append_assoc, List.append_assoc, List.drop_append_of_le_length (by omega)]
    rw [show N - r - 10 = (N - r - 17) + 7 by omega, ← List.replicate_append_replicate]
    simp only [List.append_assoc]
  -- the code
  have lA : ((mb.take n).drop (n - r)).length = r := by rw [List.length_drop, lm]; omega
  generalize hA : (mb.take n).drop (n - r) = A at epad lA
  have x1 : HasBytes (forRange r (intArray .u8 256) fun i x => x.set i (at' m (i + (n - r)))) (A ++ List.replicate (256 - r) 0) := by
    have e := forRange_set r 0 (intArray .u8 256) (fun i => at' m (i + (n - r))) (by rw [show (intArray .u8 256).length = 256 from List.length_replicate]; omega)
    simp only [Nat.add_zero, List.take_zero, List.nil_append, Nat.zero_add] at e
    rw [e]
    refine HasBytes.append ?_ ?_
    · have : A = (List.range r).map fun i => mb.getD (i + (n - r)) 0 := by
        rw [← hA]
        apply List.ext_getElem
        · rw [hA, lA]; simp
        · intro i g1 g2
          simp only [List.length_map, List.length_range] at g2
          simp [List.getElem?_eq_getElem (show i + (n - r) < mb.length by omega), Nat.add_comm]
      rw [this]
      have : ∀ l : List Nat, HasBytes (l.map fun i => at' m (i + (n - r))) (l.map fun i => mb.getD (i + (n - r)) 0) := by
        intro l
        induction l with
        | nil => exact .nil
        | cons i l ih => exact .cons (hm.at' _) ih
      exact this _
    · rw [show (intArray .u8 256).drop r = intArray .u8 (256 - r) by unfold intArray; rw [List.drop_replicate]]
      exact (areBytes_zeros _).has
  have x2 := (x1.set r 128 0x80 rfl).set (N - 9) (u64 ⟨.plain, (n : Int)⟩ >>> 61) (UInt8.ofNat (n / 2 ^ 61)) (by
    show (cast .u64 ((u64 ⟨.plain, (n : Int)⟩).v / 2 ^ 61)).v = _
    have e : u64 ⟨.plain, (n : Int)⟩ = w64 (UInt64.ofNat n) := cast_w64 n
    rw [e]
    show (cast .u64 (((UInt64.ofNat n).toNat : Int) / 2 ^ 61)).v = _
    rw [UInt64.toNat_ofNat', Nat.mod_eq_of_lt h64, show ((n : Int) / 2 ^ 61) = ((n / 2 ^ 61 : Nat) : Int) by push_cast; rfl,
      cast_nat _ (by simp)]
    simp only [Ty.bits, UInt8.toNat_ofNat']
    omega)
  have e1 := set_replicate r (256 - r) 0 0x80 A lA (by omega)
  rw [Nat.add_zero, List.replicate_zero, List.append_nil, show 256 - r - 0 - 1 = 255 - r by omega] at e1
  rw [e1] at x2
  have e2 := set_replicate (r + 1) (255 - r) (N - r - 10) (UInt8.ofNat (n / 2 ^ 61)) (A ++ [0x80]) (by simp [lA]) (by omega)
  rw [show r + 1 + (N - r - 10) = N - 9 by omega, show 255 - r - (N - r - 10) - 1 = 256 - N + 8 by omega] at e2
  rw [e2] at x2
  unfold shaLast
  simp only
  rw [← er, ← eN]
  have eb : u64 ⟨.plain, (n : Int)⟩ <<< 3 = w64 (UInt64.ofNat n <<< UInt64.ofNat 3) := by
    have e : u64 ⟨.plain, (n : Int)⟩ = w64 (UInt64.ofNat n) := cast_w64 n
    rw [e, shl_w64 _ _ (by omega)]
  rw [eb]
  generalize ((forRange r (intArray .u8 256) fun i x => x.set i (at' m (i + (n - r)))).set r 128).set (N - 9) (u64 ⟨.plain, (n : Int)⟩ >>> 61) = X at x2
  have lX := x2.length
  have lB : (A ++ [0x80] ++ List.replicate (N - r - 10) 0 ++ [UInt8.ofNat (n / 2 ^ 61)]).length = N - 8 := by
    simp [lA]; omega
  rw [List.length_append, lB, List.length_replicate] at lX
  obtain ⟨y, ey, hy⟩ := ts64_eq (X.drop (N - 8)) (UInt64.ofNat n <<< UInt64.ofNat 3) (by rw [List.length_drop]; omega)
  rw [ey]
  have ed : (UInt64.ofNat n <<< UInt64.ofNat 3).toNat = n * 8 % 2 ^ 64 := by
    rw [UInt64.toNat_shiftLeft, UInt64.toNat_ofNat', Nat.mod_eq_of_lt h64, show (UInt64.ofNat 3).toNat % 64 = 3 from rfl, Nat.shiftLeft_eq]
  rw [ed] at hy
  have t1 := x2.take (N - 8)
  have t2 := x2.drop (N - 8)
  rw [List.take_left' lB] at t1
  rw [List.drop_left' lB] at t2
  refine ⟨(List.replicate (256 - N + 8) 0).drop 8, ?_, ?_⟩
  · rw [epad]
    have := (t1.append hy.has).append (t2.drop 8)
    simp only [List.append_assoc] at this ⊢
    exact this
  · rw [epad, List.length_append, lB, digitsBE_length]
    omega

theorem wordsBE_digits (z : List UInt64) : wordsBE (z.flatMap fun a => digitsBE 8 a.toNat) = z := by
  induction z with
  | nil => rfl
  | cons a z ih =>
    rw [List.flatMap_cons]
    have : ∀ t, wordsBE (digitsBE 8 a.toNat ++ t) = a :: wordsBE t := by
      intro t
      simp only [digitsBE, List.nil_append, List.cons_append, wordsBE]
      congr 1
      apply UInt64.toNat_inj.mp
      rw [UInt64.toNat_ofNat']
      simp only [numBE, List.foldl_cons, List.foldl_nil, UInt8.toNat_ofNat']
      have := a.toNat_lt
      omega
    rw [this, ih]

theorem wordsBE_append (a b : Bytes) (q : Nat) (h : a.length = 8 * q) : wordsBE (a ++ b) = wordsBE a ++ wordsBE b := by
  have e := List.take_append_drop q (wordsBE (a ++ b))
  rw [← wordsBE_take, ← wordsBE_drop, ← h, List.take_left, List.drop_left] at e
  exact e.symm

theorem pad_length (m : Bytes) : (pad m).length % 128 = 0 := by
  unfold pad
  simp only [List.length_append, List.length_replicate, digitsBE_length, List.length_cons, List.length_nil]
  omega

theorem iv512_bytes : AreBytes iv512 (shaIV.flatMap fun a => digitsBE 8 a.toNat) := by
  have : iv512 = (shaIV.flatMap fun a => digitsBE 8 a.toNat).map fun b => ⟨.u8, (b.toNat : Int)⟩ := by decide +kernel
  rw [this]
  generalize (shaIV.flatMap fun a => digitsBE 8 a.toNat) = l
  induction l with
  | nil => exact .nil
  | cons b l ih => exact .cons ⟨.inl rfl, rfl⟩ ih

theorem copy_bytes {n : Nat} {x h : List V} {b : Bytes} (hh : AreBytes h b) (hb : b.length = n) (hx : n ≤ x.length) :
    (forRange n x fun i x => x.set i (at' h i)) = h ++ x.drop n := by
  have e := forRange_set n 0 x (fun i => at' h i) (by omega)
  simp only [Nat.add_zero, List.take_zero, List.nil_append, Nat.zero_add] at e
  rw [e]
  congr 1
  have hl := hh.length
  apply List.ext_getElem
  · simp; omega
  · intro i h1 h2
    simp [at', h2]

/-- `crypto_hash_sha512_tweet` computes SHA-512. -/
theorem hashSha512_eq (out m : List V) (mb : Bytes) (hm : HasBytes m mb) (n : Nat) (hn : n ≤ mb.length) (h64 : n < 2 ^ 64)
    (ho : 64 ≤ out.length) :
    ∃ y, hashSha512 out m n = y ++ out.drop 64 ∧ AreBytes y (sha512 (mb.take n)) := by
  have hiv : (shaIV.flatMap fun a => digitsBE 8 a.toNat).length = 64 := rfl
  have e0 : (forRange 64 (intArray .u8 64) fun i h => h.set i (at' iv512 i)) = iv512 := by
    rw [copy_bytes iv512_bytes hiv (by simp [intArray]), List.drop_of_length_le (by simp [intArray]), List.append_nil]
  have h1 := hashblocks_eq iv512 m _ mb n iv512_bytes.has hiv hm hn
  rw [wordsBE_digits] at h1
  obtain ⟨t, ht, hl⟩ := shaLast_eq m mb hm n hn h64
  have c1 := compressAll_length ((wordsBE mb).take (16 * (n / 128))) shaIV rfl
  have lg : ∀ l : List UInt64, (l.flatMap fun a => digitsBE 8 a.toNat).length = 8 * l.length := by
    intro l
    induction l with
    | nil => rfl
    | cons a l ih => rw [List.flatMap_cons, List.length_append, ih, digitsBE_length, List.length_cons]; omega
  have h2 := hashblocks_eq _ _ _ _ (shaLast m n).2 h1.has (by rw [lg, c1]) ht (by rw [hl, List.length_append]; omega)
  rw [wordsBE_digits] at h2
  have hp := pad_length (mb.take n)
  have lm : (mb.take n).length = n := by rw [List.length_take]; omega
  have lp : n ≤ (pad (mb.take n)).length := by
    unfold pad
    simp only [List.length_append, lm]
    omega
  have hdl : ((pad (mb.take n)).drop (n - n % 128)).length = (pad (mb.take n)).length - (n - n % 128) := List.length_drop
  have hw : wordsBE (pad (mb.take n)) = (wordsBE mb).take (16 * (n / 128)) ++ wordsBE ((pad (mb.take n)).drop (n - n % 128)) := by
    conv => lhs; rw [← List.take_append_drop (n - n % 128) (pad (mb.take n))]
    rw [wordsBE_append _ _ (16 * (n / 128)) (by rw [List.length_take]; omega)]
    congr 1
    have : (pad (mb.take n)).take (n - n % 128) = mb.take (n - n % 128) := by
      unfold pad
      rw [List.append_assoc, List.append_assoc, List.take_append_of_le_length (by omega), List.take_take,
        Nat.min_eq_left (by omega)]
    rw [this, show n - n % 128 = 8 * (16 * (n / 128)) by omega, wordsBE_take]
  have hlw := wordsBE_length mb
  have key : compressAll (compressAll shaIV ((wordsBE mb).take (16 * (n / 128))))
      ((wordsBE ((pad (mb.take n)).drop (n - n % 128) ++ t)).take (16 * ((shaLast m n).2 / 128))) =
      compressAll shaIV (wordsBE (pad (mb.take n))) := by
    rw [hw, compressAll_append _ _ _ (n / 128) (by rw [List.length_take, hlw]; omega), hl,
      wordsBE_append _ _ (16 * (((pad (mb.take n)).drop (n - n % 128)).length / 128)) (by omega),
      List.take_append_of_le_length (by rw [wordsBE_length]; omega),
      List.take_of_length_le (l := wordsBE ((pad (mb.take n)).drop (n - n % 128))) (by rw [wordsBE_length]; omega)]
  rw [key] at h2
  unfold hashSha512
  simp only [e0]
  refine ⟨_, copy_bytes h2 ?_ ho, h2⟩
  rw [lg, compressAll_length _ _ rfl]

end Salt.Tweet
