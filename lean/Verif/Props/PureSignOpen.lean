import Verif.Props.PureSign
import Verif.Lemmas.SignOpen

/-! C85, C86: opening signed messages in the pure Python backend. -/

namespace Salt.Props

open Salt.Tweet Salt.Spec Salt.Pure

theorem toBytes_take {y : List V} {a z : Bytes} (h : AreBytes y (a ++ z)) (n : Nat) (hn : a.length = n) :
    (do let m ← toBytes y; pure (m.take n) : Except Err Bytes) = .ok a := by
  rw [toBytes_of h]
  show Except.ok ((a ++ z).take n) = _
  rw [List.take_left' hn]

attribute [local irreducible] Tweet.signOpen in
/-- C86: exactly which signed messages `crypto_sign_open` accepts, for all byte strings and all public keys of 32 bytes (no
Python `bytes` object has 2^64 bytes).  The message is the part after the signature; otherwise the exception is NameError, since
the name of the intended one is not defined in the module.

The full claim has `EdValid 8` or `EdValid 1` in place of `EdLenient`, and BadSignatureException. -/
theorem C86_open_partial (w : Nat) (hw : 32 ≤ w) (sm pk : Bytes) (hp : pk.length = 32) (h64 : sm.length < 2 ^ 64) :
    (EdLenient pk (sm.drop 64) (sm.take 64) → Pure.signOpen w sm pk = .ok (sm.drop 64)) ∧
    (¬ EdLenient pk (sm.drop 64) (sm.take 64) → Pure.signOpen w sm pk = .error .nameError) := by
  obtain ⟨h1, h2⟩ := signOpen_eq hw (areBytes_ofBytes (zeros sm.length)) (by simp [zeros]) (areBytes_ofBytes sm) rfl (areBytes_ofBytes pk) hp h64
  rw [signOpen_raw hw hp h64]
  unfold Raw.signOpen
  constructor
  · intro h
    obtain ⟨y, e, z, hy⟩ := h1 h
    rw [e]
    exact toBytes_take hy _ (by simp)
  · intro h
    obtain ⟨y, e⟩ := h2 h
    rw [e]
    rfl

/-- C86: what is shorter than a signature is refused. -/
theorem C86_short (w : Nat) (sm pk : Bytes) (h : sm.length < 64) : Pure.signOpen w sm pk = .error .nameError := by
  unfold Pure.signOpen Chk.signOpen
  rw [if_pos h]
  rfl

/-! ### Conditions on points -/

theorem encode_num (A : Fp × Fp) : num (edEncode A) = A.2.val + 2 ^ 255 * (A.1.val % 2) := by
  unfold edEncode
  rw [num_digits, Nat.mod_eq_of_lt]
  have h1 := fp_val_lt A.2
  have h2 : p25519 < 2 ^ 255 := by decide +kernel
  have h3 : 2 ^ 255 * (A.1.val % 2) ≤ 2 ^ 255 * 1 := Nat.mul_le_mul_left _ (by omega)
  have h4 : (2 : Nat) ^ 255 + 2 ^ 255 = 256 ^ 32 := by norm_num
  omega

/-- The encoding of a point decodes to it. -/
theorem decodes_encode {A : Fp × Fp} (h : OnCurve A) : EdDecodes (edEncode A) A := by
  have h1 := fp_val_lt A.2
  have h2 : p25519 < 2 ^ 255 := by decide +kernel
  refine ⟨h, ?_, .inr ?_⟩
  · unfold decodeU
    rw [encode_num, Nat.add_mul_mod_self_left, Nat.mod_eq_of_lt (h1), ZMod.natCast_zmod_val]
  · rw [encode_num, Nat.add_mul_div_left _ _ (Nat.two_pow_pos _), Nat.div_eq_of_lt (h1), Nat.zero_add]

theorem encode_inj {A B : Fp × Fp} (hA : OnCurve A) (hB : OnCurve B) (h : edEncode A = edEncode B) : A = B :=
  decode_unique (decodes_encode hA) (h ▸ decodes_encode hB)

/-- `EdValid` in terms of the group. -/
theorem valid_iff (c : Nat) (m sig : Bytes) (A : EdPt) :
    EdValid c (edEncode A.1) m sig ↔ sig.length = 64 ∧ num (sig.drop 32) < orderL ∧ ∃ R : EdPt, edEncode R.1 = sig.take 32 ∧
      c • num (sig.drop 32) • basePt = c • R + c • num (sha512 (sig.take 32 ++ edEncode A.1 ++ m)) • A := by
  have key : ∀ (S k : Nat) (A R : EdPt), edMul c (edMul S edBase) = edAdd (edMul c R.1) (edMul c (edMul k A.1)) ↔
      c • S • basePt = c • R + c • k • A := by
    intro S k A R
    rw [show edBase = basePt.1 from rfl, edMul_eq, edMul_eq, edMul_eq, edMul_eq, edMul_eq]
    exact ⟨fun h => Subtype.ext h, fun h => congrArg Subtype.val h⟩
  unfold EdValid
  refine and_congr_right fun _ => and_congr_right fun _ => ?_
  constructor
  · rintro ⟨A', R, hA', h1, hR, h2, h3⟩
    have : A' = A.1 := encode_inj hA' A.2 h1
    subst this
    exact ⟨⟨R, hR⟩, h2, (key _ _ A ⟨R, hR⟩).mp h3⟩
  · rintro ⟨R, h2, h3⟩
    exact ⟨A.1, R.1, A.2, rfl, R.2, h2, (key _ _ A R).mpr h3⟩

/-- `EdLenient` in terms of the group, for the encoding of a point. -/
theorem lenient_iff (m sig : Bytes) (A : EdPt) :
    EdLenient (edEncode A.1) m sig ↔ sig.length = 64 ∧ ∃ R : EdPt, edEncode R.1 = sig.take 32 ∧
      num (sig.drop 32) • basePt = R + (num (sha512 (sig.take 32 ++ edEncode A.1 ++ m)) % orderL) • A := by
  have key : ∀ (S k : Nat) (A R : EdPt), edMul S edBase = edAdd R.1 (edMul k A.1) ↔ S • basePt = R + k • A := by
    intro S k A R
    rw [show edBase = basePt.1 from rfl, edMul_eq, edMul_eq]
    exact ⟨fun h => Subtype.ext h, fun h => congrArg Subtype.val h⟩
  unfold EdLenient
  refine and_congr_right fun _ => ?_
  constructor
  · rintro ⟨A', R, hA', hR, h2, h3⟩
    have : A' = A.1 := decode_unique hA' (decodes_encode A.2)
    subst this
    exact ⟨⟨R, hR⟩, h2, (key _ _ A ⟨R, hR⟩).mp h3⟩
  · rintro ⟨R, h2, h3⟩
    exact ⟨A.1, R.1, decodes_encode A.2, R.2, h2, (key _ _ A R).mpr h3⟩

theorem public_point (seed : Bytes) : edPublic seed = edEncode (edScalar seed • basePt).1 := by
  unfold edPublic
  rw [show edBase = basePt.1 from rfl, edMul_eq]

theorem mod_smul (k : Nat) {P : EdPt} (h : orderL • P = 0) : (k % orderL) • P = k • P := by
  conv_rhs => rw [← Nat.mod_add_div k orderL, add_nsmul, mul_nsmul, h, smul_zero, add_zero]

theorem order_smul (s : Nat) : orderL • s • basePt = 0 := by
  rw [← mul_nsmul', Nat.mul_comm, mul_nsmul', order_base, smul_zero]

/-- 8 times any multiple does not depend on multiples of the order. -/
theorem mod_smul_8 (k : Nat) (P : EdPt) : 8 • (k % orderL) • P = 8 • k • P := by
  have h : orderL • 8 • P = 0 := by
    rw [← mul_nsmul]
    exact mul_8L P
  rw [← mul_nsmul', ← mul_nsmul', Nat.mul_comm, Nat.mul_comm 8 k, mul_nsmul', mul_nsmul', mod_smul _ h]

/-! ### Signing and opening -/

/-- C85: the signatures of RFC 8032, which `crypto_sign` makes, are valid in the stronger sense. -/
theorem C85_valid (seed m : Bytes) : EdValid 1 (edPublic seed) m (edSign seed (edPublic seed) m) := by
  have hl := C84_length seed (edPublic seed) m
  rw [public_point] at hl ⊢
  rw [valid_iff]
  refine ⟨hl, ?_⟩
  unfold edSign at hl ⊢
  simp only at hl ⊢
  generalize num (sha512 ((sha512 seed).drop 32 ++ m)) = r at *
  rw [List.drop_left' (edEncode_length _), List.take_left' (edEncode_length _), num_digits, Nat.mod_eq_of_lt (cast_mod_lt _)]
  refine ⟨Nat.mod_lt _ (by decide +kernel), r • basePt, ?_, ?_⟩
  · rw [show edBase = basePt.1 from rfl, edMul_eq]
  · rw [one_nsmul, one_nsmul, one_nsmul, base_mod, add_nsmul, mul_nsmul']

/-- C85: what `crypto_sign` made with a key pair of `crypto_sign_keypair_not_random` is opened by `crypto_sign_open` with its
public key, which gives the message. -/
theorem C85_roundtrip (w : Nat) (hw : 32 ≤ w) (seed pk sk m : Bytes) (h : signKeypair seed = .ok (pk, sk)) (hm : m.length + 64 < 2 ^ 64) :
    ∃ sm, Pure.sign m sk = .ok sm ∧ Pure.signOpen w sm pk = .ok m := by
  refine ⟨_, C84_sign_with_keypair m seed pk sk h hm, ?_⟩
  obtain ⟨hpl, hsl, -⟩ := C83_key_lengths seed pk sk h
  have hl := C84_length seed pk m
  have hs : seed.length = 32 := by
    by_contra hn
    rw [C83_length seed hn] at h
    injection h
  have hpk : pk = edPublic seed := by
    rw [C83_keypair seed hs] at h
    injection h with h
    injection h with h1 h2
    exact h1.symm
  have ho := (C86_open_partial w hw (edSign seed pk m ++ m) pk hpl (by rw [List.length_append]; omega)).1
  rw [List.drop_left' hl, List.take_left' hl] at ho
  apply ho
  have hv := C85_valid seed m
  rw [← hpk] at hv
  rw [hpk, public_point] at hv ⊢
  rw [valid_iff] at hv
  obtain ⟨h1, h2, R, h3, h4⟩ := hv
  rw [lenient_iff]
  refine ⟨h1, R, h3, ?_⟩
  rw [one_nsmul, one_nsmul, one_nsmul] at h4
  rw [h4, mod_smul _ (order_smul _)]

/-! ### Comparison with RFC 8032 -/

/-- C86: whatever is accepted under a properly encoded key with S below the order has a valid signature. -/
theorem C86_sound (w : Nat) (hw : 32 ≤ w) (sm pk m : Bytes) (A : Fp × Fp) (hA : OnCurve A) (hp : edEncode A = pk) (h64 : sm.length < 2 ^ 64)
    (h : Pure.signOpen w sm pk = .ok m) (hS : num ((sm.take 64).drop 32) < orderL) : m = sm.drop 64 ∧ EdValid 8 pk m (sm.take 64) := by
  obtain ⟨h1, h2⟩ := C86_open_partial w hw sm pk (by rw [← hp]; exact edEncode_length A) h64
  have hl : EdLenient pk (sm.drop 64) (sm.take 64) := by
    by_contra hn
    rw [h2 hn] at h
    injection h
  rw [h1 hl] at h
  injection h with h
  refine ⟨h.symm, ?_⟩
  rw [← h]
  subst hp
  obtain ⟨P, rfl⟩ : ∃ P : EdPt, P.1 = A := ⟨⟨A, hA⟩, rfl⟩
  rw [lenient_iff] at hl
  rw [valid_iff]
  obtain ⟨l1, R, l2, l3⟩ := hl
  refine ⟨l1, hS, R, l2, ?_⟩
  rw [l3, smul_add, mod_smul_8]

/-- C86: for keys in the group of the base point, in particular those that `crypto_sign_keypair_not_random` makes, a message is
accepted with S below the order exactly if its signature is valid in the stronger sense. -/
theorem C86_iff (w : Nat) (hw : 32 ≤ w) (seed pk sk sm : Bytes) (h : signKeypair seed = .ok (pk, sk)) (h64 : sm.length < 2 ^ 64) :
    (Pure.signOpen w sm pk = .ok (sm.drop 64) ∧ num ((sm.take 64).drop 32) < orderL) ↔ EdValid 1 pk (sm.drop 64) (sm.take 64) := by
  obtain ⟨hpl, hsl, -⟩ := C83_key_lengths seed pk sk h
  have hs : seed.length = 32 := by
    by_contra hn
    rw [C83_length seed hn] at h
    injection h
  have hpk : pk = edPublic seed := by
    rw [C83_keypair seed hs] at h
    injection h with h
    injection h with h1 h2
    exact h1.symm
  obtain ⟨h1, h2⟩ := C86_open_partial w hw sm pk hpl h64
  have ho : Pure.signOpen w sm pk = .ok (sm.drop 64) ↔ EdLenient pk (sm.drop 64) (sm.take 64) := by
    constructor
    · intro h'
      by_contra hn
      rw [h2 hn] at h'
      injection h'
    · exact h1
  rw [ho, hpk, public_point, lenient_iff, valid_iff]
  constructor
  · rintro ⟨⟨l1, R, l2, l3⟩, l4⟩
    refine ⟨l1, l4, R, l2, ?_⟩
    rw [one_nsmul, one_nsmul, one_nsmul, l3, mod_smul _ (order_smul _)]
  · rintro ⟨l1, l4, R, l2, l3⟩
    refine ⟨⟨l1, R, l2, ?_⟩, l4⟩
    rw [one_nsmul, one_nsmul, one_nsmul] at l3
    rw [l3, mod_smul _ (order_smul _)]

/-- C86, violated: signatures are malleable.  With the order added to its second half, a signature is still accepted. -/
theorem C86_malleable (w : Nat) (hw : 32 ≤ w) (R m pk : Bytes) (S : Nat) (hR : R.length = 32) (hp : pk.length = 32) (h64 : m.length + 64 < 2 ^ 64)
    (hS : S + orderL < 2 ^ 256) (h : Pure.signOpen w (R ++ digits 32 S ++ m) pk = .ok m) :
    Pure.signOpen w (R ++ digits 32 (S + orderL) ++ m) pk = .ok m := by
  have hd := digits_length
  have key : ∀ T, T < 2 ^ 256 → ((R ++ digits 32 T ++ m).length < 2 ^ 64 ∧ (R ++ digits 32 T ++ m).drop 64 = m ∧ (R ++ digits 32 T ++ m).take 64 = R ++ digits 32 T ∧
      (R ++ digits 32 T).length = 64 ∧ (R ++ digits 32 T).take 32 = R ∧ num ((R ++ digits 32 T).drop 32) = T) := by
    intro T hT
    have hl : (R ++ digits 32 T).length = 64 := by rw [List.length_append, hd, hR]
    refine ⟨by rw [List.length_append, hl]; omega, List.drop_left' hl, List.take_left' hl, hl, List.take_left' hR, ?_⟩
    rw [List.drop_left' hR, num_digits, Nat.mod_eq_of_lt (Nat.lt_of_lt_of_le hT (by norm_num))]
  obtain ⟨a1, a2, a3, a4, a5, a6⟩ := key S (by omega)
  obtain ⟨b1, b2, b3, b4, b5, b6⟩ := key (S + orderL) hS
  obtain ⟨-, c2⟩ := C86_open_partial w hw _ pk hp a1
  obtain ⟨d1, -⟩ := C86_open_partial w hw _ pk hp b1
  rw [a2, a3] at c2
  rw [b2, b3] at d1
  have hl : EdLenient pk m (R ++ digits 32 S) := by
    by_contra hn
    rw [c2 hn] at h
    injection h
  apply d1
  unfold EdLenient at hl ⊢
  rw [a5, a6] at hl
  rw [b5, b6]
  obtain ⟨-, A, R', h1, h2, h3, h4⟩ := hl
  refine ⟨b4, A, R', h1, h2, h3, ?_⟩
  rw [← h4, show edBase = basePt.1 from rfl, edMul_eq, edMul_eq, add_nsmul, order_base, add_zero]

theorem zero_encode : edEncode (0, 1) = digits 32 1 := by
  unfold edEncode
  decide +kernel

theorem zero_on : OnCurve (0, 1) := by
  unfold OnCurve
  ring

theorem edMul_zero (k : Nat) : edMul k (0, 1) = (0, 1) := by
  rw [show ((0, 1) : Fp × Fp) = (0 : EdPt).1 from rfl, edMul_eq, smul_zero]

/-- A public key that decodes leniently to the neutral element, with S a multiple of the order. -/
theorem lenient_zero (pk m : Bytes) (j : Nat) (hj : orderL * j < 2 ^ 256) (h1 : decodeU pk = 1) :
    EdLenient pk m (digits 32 1 ++ digits 32 (orderL * j)) := by
  have hd := digits_length
  refine ⟨by rw [List.length_append, hd, hd], (0, 1), (0, 1), ⟨zero_on, h1.symm, .inl rfl⟩, zero_on, ?_, ?_⟩
  · rw [List.take_left' (hd _ _), zero_encode]
  · rw [List.drop_left' (hd _ _), num_digits, Nat.mod_eq_of_lt (Nat.lt_of_lt_of_le hj (by norm_num)), edMul_zero,
      show edBase = basePt.1 from rfl, edMul_eq, mul_nsmul, order_base, smul_zero]
    show _ = ((0 : EdPt) + (0 : EdPt)).1
    rw [add_zero]

/-- C86, violated: three signed messages that are accepted although their signatures are not valid, for every message: with S not
below the order; under a key whose y is not below p; and under a key with x = 0 and the sign bit set. -/
theorem C86_violated (w : Nat) (hw : 32 ≤ w) (m : Bytes) (h64 : m.length + 64 < 2 ^ 64) (c : Nat) :
    (∃ pk sig, pk.length = 32 ∧ Pure.signOpen w (sig ++ m) pk = .ok m ∧ (∃ A, OnCurve A ∧ edEncode A = pk) ∧ sig.length = 64 ∧ ¬ num (sig.drop 32) < orderL ∧ ¬ EdValid c pk m sig) ∧
    (∃ pk sig, pk.length = 32 ∧ Pure.signOpen w (sig ++ m) pk = .ok m ∧ p25519 ≤ num pk ∧ num pk < 2 ^ 255 ∧ ¬ EdValid c pk m sig) ∧
    (∃ pk sig, pk.length = 32 ∧ Pure.signOpen w (sig ++ m) pk = .ok m ∧ num pk = 1 + 2 ^ 255 ∧ ¬ EdValid c pk m sig) := by
  have hd := digits_length
  have key : ∀ pk j, pk.length = 32 → orderL * j < 2 ^ 256 → decodeU pk = 1 → Pure.signOpen w (digits 32 1 ++ digits 32 (orderL * j) ++ m) pk = .ok m := by
    intro pk j hp hj h1
    have hl : (digits 32 1 ++ digits 32 (orderL * j)).length = 64 := by rw [List.length_append, hd, hd]
    have := (C86_open_partial w hw (digits 32 1 ++ digits 32 (orderL * j) ++ m) pk hp (by rw [List.length_append, hl]; omega)).1
    rw [List.drop_left' hl, List.take_left' hl] at this
    exact this (lenient_zero pk m j hj h1)
  have bad : ∀ pk sig, (∀ A, OnCurve A → edEncode A ≠ pk) → ¬ EdValid c pk m sig := by
    rintro pk sig h ⟨-, -, A, R, hA, h1, -⟩
    exact h A hA h1
  refine ⟨⟨digits 32 1, digits 32 1 ++ digits 32 (orderL * 1), hd _ _, key _ 1 (hd _ _) (by decide +kernel) (by decide +kernel), ⟨(0, 1), zero_on, zero_encode⟩, by rw [List.length_append, hd, hd], ?_, ?_⟩,
    ⟨digits 32 (p25519 + 1), digits 32 1 ++ digits 32 (orderL * 0), hd _ _, key _ 0 (hd _ _) (by decide +kernel) (by decide +kernel), by decide +kernel, by decide +kernel, bad _ _ ?_⟩,
    ⟨digits 32 (1 + 2 ^ 255), digits 32 1 ++ digits 32 (orderL * 0), hd _ _, key _ 0 (hd _ _) (by decide +kernel) (by decide +kernel), by decide +kernel, bad _ _ ?_⟩⟩
  · decide +kernel
  · rintro ⟨-, h, -⟩
    revert h
    decide +kernel
  · intro A hA h
    have h1 := encode_num A
    rw [h] at h1
    have h2 : A.2.val < p25519 := ZMod.val_lt _
    have h3 : num (digits 32 (p25519 + 1)) = p25519 + 1 := by decide +kernel
    have h4 : p25519 + 1 < 2 ^ 255 := by decide +kernel
    rw [h3] at h1
    rcases Nat.mod_two_eq_zero_or_one A.1.val with h0 | h0 <;> rw [h0] at h1 <;> omega
  · intro A hA h
    have h1 := encode_num A
    rw [h] at h1
    have h2 : A.2.val < p25519 := ZMod.val_lt _
    have h3 : num (digits 32 (1 + 2 ^ 255)) = 1 + 2 ^ 255 := by decide +kernel
    have h4 : p25519 + 1 < 2 ^ 255 := by decide +kernel
    rw [h3] at h1
    rcases Nat.mod_two_eq_zero_or_one A.1.val with h0 | h0
    · rw [h0] at h1
      omega
    · have hy : A.2.val = 1 := by rw [h0] at h1; omega
      have hy' : A.2 = 1 := by
        rw [← ZMod.natCast_zmod_val A.2, hy, Nat.cast_one]
      rcases sq_eq (x := 0) (x' := A.1) (y := 1) zero_on (by rw [← hy']; exact hA) with hx | hx
      · rw [hx, ZMod.val_zero] at h0
        omega
      · rw [hx, neg_zero, ZMod.val_zero] at h0
        omega

/-! ### Examples -/

/-- RFC 8032, section 7.1, test 2: the signed message is opened. -/
example : Pure.signOpen 64 (digitsBE 64 0x92a009a9f0d4cab8720e820b5f642540a2b27b5416503f8fb3762223ebdb69da085ac1e43e15996e458f3613d0f11d8c387b2eaeb4302aeeb00d291612bb0c00 ++ [0x72])
    (digitsBE 32 0x3d4017c3e843895a92b70aa74d1b7ebc9c982ccf2ec4968cc0cd55f12af4660c) = .ok [0x72] := by
  have hk : signKeypair (digitsBE 32 0x4ccd089b28ff96da9db6c346ec114e0f5b8a319f35aba624da8cf6ed4fb8a6fb) =
      .ok (digitsBE 32 0x3d4017c3e843895a92b70aa74d1b7ebc9c982ccf2ec4968cc0cd55f12af4660c,
        digitsBE 64 0x4ccd089b28ff96da9db6c346ec114e0f5b8a319f35aba624da8cf6ed4fb8a6fb3d4017c3e843895a92b70aa74d1b7ebc9c982ccf2ec4968cc0cd55f12af4660c) := by
    rw [C83_keypair _ (by decide)]
    unfold edPublic
    rw [encodeBase_fast]
    decide +kernel
  obtain ⟨sm, h1, h2⟩ := C85_roundtrip 64 (by omega) _ _ _ [0x72] hk (by decide)
  have h3 : sm = digitsBE 64 0x92a009a9f0d4cab8720e820b5f642540a2b27b5416503f8fb3762223ebdb69da085ac1e43e15996e458f3613d0f11d8c387b2eaeb4302aeeb00d291612bb0c00 ++ [0x72] := by
    rw [C84_sign _ _ (by decide) (by decide)] at h1
    rw [← Except.ok.inj h1]
    unfold edSign
    simp only
    rw [encodeBase_fast]
    decide +kernel
  rw [← h3]
  exact h2

/-- A key and a signature of no use are refused: no point has y = 2. -/
example : Pure.signOpen 64 (List.replicate 70 1) (digits 32 2) = .error .nameError := by
  refine (C86_open_partial 64 (by omega) _ _ (digits_length _ _) (by decide)).2 ?_
  rintro ⟨-, A, -, ⟨h1, h2, -⟩, -⟩
  obtain ⟨x, y⟩ := A
  simp only at h2
  rw [h2, show decodeU (digits 32 2) = 2 by decide +kernel, on_iff_sq] at h1
  have key : ∀ u v : Fp, x ^ 2 * v = u → (x * v) * (x * v) = u * v := fun u v h => by rw [← h]; ring
  have h3 := key _ _ h1
  revert h3
  rw [edD_num]
  refine not_square _ ((p25519 - 1) / 2) (by decide +kernel) ?_ (by decide +kernel) _
  rw [← fastPow_eq 256 _ _ (by decide +kernel)]
  decide +kernel

/-- The hypotheses of `C86_sound` and `C86_malleable` are met by whatever is signed. -/
example (seed m : Bytes) (hs : seed.length = 32) (hm : m.length + 64 < 2 ^ 64) : ∃ pk R S A, OnCurve A ∧ edEncode A = pk ∧ S < orderL ∧ S + orderL < 2 ^ 256 ∧
    Pure.signOpen 64 (R ++ digits 32 S ++ m) pk = .ok m := by
  obtain ⟨sm, h1, h2⟩ := C85_roundtrip 64 (by omega) seed _ _ m (C83_keypair seed hs) hm
  rw [C84_sign_with_keypair m seed _ _ (C83_keypair seed hs) hm] at h1
  injection h1 with h1
  rw [← h1] at h2
  have hb : orderL + orderL < 2 ^ 256 := by decide +kernel
  refine ⟨edPublic seed, _, _, _, ?_, rfl, Nat.mod_lt _ (by decide +kernel), ?_, h2⟩
  · rw [show edBase = basePt.1 from rfl, edMul_eq]
    exact (edScalar seed • basePt).2
  · exact Nat.lt_of_le_of_lt (Nat.add_le_add_right (Nat.le_of_lt (Nat.mod_lt _ (by decide +kernel))) _) hb

end Salt.Props
