import Verif.Lemmas.PureRaw
import Verif.Lemmas.Sign2

/-! C83, C84: the signature keys and the signatures of the pure Python backend. -/

namespace Salt.Props

open Salt.Tweet Salt.Spec Salt.Pure

attribute [local irreducible] scalarbase pack hashSha512 clampHash in
/-- C83: the public key of `crypto_sign_keypair_not_random` is that of RFC 8032, for every seed of 32 bytes; the secret
key is the seed followed by the public key. -/
theorem C83_keypair (seed : Bytes) (h : seed.length = 32) : signKeypair seed = .ok (edPublic seed, seed ++ edPublic seed) := by
  have hd := hash_bytes (areBytes_ofBytes seed) 32 (by omega) (by omega)
  rw [List.take_of_length_le (by omega)] at hd
  obtain ⟨y, e, hy⟩ := public_bytes hd (sha512_length seed)
  rw [signKeypair_raw]
  unfold Raw.signKeypair
  simp only
  rw [if_neg (by simpa using h), e, toBytes_of hy]
  rfl

/-- C83: a seed of another length is refused with ValueError. -/
theorem C83_length (seed : Bytes) (h : seed.length ≠ 32) : signKeypair seed = .error .valueError := by
  unfold signKeypair
  rw [if_pos h]
  rfl

/-- C83: the public key has 32 bytes and the secret key 64. -/
theorem C83_key_lengths (seed pk sk : Bytes) (h : signKeypair seed = .ok (pk, sk)) : pk.length = 32 ∧ sk.length = 64 ∧ sk = seed ++ pk := by
  by_cases hl : seed.length = 32
  · rw [C83_keypair seed hl] at h
    injection h with h
    injection h with h1 h2
    have := edEncode_length (edMul (edScalar seed) edBase)
    subst h1
    subst h2
    refine ⟨this, ?_, rfl⟩
    rw [List.length_append, hl, show (edPublic seed).length = 32 from this]
  · rw [C83_length seed hl] at h
    injection h

attribute [local irreducible] Tweet.sign in
/-- C84: `crypto_sign` gives the signature of RFC 8032 followed by the message, for every message (no Python `bytes`
object has 2^64 - 64 bytes) and every secret key of 64 bytes. -/
theorem C84_sign (m sk : Bytes) (h : sk.length = 64) (hm : m.length + 64 < 2 ^ 64) :
    Pure.sign m sk = .ok (edSign (sk.take 32) (sk.drop 32) m ++ m) := by
  have := sign_eq (sm := ofBytes (zeros (m.length + 64))) (areBytes_ofBytes _) (areBytes_ofBytes m) rfl (areBytes_ofBytes sk) h hm
  rw [sign_raw (Nat.le_of_eq h.symm) hm]
  unfold Raw.sign
  exact toBytes_of this

/-- C84: with a key pair made by `crypto_sign_keypair_not_random`. -/
theorem C84_sign_with_keypair (m seed pk sk : Bytes) (h : signKeypair seed = .ok (pk, sk)) (hm : m.length + 64 < 2 ^ 64) :
    Pure.sign m sk = .ok (edSign seed pk m ++ m) := by
  obtain ⟨h1, h2, h3⟩ := C83_key_lengths seed pk sk h
  have h4 : seed.length = 32 := by
    rw [h3, List.length_append] at h2
    omega
  rw [C84_sign m sk h2 hm, h3, List.take_left' h4, List.drop_left' h4]

/-- C84: the signature is 64 bytes long. -/
theorem C84_length (seed pk m : Bytes) : (edSign seed pk m).length = 64 := by
  unfold edSign
  simp only
  rw [List.length_append, edEncode_length, digits_length]

/-! ### Test vectors (RFC 8032, section 7.1) -/

/-- The encoding of a multiple of the base point, calculated with a fast power. -/
def encodeBaseF (e n : Nat) : Bytes :=
  let P := extMul extBase (n % orderL) 253 extZero
  let z := fastPow 255 P.Z e
  edEncode (P.X * z, P.Y * z)

theorem encodeBase_fast' (n e : Nat) (he : e = p25519 - 2) (h : e < 2 ^ 255) : edEncode (edMul n edBase) = encodeBaseF e n := by
  unfold encodeBaseF
  simp only
  rw [fastPow_eq _ _ _ h, pow_p2 _ _ he]
  have hl : n % orderL < 2 ^ 253 := Nat.lt_trans (Nat.mod_lt _ (by decide +kernel)) (by decide +kernel)
  obtain ⟨h1, h2, h3, -⟩ := base_mul (n % orderL) 253 hl
  rw [base_mod] at h2 h3
  rw [h2, h3, mul_assoc, mul_assoc, mul_inv_cancel₀ h1, mul_one, mul_one, show edBase = basePt.1 from rfl, edMul_eq]

theorem encodeBase_fast (n : Nat) : edEncode (edMul n edBase) = encodeBaseF (p25519 - 2) n :=
  encodeBase_fast' n _ rfl (by decide +kernel)

/-- The public key of test 1. -/
example : signKeypair (digitsBE 32 0x9d61b19deffd5a60ba844af492ec2cc44449c5697b326919703bac031cae7f60) =
    .ok (digitsBE 32 0xd75a980182b10ab7d54bfed3c964073a0ee172f3daa62325af021a68f707511a,
      digitsBE 64 0x9d61b19deffd5a60ba844af492ec2cc44449c5697b326919703bac031cae7f60d75a980182b10ab7d54bfed3c964073a0ee172f3daa62325af021a68f707511a) := by
  rw [C83_keypair _ (by decide)]
  unfold edPublic
  rw [encodeBase_fast]
  decide +kernel

/-- The signature of test 2, of a message of one byte. -/
example : Pure.sign [0x72] (digitsBE 64 0x4ccd089b28ff96da9db6c346ec114e0f5b8a319f35aba624da8cf6ed4fb8a6fb3d4017c3e843895a92b70aa74d1b7ebc9c982ccf2ec4968cc0cd55f12af4660c) =
    .ok (digitsBE 64 0x92a009a9f0d4cab8720e820b5f642540a2b27b5416503f8fb3762223ebdb69da085ac1e43e15996e458f3613d0f11d8c387b2eaeb4302aeeb00d291612bb0c00 ++ [0x72]) := by
  rw [C84_sign _ _ (by decide) (by decide)]
  unfold edSign
  simp only
  rw [encodeBase_fast]
  decide +kernel

end Salt.Props
