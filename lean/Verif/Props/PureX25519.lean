import Verif.Lemmas.PureRaw
import Verif.Lemmas.X25519
import Verif.Lemmas.Core
import Verif.Spec.Sha512

/-! C81, C82: the key agreement of the pure Python backend. -/

namespace Salt.Props

open Salt.Tweet Salt.Spec Salt.Pure

theorem x25519_length (k u : Bytes) : (x25519 k u).length = 32 := Tweet.digits_length _ _

theorem nine_bytes : AreBytes nine base9 :=
  areBytes_of_at (by decide) (by
    have : ∀ i, i < 32 → ((at' nine i).ty = .u8 ∧ (at' nine i).v = ((base9.getD i 0).toNat : Int)) := by decide
    intro i hi
    exact ⟨.inl (this i hi).1, (this i hi).2⟩)

/-- C81: the public key of `crypto_box_keypair_not_random` is X25519 of the secret key and 9, for every secret key of
32 bytes; the secret key is returned as given. -/
theorem C81_keypair (sk : Bytes) (h : sk.length = 32) : boxKeypair sk = .ok (x25519 sk base9, sk) := by
  have hb := scalarmultCurve_eq (q := intArray .u8 32) (areBytes_ofBytes sk) nine_bytes h rfl (by simp [intArray])
  rw [boxKeypair_raw]
  unfold Raw.boxKeypair scalarmultCurveBase
  rw [if_neg (by simpa using h)]
  generalize scalarmultCurve _ _ _ = y at hb ⊢
  rw [toBytes_of hb]
  rfl

/-- C81: a secret key of another length is refused with ValueError. -/
theorem C81_length (sk : Bytes) (h : sk.length ≠ 32) : boxKeypair sk = .error .valueError := by
  unfold boxKeypair
  rw [if_pos h]
  rfl

/-- C81: the public key has 32 bytes. -/
theorem C81_public_length (sk pk sk' : Bytes) (h : boxKeypair sk = .ok (pk, sk')) : pk.length = 32 ∧ sk' = sk := by
  by_cases hl : sk.length = 32
  · rw [C81_keypair sk hl] at h
    injection h with h
    injection h with h1 h2
    exact ⟨by rw [← h1]; exact Tweet.digits_length _ _, h2.symm⟩
  · rw [C81_length sk hl] at h
    injection h

/-- C82: `crypto_box_beforenm` is HSalsa20 under the X25519 shared secret, of the zero nonce. -/
theorem C82_beforenm (w : Nat) (hw : 32 ≤ w) (pk sk : Bytes) (hp : pk.length = 32) (hs : sk.length = 32) :
    boxBeforenm w pk sk = .ok (hsalsa20 (x25519 sk pk) (List.replicate 16 0)) := by
  have hb := scalarmultCurve_eq (q := intArray .u8 32) (areBytes_ofBytes sk) (areBytes_ofBytes pk) hs hp (by simp [intArray])
  rw [boxBeforenm_raw w (Nat.le_of_eq hp.symm) (Nat.le_of_eq hs.symm)]
  unfold Raw.boxBeforenm Tweet.boxBeforenm
  simp only
  generalize scalarmultCurve _ _ _ = y at hb ⊢
  have h0 : AreBytes (intArray .u8 16) (List.replicate 16 0) :=
    areBytes_of_at (by decide) (by
      have : ∀ i, i < 16 → ((at' (intArray .u8 16) i).ty = .u8 ∧ (at' (intArray .u8 16) i).v = (((List.replicate 16 (0 : UInt8)).getD i 0).toNat : Int)) := by
        decide
      intro i hi
      exact ⟨.inl (this i hi).1, (this i hi).2⟩)
  have hc := core_hsalsa hw (out := intArray .u8 32) hb (x25519_length _ _) h0 (by decide) (by simp [intArray])
  rw [show (List.replicate 16 (0 : UInt8)).take 16 = List.replicate 16 0 from rfl] at hc
  exact toBytes_of hc

/-- `x25519` with a fast power. -/
def x25519F (e : Nat) (k u : Bytes) : Bytes :=
  let x1 := decodeU u
  let s := mladder x1 (decodeScalar k) 255 ⟨1, 0, x1, 1, false⟩
  encodeU ((cswap s.swap s.x2 s.x3).1 * fastPow 255 (cswap s.swap s.z2 s.z3).1 e)

theorem x25519_fast' (k u : Bytes) (e : Nat) (he : e = p25519 - 2) (h : e < 2 ^ 255) : x25519 k u = x25519F e k u := by
  unfold x25519 x25519F
  simp only
  rw [← he, fastPow_eq _ _ _ h]

theorem x25519_fast (k u : Bytes) : x25519 k u = x25519F (p25519 - 2) k u :=
  x25519_fast' k u _ rfl (by decide +kernel)

/-! ### Test vectors -/

/-- RFC 7748, section 5.2. -/
example : x25519 (digitsBE 32 0xa546e36bf0527c9d3b16154b82465edd62144c0ac1fc5a18506a2244ba449ac4)
    (digitsBE 32 0xe6db6867583030db3594c1a424b15f7c726624ec26b3353b10a903a6d0ab1c4c) =
    digitsBE 32 0xc3da55379de9c6908e94ea4df28d084f32eccf03491c71f754b4075577a28552 := by
  rw [x25519_fast]
  decide +kernel

/-- RFC 7748, section 6.1: the key pair of Alice. -/
example : boxKeypair (digitsBE 32 0x77076d0a7318a57d3c16c17251b26645df4c2f87ebc0992ab177fba51db92c2a) =
    .ok (digitsBE 32 0x8520f0098930a754748b7ddcb43ef75a0dbf3a0d26381af4eba4a98eaa9b4e6a, digitsBE 32 0x77076d0a7318a57d3c16c17251b26645df4c2f87ebc0992ab177fba51db92c2a) := by
  rw [C81_keypair _ (by decide), x25519_fast]
  decide +kernel

/-- "Cryptography in NaCl", sections 3 to 8: the first key of Alice and Bob. -/
example : boxBeforenm 64 (digitsBE 32 0xde9edb7d7b7dc1b4d35b61c2ece435373f8343c85b78674dadfc7e146f882b4f)
    (digitsBE 32 0x77076d0a7318a57d3c16c17251b26645df4c2f87ebc0992ab177fba51db92c2a) =
    .ok (digitsBE 32 0x1b27556473e985d462cd51197a9a46c76009549eac6474f206c4ee0844f68389) := by
  rw [C82_beforenm _ (by omega) _ _ (by decide) (by decide), x25519_fast]
  decide +kernel

end Salt.Props
