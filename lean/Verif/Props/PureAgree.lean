import Verif.Props.PureX25519
import Verif.Lemmas.Agree

/-! C87, C88: the two sides of a key agreement get the same key; which public keys give a constant key. -/

namespace Salt.Props

open Salt.Tweet Salt.Spec Salt.Pure

theorem hsalsa20_length (k : Bytes) (h : k.length = 32) : (hsalsa20 k (List.replicate 16 0)).length = 32 :=
  (subkey (w := 32) (by omega) (areBytes_ofBytes (List.replicate 24 0)) (areBytes_ofBytes k) h rfl).2

/-! ### C87: agreement -/

/-- C87: X25519 commutes, for all scalars and all u-coordinates, whether they belong to the curve or to its twist. -/
theorem C87_commutes (a b u : Bytes) (ha : a.length = 32) (hb : b.length = 32) : x25519 a (x25519 b u) = x25519 b (x25519 a u) :=
  x25519_comm a b u ha hb

/-- C87: two parties with key pairs of `crypto_box_keypair_not_random` compute the same key of 32 bytes with
`crypto_box_beforenm`, each from its own secret key and the public key of the other. -/
theorem C87_agree (w : Nat) (hw : 32 ≤ w) (a b pkA skA pkB skB : Bytes) (hA : boxKeypair a = .ok (pkA, skA)) (hB : boxKeypair b = .ok (pkB, skB)) :
    ∃ k, k.length = 32 ∧ Pure.boxBeforenm w pkB skA = .ok k ∧ Pure.boxBeforenm w pkA skB = .ok k := by
  have la : a.length = 32 := by
    by_contra h
    rw [C81_length a h] at hA
    injection hA
  have lb : b.length = 32 := by
    by_contra h
    rw [C81_length b h] at hB
    injection hB
  rw [C81_keypair a la] at hA
  rw [C81_keypair b lb] at hB
  obtain ⟨rfl, rfl⟩ := Prod.mk.inj (Except.ok.inj hA)
  obtain ⟨rfl, rfl⟩ := Prod.mk.inj (Except.ok.inj hB)
  refine ⟨_, ?_, C82_beforenm w hw _ _ (x25519_length _ _) la, ?_⟩
  · exact hsalsa20_length _ (x25519_length _ _)
  · rw [C82_beforenm w hw _ _ (x25519_length _ _) lb, C87_commutes _ _ _ la lb]

/-- The key agreement of "Cryptography in NaCl", from the side of Bob. -/
example : ∃ pk, boxKeypair (digitsBE 32 0x77076d0a7318a57d3c16c17251b26645df4c2f87ebc0992ab177fba51db92c2a) =
      .ok (pk, digitsBE 32 0x77076d0a7318a57d3c16c17251b26645df4c2f87ebc0992ab177fba51db92c2a) ∧
    Pure.boxBeforenm 64 pk (digitsBE 32 0x5dab087e624a8a4b79e17f8b83800ee66f3bb1292618b6fd1c2f8b27ff88e0eb) =
      .ok (digitsBE 32 0x1b27556473e985d462cd51197a9a46c76009549eac6474f206c4ee0844f68389) := by
  refine ⟨_, C81_keypair _ (by decide), ?_⟩
  rw [C82_beforenm _ (by omega) _ _ (x25519_length _ _) (by decide), C87_commutes _ _ _ (by decide) (by decide), x25519_fast, x25519_fast]
  decide +kernel

/-! ### C88: small order -/

/-- C88: the X25519 shared secret is all zeros for five u-coordinates of the public key, whatever the secret key, and for no
others. -/
theorem C88_zero_iff (sk pk : Bytes) (hs : sk.length = 32) : x25519 sk pk = List.replicate 32 0 ↔ decodeU pk ∈ smallOrderU :=
  x25519_zero_iff sk pk hs

/-- C88: with such a public key `crypto_box_beforenm` does not raise, and gives a key that does not depend on the secret
key. -/
theorem C88_constant (w : Nat) (hw : 32 ≤ w) (sk pk : Bytes) (hs : sk.length = 32) (hp : pk.length = 32) (h : decodeU pk ∈ smallOrderU) :
    Pure.boxBeforenm w pk sk = .ok (hsalsa20 (List.replicate 32 0) (List.replicate 16 0)) := by
  rw [C82_beforenm w hw pk sk hp hs, (C88_zero_iff sk pk hs).mpr h]

/-- C88: the public keys of `crypto_box_keypair_not_random` are not such keys. -/
theorem C88_honest (sk pk sk' : Bytes) (h : boxKeypair sk = .ok (pk, sk')) : decodeU pk ∉ smallOrderU := by
  have hl : sk.length = 32 := by
    by_contra hl
    rw [C81_length sk hl] at h
    injection h
  rw [C81_keypair sk hl] at h
  obtain ⟨rfl, rfl⟩ := Prod.mk.inj (Except.ok.inj h)
  exact public_not_small sk hl

/-- C88: two secret keys have the same public key if and only if the scalars they encode are equal or add up to 8 L. -/
theorem C88_same_public (a b pkA skA pkB skB : Bytes) (hA : boxKeypair a = .ok (pkA, skA)) (hB : boxKeypair b = .ok (pkB, skB)) :
    pkA = pkB ↔ decodeScalar a = decodeScalar b ∨ decodeScalar a + decodeScalar b = 8 * (2 ^ 252 + 27742317777372353535851937790883648493) := by
  have la : a.length = 32 := by
    by_contra h
    rw [C81_length a h] at hA
    injection hA
  have lb : b.length = 32 := by
    by_contra h
    rw [C81_length b h] at hB
    injection hB
  rw [C81_keypair a la] at hA
  rw [C81_keypair b lb] at hB
  obtain ⟨rfl, rfl⟩ := Prod.mk.inj (Except.ok.inj hA)
  obtain ⟨rfl, rfl⟩ := Prod.mk.inj (Except.ok.inj hB)
  exact public_eq_iff _ _ la lb

/-- A public key of all zeros, and one of the u-coordinate 1 with the highest bit set, which is ignored: the key does not
depend on the secret key. -/
example (sk : Bytes) (h : sk.length = 32) :
    Pure.boxBeforenm 64 (List.replicate 32 0) sk = .ok (hsalsa20 (List.replicate 32 0) (List.replicate 16 0)) ∧
    Pure.boxBeforenm 64 (1 :: List.replicate 30 0 ++ [128]) sk = .ok (hsalsa20 (List.replicate 32 0) (List.replicate 16 0)) :=
  ⟨C88_constant 64 (by omega) sk _ h (by decide) (by decide +kernel), C88_constant 64 (by omega) sk _ h (by decide) (by decide +kernel)⟩

/-- The u-coordinate p, which is not reduced, is taken for 0. -/
example (sk : Bytes) (h : sk.length = 32) : x25519 sk (digits 32 p25519) = List.replicate 32 0 :=
  (C88_zero_iff sk _ h).mpr (by decide +kernel)

/-- The base point is not of small order. -/
example : decodeU base9 ∉ smallOrderU := by decide +kernel

/-- Two secret keys with scalars that add up to 8 L, and the same public key. -/
example : ∃ pk, boxKeypair (digits 32 (8 * 2 ^ 251)) = .ok (pk, digits 32 (8 * 2 ^ 251)) ∧
    boxKeypair (digits 32 (8 * (orderL - 2 ^ 251))) = .ok (pk, digits 32 (8 * (orderL - 2 ^ 251))) := by
  have e1 := C81_keypair (digits 32 (8 * 2 ^ 251)) (digits_length _ _)
  have e2 := C81_keypair (digits 32 (8 * (orderL - 2 ^ 251))) (digits_length _ _)
  have h := (C88_same_public _ _ _ _ _ _ e1 e2).mpr (.inr (by decide +kernel))
  rw [← h] at e2
  exact ⟨_, e1, e2⟩

end Salt.Props
