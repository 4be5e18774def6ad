import Verif.Model.Crypto

/-!
# What an honest run expects of the crypto library

Only functional facts (no secrecy): the documented behaviour of NaCl's box, sign and hash.
-/

namespace Salt.Spec

open Salt

/-- Authenticated encryption: total on 24-byte nonces and 32-byte keys, 16 bytes longer than the
message, and opening succeeds exactly on what sealing produces. -/
structure BoxLaw (L : Lib) : Prop where
  total : ∀ m n k, n.length = 24 → k.length = 32 →
    ∃ c, L.box m n k = .ok c ∧ c.length = m.length + 16
  open_iff : ∀ c m n k, n.length = 24 → k.length = 32 →
    (L.boxOpen c n k = .ok m ↔ L.box m n k = .ok c)
  open_err : ∀ c n k e, n.length = 24 → k.length = 32 →
    L.boxOpen c n k = .error e → e = .badEncryptedData

/-- `kp` is a signing key pair: the signed message is a 64-byte signature followed by the message,
and it opens under the public key. -/
structure SigLaw (L : Lib) (kp : KeyPair) : Prop where
  pub : kp.pub.length = 32
  works : ∀ m, ∃ sig, sig.length = 64 ∧ L.sign m kp.sec = .ok (sig ++ m) ∧
    L.signOpen (sig ++ m) kp.pub = .ok m

/-- The two key pairs agree on a 32-byte key. -/
structure DHLaw (L : Lib) (a b : KeyPair) : Prop where
  aSec : a.sec.length = 32
  aPub : a.pub.length = 32
  bSec : b.sec.length = 32
  bPub : b.pub.length = 32
  works : ∃ k, k.length = 32 ∧ L.beforenm b.pub a.sec = .ok k ∧ L.beforenm a.pub b.sec = .ok k

/-- The hash never raises. -/
def HashLaw (L : Lib) : Prop := ∀ m, ∃ h, L.hash m = .ok h

/-- The library and the key pairs of a client and a server are as they should be. -/
structure Honest (L : Lib) (kc ks sc ss : KeyPair) : Prop where
  box : BoxLaw L
  hash : HashLaw L
  dh : DHLaw L kc ks
  sigC : SigLaw L sc
  sigS : SigLaw L ss

/-! ### A library satisfying the laws

Not secure, of course; it shows that the laws are consistent and serves in the examples. -/

/-- The tag of the toy box. -/
def toyTag (n k : Bytes) : Bytes := n.take 8 ++ k.take 8

/-- A toy library: box = tag and clear text; signature = public key (second half of the secret one)
and the start of the message; hash = the first 64 bytes, padded; key agreement = exclusive or. -/
def toyLib : Lib where
  sign m sk := .ok (sk.drop 32 ++ (m ++ zeros 32).take 32 ++ m)
  signOpen sm pk :=
    if sm.take 64 = pk ++ (sm.drop 64 ++ zeros 32).take 32 then .ok (sm.drop 64)
    else .error .badSignature
  hash m := .ok ((m ++ zeros 64).take 64)
  beforenm pk sk := .ok (List.zipWith (fun a b => a ^^^ b) pk sk)
  box m n k := .ok (toyTag n k ++ m)
  boxOpen c n k :=
    if c.take 16 = toyTag n k then .ok (c.drop 16) else .error .badEncryptedData

theorem toy_box : BoxLaw toyLib where
  total m n k hn hk := ⟨_, rfl, by simp [toyTag, hn, hk]; omega⟩
  open_iff c m n k hn hk := by
    have hl : (toyTag n k).length = 16 := by simp [toyTag, hn, hk]
    simp only [toyLib]
    constructor
    · intro h
      split at h
      · rename_i ht
        simp only [Except.ok.injEq] at h ⊢
        rw [← ht, ← h, List.take_append_drop]
      · simp at h
    · intro h
      simp only [Except.ok.injEq] at h
      subst h
      rw [if_pos (by rw [List.take_left' hl]), List.drop_left' hl]
  open_err c n k e _ _ h := by
    simp only [toyLib] at h
    split at h <;> simp at h
    exact h.symm

theorem toy_sig (sec : Bytes) (h : sec.length = 64) : SigLaw toyLib ⟨sec, sec.drop 32⟩ where
  pub := by simp [h]
  works m := by
    refine ⟨sec.drop 32 ++ (m ++ zeros 32).take 32, ?_, ?_, ?_⟩
    · simp [h, zeros]
    · simp [toyLib]
    · have hl : (sec.drop 32 ++ (m ++ zeros 32).take 32).length = 64 := by simp [h, zeros]
      simp only [toyLib]
      rw [List.take_left' hl, List.drop_left' hl, if_pos rfl]

theorem toy_dh (a b : Bytes) (ha : a.length = 32) (hb : b.length = 32) :
    DHLaw toyLib ⟨a, a⟩ ⟨b, b⟩ where
  aSec := ha
  aPub := ha
  bSec := hb
  bPub := hb
  works := by
    refine ⟨_, ?_, rfl, ?_⟩
    · simp [ha, hb]
    · simp only [toyLib, Except.ok.injEq]
      rw [List.zipWith_comm]
      congr 1
      funext x y
      exact UInt8.xor_comm _ _

theorem toy_hash : HashLaw toyLib := fun _ => ⟨_, rfl⟩

end Salt.Spec
