import Verif.Spec.Asks
import Verif.Spec.Nacl

/-!
# Specification: backends with the standard algorithms, and pairs of libraries
-/

namespace Salt.Spec

open Salt

open Classical in
/-- A backend that computes the standard algorithms when the arguments have the right lengths; what it does with other
lengths, and with public keys for which the X25519 secret is zero, is left open.  `c` is the factor in the verification of
signatures (see `EdValid`). -/
structure StdApi (c : Nat) (A : Api) : Prop where
  signKeypair : ∀ seed, seed.length = 32 → A.signKeypair seed = .ok (edPublic seed, seed ++ edPublic seed)
  boxKeypair : ∀ sk, sk.length = 32 → A.boxKeypair sk = .ok (x25519 sk base9, sk)
  sign : ∀ m sk, sk.length = 64 → A.sign m sk = .ok (edSign (sk.take 32) (sk.drop 32) m ++ m)
  signOpen : ∀ sm pk, pk.length = 32 →
    A.signOpen sm pk = if EdValid c pk (sm.drop 64) (sm.take 64) then .ok (sm.drop 64) else .error .badSignature
  hash : ∀ m, A.hash m = .ok (sha512 m)
  beforenm : ∀ pk sk, pk.length = 32 → sk.length = 32 → x25519 sk pk ≠ zeros 32 →
    A.beforenm pk sk = .ok (hsalsa20 (x25519 sk pk) (zeros 16))
  box : ∀ m n k, n.length = 24 → k.length = 32 → A.box m n k = .ok (secretbox k n m)
  boxOpen : ∀ x n k, n.length = 24 → k.length = 32 →
    A.boxOpen x n k = match secretboxOpen k n x with | none => .error .badEncryptedData | some m => .ok m

/-- The packages `nacl` and `tweetnacl` with the standard algorithms; they raise (any exception) where a signature or a box
is not valid. -/
structure NaclBindings (c : Nat) (B : Bindings) : Prop where
  seedKeypair : ∀ seed, seed.length = 32 → B.seedKeypair seed = .ok (edPublic seed, seed ++ edPublic seed)
  scalarmultBase : ∀ sk, sk.length = 32 → B.scalarmultBase sk = .ok (x25519 sk base9)
  sign : ∀ m sk, sk.length = 64 → B.sign m sk = .ok (edSign (sk.take 32) (sk.drop 32) m ++ m)
  valid : ∀ sm pk, pk.length = 32 → EdValid c pk (sm.drop 64) (sm.take 64) → B.signOpen sm pk = .ok (sm.drop 64)
  invalid : ∀ sm pk, pk.length = 32 → ¬ EdValid c pk (sm.drop 64) (sm.take 64) → ∃ e, B.signOpen sm pk = .error e
  hash : ∀ m, B.hash m = .ok (sha512 m)
  beforenm : ∀ pk sk, pk.length = 32 → sk.length = 32 → x25519 sk pk ≠ zeros 32 →
    B.beforenm pk sk = .ok (hsalsa20 (x25519 sk pk) (zeros 16))
  box : ∀ m n k, n.length = 24 → k.length = 32 → B.box m n k = .ok (secretbox k n m)
  opens : ∀ x n k m, n.length = 24 → k.length = 32 → secretboxOpen k n x = some m → B.boxOpen x n k = .ok m
  refuses : ∀ x n k, n.length = 24 → k.length = 32 → secretboxOpen k n x = none → ∃ e, B.boxOpen x n k = .error e

/-- What is signed with the key pair by the first library opens with the second. -/
structure CrossSig (L L' : Lib) (kp : KeyPair) : Prop where
  pub : kp.pub.length = 32
  works : ∀ m, ∃ sig, sig.length = 64 ∧ L.sign m kp.sec = .ok (sig ++ m) ∧ L'.signOpen (sig ++ m) kp.pub = .ok m

/-- Two libraries, used by a client and a server with the given encryption and signing key pairs, fit together. -/
structure Interop (Lc Ls : Lib) (kc ks sc ss : KeyPair) : Prop where
  boxC : BoxLaw Lc
  boxS : BoxLaw Ls
  box : ∀ m n k, n.length = 24 → k.length = 32 → Lc.box m n k = Ls.box m n k
  hashC : HashLaw Lc
  hash : ∀ m, Lc.hash m = Ls.hash m
  pubC : kc.pub.length = 32
  secC : kc.sec.length = 32
  pubS : ks.pub.length = 32
  secS : ks.sec.length = 32
  /-- The secret encryption keys are different. -/
  secs : kc.sec ≠ ks.sec
  dh : ∃ k, k.length = 32 ∧ Lc.beforenm ks.pub kc.sec = .ok k ∧ Ls.beforenm kc.pub ks.sec = .ok k
  sigs : ∀ kp, kp = sc ∨ kp = ss → CrossSig Lc Ls kp ∧ CrossSig Ls Lc kp

end Salt.Spec
