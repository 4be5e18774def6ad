import Verif.Model.Saltlib
import Verif.Spec.CryptoLaws

/-!
# What is expected of library selection and of the foreign crypto functions
-/

namespace Salt.Spec

open Salt

/-- `a` is the first available one of `libs` (listed from the most to the least preferred). -/
def MostPreferred {α : Type} (avail : α → Bool) (libs : List α) (a : α) : Prop :=
  ∃ before after, libs = before ++ a :: after ∧ avail a = true ∧ ∀ x ∈ before, avail x = false

/-- NaCl's convention for the box on 24-byte nonces and 32-byte keys: the message is preceded by 32 zero
bytes, the ciphertext by 16; both buffers have the same length; opening succeeds exactly on what sealing
produces. -/
structure NaclBox (S : Sodium) : Prop where
  seals : ∀ m n k, n.length = 24 → k.length = 32 →
    ∃ c, S.boxAfternm (zeros 32 ++ m) (32 + m.length) n k = (0, zeros 16 ++ c) ∧
      c.length = 16 + m.length
  opens : ∀ m c n k, n.length = 24 → k.length = 32 →
    S.boxAfternm (zeros 32 ++ m) (32 + m.length) n k = (0, zeros 16 ++ c) →
    S.boxOpenAfternm (zeros 16 ++ c) (16 + c.length) n k = (0, zeros 32 ++ m)
  genuine : ∀ c n k w, n.length = 24 → k.length = 32 →
    S.boxOpenAfternm (zeros 16 ++ c) (16 + c.length) n k = (0, w) →
    ∃ m, w = zeros 32 ++ m ∧
      S.boxAfternm (zeros 32 ++ m) (32 + m.length) n k = (0, zeros 16 ++ c)

/-- libsodium's `crypto_sign` and `crypto_sign_open` work for the key pair. -/
structure NaclSign (S : Sodium) (kp : KeyPair) : Prop where
  pub : kp.pub.length = 32
  works : ∀ m, ∃ sig, sig.length = 64 ∧ S.sign m m.length kp.sec = (0, sig ++ m) ∧
    S.signOpen (sig ++ m) (64 + m.length) kp.pub = (0, m, m.length)

/-- libsodium's `crypto_box_beforenm` works for the two key pairs. -/
structure NaclDH (S : Sodium) (a b : KeyPair) : Prop where
  aSec : a.sec.length = 32
  aPub : a.pub.length = 32
  bSec : b.sec.length = 32
  bPub : b.pub.length = 32
  works : ∃ k, k.length = 32 ∧ S.boxBeforenm b.pub a.sec = (0, k) ∧
    S.boxBeforenm a.pub b.sec = (0, k)

/-- libsodium's `crypto_hash_sha512` succeeds with a digest of the announced length. -/
def NaclHash (S : Sodium) : Prop :=
  ∀ m, ∃ h, h.length = S.sha512Bytes ∧ S.sha512 m m.length = (0, h)

/-! ### Foreign functions with these laws (for the examples) -/

/-- NaCl's calling convention put around the toy library. -/
def toySodium : Sodium where
  named := true
  signSeedKeypair seed := (0, seed, seed ++ seed)
  sign m _ sk := (0, sk.drop 32 ++ (m ++ zeros 32).take 32 ++ m)
  signOpen sm _ pk :=
    if sm.take 64 = pk ++ (sm.drop 64 ++ zeros 32).take 32 then
      (0, sm.drop 64, sm.length - 64)
    else (-1, [], 0)
  scalarmultBase sk := (0, sk)
  boxBeforenm pk sk := (0, List.zipWith (fun a b => a ^^^ b) pk sk)
  boxAfternm m _ n k := (0, zeros 16 ++ (toyTag n k ++ m.drop 32))
  boxOpenAfternm c _ n k :=
    if (c.drop 16).take 16 = toyTag n k then (0, zeros 32 ++ (c.drop 16).drop 16) else (-1, [])
  sha512Bytes := 64
  sha512 m _ := (0, (m ++ zeros 64).take 64)

theorem zeros_length (n : Nat) : (zeros n).length = n := by simp [zeros]

theorem toySodium_box : NaclBox toySodium where
  seals m n k hn hk := by
    refine ⟨toyTag n k ++ m, ?_, ?_⟩
    · simp only [toySodium, List.drop_left' (zeros_length 32)]
    · simp [toyTag, hn, hk]; omega
  opens m c n k hn hk h := by
    have hl : (toyTag n k).length = 16 := by simp [toyTag, hn, hk]
    simp only [toySodium, List.drop_left' (zeros_length 32), Prod.mk.injEq, true_and,
      List.append_cancel_left_eq] at h
    subst h
    simp only [toySodium, List.drop_left' (zeros_length 16), List.take_left' hl,
      List.drop_left' hl, if_true]
  genuine c n k w hn hk h := by
    simp only [toySodium, List.drop_left' (zeros_length 16)] at h
    split at h
    · rename_i ht
      simp only [Prod.mk.injEq, true_and] at h
      refine ⟨c.drop 16, h.symm, ?_⟩
      simp only [toySodium, List.drop_left' (zeros_length 32), Prod.mk.injEq, true_and]
      rw [← ht, List.take_append_drop]
    · simp at h

theorem toySodium_sign (sec : Bytes) (h : sec.length = 64) :
    NaclSign toySodium ⟨sec, sec.drop 32⟩ where
  pub := by simp [h]
  works m := by
    have hl : (sec.drop 32 ++ (m ++ zeros 32).take 32).length = 64 := by simp [h, zeros]
    refine ⟨sec.drop 32 ++ (m ++ zeros 32).take 32, hl, ?_, ?_⟩
    · simp [toySodium]
    · simp only [toySodium]
      rw [List.take_left' hl, List.drop_left' hl, if_pos rfl]
      simp only [List.length_append, hl, Prod.mk.injEq, true_and]
      simp at hl ⊢

theorem toySodium_dh (a b : Bytes) (ha : a.length = 32) (hb : b.length = 32) :
    NaclDH toySodium ⟨a, a⟩ ⟨b, b⟩ where
  aSec := ha
  aPub := ha
  bSec := hb
  bPub := hb
  works := by
    refine ⟨_, ?_, rfl, ?_⟩
    · simp [ha, hb]
    · simp only [toySodium, Prod.mk.injEq, true_and]
      rw [List.zipWith_comm]
      congr 1
      funext x y
      exact UInt8.xor_comm _ _

theorem toySodium_hash : NaclHash toySodium :=
  fun _ => ⟨_, by simp [toySodium, zeros], rfl⟩

end Salt.Spec
