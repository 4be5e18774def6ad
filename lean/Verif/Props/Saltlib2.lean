import Verif.Props.Saltlib1

set_option linter.unusedSimpArgs false

/-!
# More about the crypto libraries (C51, C61, C62, C68)
-/

namespace Salt.Props

open Salt Salt.Spec

/-- C51: the method of `SaltLib`, for every backend and all byte strings: ValueError unless both keys have 32
bytes, otherwise what the backend answers to (peer public key, own secret key). -/
theorem C51_method (a : Api) (mySk peerPk : Bytes) :
    (mySk.length = 32 ∧ peerPk.length = 32 →
      SaltLib.computeSharedKey (some a) mySk peerPk = a.beforenm peerPk mySk) ∧
    (¬ (mySk.length = 32 ∧ peerPk.length = 32) →
      SaltLib.computeSharedKey (some a) mySk peerPk = .error .valueError) := by
  constructor
  · rintro ⟨h1, h2⟩
    simp [SaltLib.computeSharedKey, onApi, boxSecretKeyBytes, boxPublicKeyBytes, h1, h2]
  · intro h
    by_cases h1 : mySk.length = 32
    · have h2 : peerPk.length ≠ 32 := fun h2 => h ⟨h1, h2⟩
      simp [SaltLib.computeSharedKey, onApi, boxSecretKeyBytes, boxPublicKeyBytes, h1, h2]
    · simp [SaltLib.computeSharedKey, onApi, boxSecretKeyBytes, boxPublicKeyBytes, h1]

theorem wrap_error {α : Type} {code : Int} (h : code ≠ 0) (f : Except Err α) :
    (Native.wrap code >>= fun _ => f) = .error .valueError := by
  simp [Native.wrap, h, bind, Except.bind]

/-- C61: no failure of libsodium goes unnoticed: a return code other than 0 becomes an exception. -/
theorem C61_native_codes (S : Sodium) (x y z : Bytes) :
    ((S.sign x x.length y).1 ≠ 0 → (nativeApi S).sign x y = .error .valueError) ∧
    ((S.signOpen x x.length y).1 ≠ 0 → (nativeApi S).signOpen x y = .error .badSignature) ∧
    ((S.sha512 x x.length).1 ≠ 0 → (nativeApi S).hash x = .error .valueError) ∧
    ((S.boxBeforenm x y).1 ≠ 0 → (nativeApi S).beforenm x y = .error .valueError) ∧
    ((S.boxAfternm (zeros 32 ++ x) (32 + x.length) y z).1 ≠ 0 →
      (nativeApi S).box x y z = .error .valueError) ∧
    ((S.boxOpenAfternm (zeros 16 ++ x) (16 + x.length) y z).1 ≠ 0 →
      (nativeApi S).boxOpen x y z = .error .badEncryptedData) ∧
    ((S.signSeedKeypair x).1 ≠ 0 → (nativeApi S).signKeypair x = .error .valueError) ∧
    ((S.scalarmultBase x).1 ≠ 0 → (nativeApi S).boxKeypair x = .error .valueError) := by
  have e1 : (zeros 32 ++ x).length = 32 + x.length := by rw [List.length_append, zeros_length]
  have e2 : (zeros 16 ++ x).length = 16 + x.length := by rw [List.length_append, zeros_length]
  refine ⟨?_, ?_, ?_, ?_, ?_, ?_, ?_, ?_⟩ <;> intro h
  · exact wrap_error h _
  · simp [nativeApi, Native.signOpen, h]
  · exact wrap_error h _
  · exact wrap_error h _
  · simp only [nativeApi, Native.boxAfternm, e1]
    exact wrap_error h _
  · simp [nativeApi, Native.boxOpenAfternm, e2, h]
  · simp only [nativeApi, Native.signKeypair]
    split
    · rfl
    · exact wrap_error h _
  · simp only [nativeApi, Native.boxKeypair]
    split
    · rfl
    · exact wrap_error h _

/-- A libsodium whose key agreement fails, as it does for some public keys. -/
example : (nativeApi { toySodium with boxBeforenm := fun _ _ => (-1, []) }).beforenm (zeros 32) (zeros 32) =
    .error .valueError := rfl

/-- C62: the native backend hands out exactly what libsodium wrote: 32 bytes of public key and 64 bytes of
secret signing key, 32 bytes of public encryption key. -/
theorem C62_native_keys (S : Sodium) (sec : Bytes) (h : sec.length = 32) :
    (∀ pk sk, S.signSeedKeypair sec = (0, pk, sk) → pk.length = 32 → sk.length = 64 →
      SaltLib.createSigKeysFromSec (some (nativeApi S)) sec = .ok ⟨sk, pk⟩) ∧
    (∀ pk, S.scalarmultBase sec = (0, pk) → pk.length = 32 →
      SaltLib.createEncKeysFromSec (some (nativeApi S)) sec = .ok ⟨sec, pk⟩) := by
  constructor
  · intro pk sk hs hp hk
    have : slice sec 0 32 = sec := by simp [slice, ← h]
    simp [SaltLib.createSigKeysFromSec, onApi, nativeApi, Native.signKeypair, this, h, hs, Native.wrap,
      bufferRaw_eq _ _ hp, bufferRaw_eq _ _ hk, bind, Except.bind, pure, Except.pure]
  · intro pk hs hp
    simp [SaltLib.createEncKeysFromSec, onApi, nativeApi, Native.boxKeypair, h, hs, Native.wrap,
      bufferRaw_eq _ _ hp, bind, Except.bind, pure, Except.pure]

example : SaltLib.createSigKeysFromSec (some (nativeApi toySodium)) (List.replicate 32 5) =
    .ok ⟨List.replicate 64 5, List.replicate 32 5⟩ :=
  (C62_native_keys _ _ (by simp)).1 _ _ rfl (by simp) (by simp)

/-- C62: random key pairs are made from 32 random bytes. -/
theorem C62_random (api : Option Api) (rand : Nat → Bytes) :
    SaltLib.createEncKeys api rand = SaltLib.createEncKeysFromSec api (rand 32) ∧
    SaltLib.createSigKeys api rand = SaltLib.createSigKeysFromSec api (rand 32) := by
  cases api <;> exact ⟨rfl, rfl⟩

/-- C68: `SaltLib.encrypt` and `decrypt` on any backend that is a box: for all keys of 32 and nonces of 24
bytes, every message can be encrypted, becomes 16 bytes longer, and decrypting gives it back; whatever
decrypts is the encryption of the result under that key and nonce, and everything else raises
BadEncryptedDataException. -/
theorem C68_encrypt_decrypt (a : Api) (hb : BoxLaw a.toLib) (k n : Bytes) (hk : k.length = 32)
    (hn : n.length = 24) :
    (∀ m, ∃ c, SaltLib.encrypt (some a) k n m = .ok c ∧ c.length = m.length + 16 ∧
      SaltLib.decrypt (some a) k n c = .ok m) ∧
    ∀ c, (∃ m, SaltLib.decrypt (some a) k n c = .ok m ∧ SaltLib.encrypt (some a) k n m = .ok c) ∨
      SaltLib.decrypt (some a) k n c = .error .badEncryptedData := by
  constructor
  · intro m
    obtain ⟨c, h1, h2⟩ := hb.total m n k hn hk
    exact ⟨c, h1, h2, (hb.open_iff _ _ _ _ hn hk).mpr h1⟩
  · intro c
    cases h : a.boxOpen c n k with
    | ok m => exact .inl ⟨m, h, (hb.open_iff _ _ _ _ hn hk).mp h⟩
    | error e =>
      have := hb.open_err _ _ _ _ hn hk h
      subst this
      exact .inr h

/-- C68: `SaltLib.sign`, `sign_open` and `sha512` on any backend: what is signed can be opened with the public
key, giving the message; an exception of `sign_open` is the one of the backend; `sha512` is the hash of the
whole message. -/
theorem C68_sign_hash (a : Api) (m x y : Bytes) (kp : KeyPair) (hs : SigLaw a.toLib kp) :
    (∃ sm, SaltLib.sign (some a) m kp.sec = .ok sm ∧ sm.length = 64 + m.length ∧
      SaltLib.signOpen (some a) sm kp.pub = .ok m) ∧
    (∀ e, a.signOpen x y = .error e → SaltLib.signOpen (some a) x y = .error e) ∧
    SaltLib.sha512 (some a) m = a.hash m := by
  obtain ⟨sig, h1, h2, h3⟩ := hs.works m
  exact ⟨⟨sig ++ m, h2, by simp [h1], h3⟩, fun e he => he, rfl⟩

example : SaltLib.encrypt (some (nativeApi toySodium)) (List.replicate 32 1) (List.replicate 24 2) [9] =
      .ok (List.replicate 8 2 ++ List.replicate 8 1 ++ [9]) ∧
    SaltLib.decrypt (some (nativeApi toySodium)) (List.replicate 32 1) (List.replicate 24 2)
      (List.replicate 8 2 ++ List.replicate 8 1 ++ [9]) = .ok [9] := by decide

end Salt.Props
