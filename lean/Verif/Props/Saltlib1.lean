import Verif.Spec.Saltlib
import Verif.Spec.Trace
import Verif.Lemmas.Prog

set_option linter.unusedSimpArgs false

/-!
# The crypto libraries (C50–C52, C61, C62)
-/

namespace Salt.Props

open Salt Salt.Spec

/-! ### C50: selection -/

/-- C50, the part that holds: with libsodium present, the default choice is libsodium, the most
preferred one.  Missing: the case without libsodium, see `C50_violated`. -/
theorem C50_selection_partial {α : Type} (avail : α → Bool) (n p t : α) (h : avail n = true) :
    getLib avail (libMap n p t) .best = .ok (some n) ∧ MostPreferred avail [n, p, t] n := by
  refine ⟨by simp [getLib, libMap, getLibLoop, h], [], [p, t], rfl, h, by simp⟩

/-- C50: whatever the default choice returns is the most preferred available library. -/
theorem C50_sound {α : Type} (avail : α → Bool) (n p t : α) (r : Option α)
    (h : getLib avail (libMap n p t) .best = .ok r) :
    ∃ a, r = some a ∧ MostPreferred avail [n, p, t] a := by
  simp only [getLib, libMap, getLibLoop, if_true] at h
  split at h
  · rename_i ha
    simp only [Except.ok.injEq] at h
    exact ⟨n, h.symm, [], [p, t], rfl, ha, by simp⟩
  · simp at h

/-- C50, violated: whenever libsodium is missing the default choice raises NoSuchLibException, although
another library is available. -/
theorem C50_violated {α : Type} (avail : α → Bool) (n p t : α) (hn : avail n = false)
    (hp : avail p = true) :
    getLib avail (libMap n p t) .best = .error .noSuchLib ∧
      MostPreferred avail [n, p, t] p := by
  refine ⟨by simp [getLib, libMap, getLibLoop, hn], [n], [t], rfl, hp, by simp [hn]⟩

/-- C50, violated: an explicitly requested library is never returned, `None` is. -/
theorem C50_requested {α : Type} (avail : α → Bool) (m : List (Nat × α)) (t : LibType)
    (h : t ≠ .best) : getLib avail m t = .ok none := by
  simp [getLib, h]

/-- C50: the object made with an explicitly requested library is of no use: every operation raises
AttributeError. -/
theorem C50_requested_unusable (m : List (Nat × Api)) (t : LibType) (h : t ≠ .best)
    (api : Option Api) (hg : getLib (·.available) m t = .ok api) (a b c : Bytes)
    (rand : Nat → Bytes) :
    SaltLib.createEncKeys api rand = .error .attributeError ∧
    SaltLib.createEncKeysFromSec api a = .error .attributeError ∧
    SaltLib.createSigKeys api rand = .error .attributeError ∧
    SaltLib.createSigKeysFromSec api a = .error .attributeError ∧
    SaltLib.sign api a b = .error .attributeError ∧
    SaltLib.signOpen api a b = .error .attributeError ∧
    SaltLib.sha512 api a = .error .attributeError ∧
    SaltLib.computeSharedKey api a b = .error .attributeError ∧
    SaltLib.encrypt api a b c = .error .attributeError ∧
    SaltLib.decrypt api a b c = .error .attributeError := by
  rw [C50_requested _ m t h] at hg
  simp only [Except.ok.injEq] at hg
  subst hg
  exact ⟨rfl, rfl, rfl, rfl, rfl, rfl, rfl, rfl, rfl, rfl⟩

/-- C50, with the three libraries of the package: the default choice is the wrapper of libsodium if that
was found, and fails otherwise, although the other two are available whenever the package could be
imported. -/
theorem C50_package (S : Sodium) (B B' : Bindings) :
    (S.named = true → getLib Api.available (libMap (nativeApi S) (bindingsApi B) (bindingsApi B')) .best =
      .ok (some (nativeApi S))) ∧
    (S.named = false →
      getLib Api.available (libMap (nativeApi S) (bindingsApi B) (bindingsApi B')) .best = .error .noSuchLib ∧
      MostPreferred Api.available [nativeApi S, bindingsApi B, bindingsApi B'] (bindingsApi B)) := by
  have ha : (nativeApi S).available = S.named := by
    simp only [nativeApi, Native.isAvailable]
    cases S.named <;> rfl
  constructor
  · intro h
    exact (C50_selection_partial Api.available _ _ _ (ha.trans h)).1
  · intro h
    exact C50_violated Api.available _ _ _ (ha.trans h) rfl

example : getLib (fun b => b) (libMap false true true) .best = .error .noSuchLib ∧
    MostPreferred (fun b => b) [false, true, true] true :=
  C50_violated (fun b => b) false true true rfl rfl

/-! ### C51: shared keys -/

/-- C51: `compute_shared_key` calls the backend with (peer public key, own secret key) if both are
32 bytes long and returns or raises what the backend does; otherwise it raises ValueError without
calling it.  The object is not changed. -/
theorem C51_compute_shared_key {σ : Type} (mySk peerPk : Bytes) (s s' : σ) (tr : List (Ev env))
    (r : Except Err Bytes) :
    Call (computeSharedKey mySk peerPk) s tr r s' ↔
      s' = s ∧
        ((mySk.length = 32 ∧ peerPk.length = 32 ∧ tr = [⟨.beforenm peerPk mySk, r⟩]) ∨
         (¬ (mySk.length = 32 ∧ peerPk.length = 32) ∧ tr = [] ∧ r = .error .valueError)) := by
  unfold Call computeSharedKey
  have b1 : boxSecretKeyBytes = 32 := rfl
  have b2 : boxPublicKeyBytes = 32 := rfl
  have hr : Exec (Py.raise (S := env) (σ := σ) (α := Bytes) .valueError s) tr (r, s') ↔
      s' = s ∧ tr = [] ∧ r = .error .valueError := by
    simp only [Py.raise, Exec_ret, Prod.mk.injEq]
    constructor
    · rintro ⟨h1, h2, h3⟩; exact ⟨h3.symm, h1, h2.symm⟩
    · rintro ⟨h1, h2, h3⟩; exact ⟨h2, h3.symm, h1.symm⟩
  by_cases h1 : mySk.length = 32
  · by_cases h2 : peerPk.length = 32
    · rw [if_neg (by simp [b1, h1]), if_neg (by simp [b2, h2])]
      simp only [h1, h2, Py.env, Py.call, Exec_op, Exec_ret, Prod.mk.injEq]
      constructor
      · rintro ⟨r', tr', rfl, rfl, rfl, rfl⟩
        exact ⟨rfl, .inl ⟨trivial, trivial, rfl⟩⟩
      · rintro ⟨rfl, ⟨_, _, rfl⟩ | ⟨h, _⟩⟩
        · exact ⟨r, [], rfl, rfl, rfl, rfl⟩
        · simp at h
    · rw [if_neg (by simp [b1, h1]), if_pos (by simp [b2, h2]), hr]
      simp [h1, h2]
  · rw [if_pos (by simp [b1, h1]), hr]
    simp [h1]

/-- C51: with key pairs for which the backend works, both sides compute the same 32-byte key. -/
theorem C51_agree (a : Api) (x y : KeyPair) (h : DHLaw a.toLib x y) :
    ∃ k, k.length = 32 ∧ SaltLib.computeSharedKey (some a) x.sec y.pub = .ok k ∧
      SaltLib.computeSharedKey (some a) y.sec x.pub = .ok k := by
  obtain ⟨k, hk, h1, h2⟩ := h.works
  refine ⟨k, hk, ?_, ?_⟩
  · simp [SaltLib.computeSharedKey, onApi, boxSecretKeyBytes, boxPublicKeyBytes, h.aSec, h.bPub, h1]
  · simp [SaltLib.computeSharedKey, onApi, boxSecretKeyBytes, boxPublicKeyBytes, h.bSec, h.aPub, h2]

example : Call (σ := Unit) (computeSharedKey (zeros 31) (zeros 32)) () [] (.error .valueError) () :=
  (C51_compute_shared_key _ _ _ _ _ _).mpr ⟨rfl, .inr ⟨by simp [zeros], rfl, rfl⟩⟩

/-! ### C52: the native backend -/

theorem bufferRaw_eq (n : Nat) (w : Bytes) (h : w.length = n) : bufferRaw n w = w := by
  simp [bufferRaw, ← h]

/-- C52: if libsodium follows NaCl's padding convention, `SaltLibNative` is a box without padding:
total, 16 bytes longer than the message, opening exactly what was sealed and raising
BadEncryptedDataException otherwise. -/
theorem C52_native_box (S : Sodium) (h : NaclBox S) : BoxLaw (nativeApi S).toLib where
  total m n k hn hk := by
    obtain ⟨c, hc, hl⟩ := h.seals m n k hn hk
    refine ⟨c, ?_, by omega⟩
    have e : (zeros 32 ++ m).length = 32 + m.length := by rw [List.length_append, zeros_length]
    simp only [nativeApi, Native.boxAfternm, e, hc, Native.wrap]
    have e2 : (zeros 16 ++ c).length = 32 + m.length := by rw [List.length_append, zeros_length]; omega
    simp [bufferRaw_eq _ _ e2, zeros_length]
    rfl
  open_iff c m n k hn hk := by
    have e : (zeros 16 ++ c).length = 16 + c.length := by rw [List.length_append, zeros_length]
    have e' : (zeros 32 ++ m).length = 32 + m.length := by rw [List.length_append, zeros_length]
    constructor
    · intro ho
      rcases hx : S.boxOpenAfternm (zeros 16 ++ c) (16 + c.length) n k with ⟨code, w⟩
      simp only [nativeApi, Native.boxOpenAfternm, e, hx] at ho
      by_cases h0 : code = 0
      · subst h0
        obtain ⟨m', rfl, hs⟩ := h.genuine c n k w hn hk hx
        obtain ⟨c', hc', hl⟩ := h.seals m' n k hn hk
        rw [hs] at hc'
        simp only [Prod.mk.injEq, List.append_cancel_left_eq, true_and] at hc'
        subst hc'
        have e2 : (zeros 32 ++ m').length = 16 + c.length := by rw [List.length_append, zeros_length]; omega
        simp only [ne_eq, not_true, if_false, bufferRaw_eq _ _ e2, Except.ok.injEq,
          List.drop_left' (zeros_length 32)] at ho
        subst ho
        simp only [nativeApi, Native.boxAfternm, e', hs, Native.wrap]
        have e3 : (zeros 16 ++ c).length = 32 + m'.length := by rw [List.length_append, zeros_length]; omega
        simp [bufferRaw_eq _ _ e3, zeros_length]
        rfl
      · simp [h0] at ho
    · intro hb
      obtain ⟨c', hc', hl⟩ := h.seals m n k hn hk
      simp only [nativeApi, Native.boxAfternm, e', hc', Native.wrap] at hb
      have e3 : (zeros 16 ++ c').length = 32 + m.length := by rw [List.length_append, zeros_length]; omega
      have hb' : c' = c := by
        simpa [bufferRaw_eq _ _ e3, zeros_length, pure, Except.pure, bind, Except.bind] using hb
      subst hb'
      have := h.opens m c' n k hn hk hc'
      have e2 : (zeros 32 ++ m).length = 16 + c'.length := by rw [List.length_append, zeros_length]; omega
      simp only [nativeApi, Native.boxOpenAfternm, e, this, ne_eq, not_true, if_false,
        bufferRaw_eq _ _ e2, List.drop_left' (zeros_length 32)]
  open_err c n k er _ _ ho := by
    simp only [nativeApi, Native.boxOpenAfternm] at ho
    split at ho
    · simp only [Except.error.injEq] at ho; exact ho.symm
    · simp at ho

/-- C52: signatures of the native backend. -/
theorem C52_native_sign (S : Sodium) (kp : KeyPair) (h : NaclSign S kp) :
    SigLaw (nativeApi S).toLib kp where
  pub := h.pub
  works m := by
    obtain ⟨sig, hl, h1, h2⟩ := h.works m
    refine ⟨sig, hl, ?_, ?_⟩
    · have e : (sig ++ m).length = m.length + 64 := by simp [hl]; omega
      simp [nativeApi, Native.sign, h1, Native.wrap, bufferRaw_eq _ _ e, pure, Except.pure, bind,
        Except.bind]
    · have e : (sig ++ m).length = 64 + m.length := by simp [hl]
      simp only [nativeApi, Native.signOpen, e, h2]
      simp only [ne_eq, not_true, if_false, Except.ok.injEq, bufferRaw, List.take_take]
      rw [Nat.min_eq_left (by omega), List.take_left]

/-- C52: key agreement of the native backend. -/
theorem C52_native_dh (S : Sodium) (a b : KeyPair) (h : NaclDH S a b) :
    DHLaw (nativeApi S).toLib a b where
  aSec := h.aSec
  aPub := h.aPub
  bSec := h.bSec
  bPub := h.bPub
  works := by
    obtain ⟨k, hk, h1, h2⟩ := h.works
    refine ⟨k, hk, ?_, ?_⟩ <;>
      simp [nativeApi, Native.boxBeforenm, h1, h2, Native.wrap, bufferRaw_eq _ _ hk, pure,
        Except.pure, bind, Except.bind]

/-- C52: the hash of the native backend. -/
theorem C52_native_hash (S : Sodium) (h : NaclHash S) : HashLaw (nativeApi S).toLib := by
  intro m
  obtain ⟨d, hd, h1⟩ := h m
  exact ⟨d, by simp [nativeApi, Native.hash, h1, Native.wrap, bufferRaw_eq _ _ hd, pure,
    Except.pure, bind, Except.bind]⟩

/-- C52: a libsodium following NaCl's conventions makes the native backend everything the session
theorems (C21, C33, C47, C57 …) ask of a library. -/
theorem C52_native_honest (S : Sodium) (kc ks sc ss : KeyPair) (hb : NaclBox S) (hh : NaclHash S)
    (hd : NaclDH S kc ks) (hc : NaclSign S sc) (hs : NaclSign S ss) :
    Honest (nativeApi S).toLib kc ks sc ss where
  box := C52_native_box S hb
  hash := C52_native_hash S hh
  dh := C52_native_dh S _ _ hd
  sigC := C52_native_sign S _ hc
  sigS := C52_native_sign S _ hs

/-- The hypotheses are satisfiable. -/
example : Honest (nativeApi toySodium).toLib ⟨zeros 32, zeros 32⟩
    ⟨List.replicate 32 1, List.replicate 32 1⟩ ⟨zeros 64, (zeros 64).drop 32⟩
    ⟨List.replicate 64 7, (List.replicate 64 7).drop 32⟩ :=
  C52_native_honest _ _ _ _ _ toySodium_box toySodium_hash
    (toySodium_dh _ _ (by simp [zeros]) (by simp)) (toySodium_sign _ (by simp [zeros]))
    (toySodium_sign _ (by simp))

/-! ### C61: failures of the opening functions -/

/-- C61: every backend signals a failed verification with BadSignatureException and a failed
decryption with BadEncryptedDataException, whatever the foreign functions do. -/
theorem C61_open_errors (a : Api) (h : (∃ S, a = nativeApi S) ∨ ∃ B, a = bindingsApi B)
    (x y z : Bytes) (e : Err) :
    (a.signOpen x y = .error e → e = .badSignature) ∧
    (a.boxOpen x y z = .error e → e = .badEncryptedData) := by
  rcases h with ⟨S, rfl⟩ | ⟨B, rfl⟩
  · constructor <;> intro h
    · simp only [nativeApi, Native.signOpen] at h
      split at h
      · simp only [Except.error.injEq] at h; exact h.symm
      · simp at h
    · simp only [nativeApi, Native.boxOpenAfternm] at h
      split at h
      · simp only [Except.error.injEq] at h; exact h.symm
      · simp at h
  · constructor <;> intro h
    · simp only [bindingsApi, reraise] at h
      split at h
      · simp at h
      · simp only [Except.error.injEq] at h; exact h.symm
    · simp only [bindingsApi, reraise] at h
      split at h
      · simp at h
      · simp only [Except.error.injEq] at h; exact h.symm

/-- C61: the native backend raises nothing but ValueError, BadSignatureException and
BadEncryptedDataException. -/
theorem C61_native_errors (S : Sodium) (x y z : Bytes) (e : Err) :
    ((nativeApi S).sign x y = .error e → e = .valueError) ∧
    ((nativeApi S).hash x = .error e → e = .valueError) ∧
    ((nativeApi S).beforenm x y = .error e → e = .valueError) ∧
    ((nativeApi S).box x y z = .error e → e = .valueError) ∧
    ((nativeApi S).signKeypair x = .error e → e = .valueError) ∧
    ((nativeApi S).boxKeypair x = .error e → e = .valueError) := by
  have hw : ∀ {α : Type} (code : Int) (f : Except Err α), (∀ e', f = .error e' → e' = .valueError) →
      (Native.wrap code >>= fun _ => f) = .error e → e = .valueError := by
    intro α code f hf h
    simp only [Native.wrap] at h
    split at h
    · simp only [bind, Except.bind, Except.error.injEq] at h; exact h.symm
    · exact hf _ h
  refine ⟨?_, ?_, ?_, ?_, ?_, ?_⟩ <;> intro h
  · exact hw _ _ (by intro e' h'; simp [pure, Except.pure] at h') h
  · exact hw _ _ (by intro e' h'; simp [pure, Except.pure] at h') h
  · exact hw _ _ (by intro e' h'; simp [pure, Except.pure] at h') h
  · exact hw _ _ (by intro e' h'; simp [pure, Except.pure] at h') h
  · simp only [nativeApi, Native.signKeypair] at h
    split at h
    · simp only [Except.error.injEq] at h; exact h.symm
    · exact hw _ _ (by intro e' h'; simp [pure, Except.pure] at h') h
  · simp only [nativeApi, Native.boxKeypair] at h
    split at h
    · simp only [Except.error.injEq] at h; exact h.symm
    · exact hw _ _ (by intro e' h'; simp [pure, Except.pure] at h') h

example : (nativeApi toySodium).boxOpen (zeros 20) (zeros 24) (List.replicate 32 3) =
    .error .badEncryptedData := by decide

/-! ### C62: key pairs -/

/-- C62: signing key pairs are made from the first 32 bytes of the secret, and shorter secrets raise
ValueError; encryption key pairs are made from exactly 32 bytes, which are the secret key. -/
theorem C62_key_pairs (a : Api) (h : (∃ S, a = nativeApi S) ∨ ∃ B, a = bindingsApi B) (sec : Bytes) :
    (sec.length < 32 → SaltLib.createSigKeysFromSec (some a) sec = .error .valueError) ∧
    (∀ rest, sec.length = 32 → SaltLib.createSigKeysFromSec (some a) (sec ++ rest) =
      SaltLib.createSigKeysFromSec (some a) sec) ∧
    (sec.length ≠ 32 → SaltLib.createEncKeysFromSec (some a) sec = .error .valueError) ∧
    (∀ kp, SaltLib.createEncKeysFromSec (some a) sec = .ok kp → sec.length = 32 ∧ kp.sec = sec) := by
  refine ⟨?_, ?_, ?_, ?_⟩
  · intro hl
    have hs : (slice sec 0 32).length ≠ 32 := by simp [slice]; omega
    rcases h with ⟨S, rfl⟩ | ⟨B, rfl⟩
    · simp [SaltLib.createSigKeysFromSec, onApi, nativeApi, Native.signKeypair, hs, bind, Except.bind]
    · simp [SaltLib.createSigKeysFromSec, onApi, bindingsApi, hs, bind, Except.bind]
  · intro rest hl
    have : slice (sec ++ rest) 0 32 = slice sec 0 32 := by
      simp only [slice, List.drop_zero]
      rw [← hl, List.take_left, List.take_length]
    simp only [SaltLib.createSigKeysFromSec, this]
  · intro hl
    rcases h with ⟨S, rfl⟩ | ⟨B, rfl⟩
    · simp [SaltLib.createEncKeysFromSec, onApi, nativeApi, Native.boxKeypair, hl, bind, Except.bind]
    · simp [SaltLib.createEncKeysFromSec, onApi, bindingsApi, hl, bind, Except.bind]
  · intro kp hk
    rcases h with ⟨S, rfl⟩ | ⟨B, rfl⟩
    · simp only [SaltLib.createEncKeysFromSec, onApi, nativeApi, Native.boxKeypair, Native.wrap] at hk
      by_cases hl : sec.length = 32
      · simp only [hl, ne_eq, not_true, if_false] at hk
        split at hk <;> simp [bind, Except.bind, pure, Except.pure] at hk
        exact ⟨hl, by rw [← hk]⟩
      · simp [hl, bind, Except.bind] at hk
    · simp only [SaltLib.createEncKeysFromSec, onApi, bindingsApi] at hk
      by_cases hl : sec.length = 32
      · simp only [hl, ne_eq, not_true, if_false] at hk
        cases hb : B.scalarmultBase sec with
        | error e => simp [hb, Except.map, bind, Except.bind] at hk
        | ok pk =>
          simp [hb, Except.map, bind, Except.bind, pure, Except.pure] at hk
          exact ⟨hl, by rw [← hk]⟩
      · simp [hl, bind, Except.bind] at hk

example : SaltLib.createEncKeysFromSec (some (nativeApi toySodium)) (zeros 32) =
    .ok ⟨zeros 32, zeros 32⟩ := by decide

end Salt.Props
