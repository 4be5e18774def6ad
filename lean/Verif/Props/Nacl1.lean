import Verif.Spec.Nacl
import Verif.Props.PureBox
import Verif.Props.PureAgree
import Verif.Props.PureSignOpen
import Verif.Props.Saltlib1
import Verif.Props.Net1

/-! C89: with the standard algorithms a library is everything that the theorems about sessions ask for. -/

namespace Salt.Props

open Salt Salt.Spec

theorem secretbox_length' {k n : Bytes} (hk : k.length = 32) (hn : n.length = 24) (m : Bytes) : (Spec.secretbox k n m).length = 16 + m.length := by
  unfold Spec.secretbox
  simp only
  rw [List.length_append, Tweet.spec_poly1305_length, Tweet.xorBytes_length, List.length_drop, Tweet.xsalsaStream_length hk hn]
  omega

theorem secretboxOpen_iff {k n : Bytes} (hk : k.length = 32) (hn : n.length = 24) (c m : Bytes) :
    Spec.secretboxOpen k n c = some m ↔ c = Spec.secretbox k n m := by
  have hx := Tweet.xsalsaStream_length hk hn
  constructor
  · intro h
    unfold Spec.secretboxOpen at h
    split at h
    · rename_i hc
      have h := Option.some.inj h
      subst h
      unfold Spec.secretbox
      have e : (xorBytes (c.drop 16) ((xsalsaStream k n (32 + (c.length - 16))).drop 32)).length = c.length - 16 := by
        rw [Tweet.xorBytes_length, List.length_drop, List.length_drop, hx]
        omega
      simp only [e]
      rw [xorBytes_self _ _ (by rw [List.length_drop, List.length_drop, hx]; omega), xsalsaStream_take hk hn 32 _ (by omega), ← hc.2, List.take_append_drop]
    · cases h
  · intro h
    have hb := (is_box hk hn c).mp ⟨m, h⟩
    unfold Spec.secretboxOpen
    rw [if_pos hb]
    have hl : c.length - 16 = m.length := by rw [h, secretbox_length' hk hn]; omega
    rw [hl, h]
    unfold Spec.secretbox
    simp only
    rw [List.drop_left' (Tweet.spec_poly1305_length _ _), xorBytes_self _ _ (by rw [List.length_drop, hx]; omega)]

/-- C89: the box. -/
theorem C89_box (c : Nat) (b : Bool) : NaclBox (naclSodium c b) where
  seals m n k hn hk := by
    refine ⟨Spec.secretbox k n m, ?_, secretbox_length' hk hn m⟩
    simp only [naclSodium]
    rw [if_neg (by omega), List.take_of_length_le (by rw [List.length_append, zeros_length]), List.drop_left' (zeros_length 32)]
  opens m c n k hn hk h := by
    simp only [naclSodium] at h ⊢
    rw [if_neg (by omega), List.take_of_length_le (by rw [List.length_append, zeros_length]), List.drop_left' (zeros_length 32)] at h
    have h := List.append_cancel_left (Prod.mk.inj h).2
    have hl := secretbox_length' hk hn m
    rw [h] at hl
    rw [if_neg (by omega), List.take_of_length_le (by rw [List.length_append, zeros_length]), List.drop_left' (zeros_length 16), (secretboxOpen_iff hk hn c m).mpr h.symm]
  genuine c n k w hn hk h := by
    simp only [naclSodium] at h ⊢
    split at h
    · simp at h
    rw [List.take_of_length_le (by rw [List.length_append, zeros_length]), List.drop_left' (zeros_length 16)] at h
    split at h
    · simp at h
    · rename_i m hm
      refine ⟨m, (Prod.mk.inj h).2.symm, ?_⟩
      rw [if_neg (by omega), List.take_of_length_le (by rw [List.length_append, zeros_length]), List.drop_left' (zeros_length 32), ← (secretboxOpen_iff hk hn c m).mp hm]

/-- C89: the hash. -/
theorem C89_hash (c : Nat) (b : Bool) : NaclHash (naclSodium c b) := by
  intro m
  refine ⟨Spec.sha512 m, ?_, ?_⟩
  · exact Tweet.sha512_length m
  · simp only [naclSodium]
    rw [List.take_length]

theorem valid_mul (c : Nat) {seed m sig : Bytes} (h : EdValid 1 (edPublic seed) m sig) : EdValid c (edPublic seed) m sig := by
  rw [public_point] at h ⊢
  rw [valid_iff] at h ⊢
  obtain ⟨h1, h2, R, h3, h4⟩ := h
  refine ⟨h1, h2, R, h3, ?_⟩
  rw [one_nsmul, one_nsmul, one_nsmul] at h4
  rw [h4, nsmul_add]

/-- C89: signatures, with the key pair of any seed. -/
theorem C89_sign (c : Nat) (b : Bool) (seed : Bytes) (h : seed.length = 32) : NaclSign (naclSodium c b) ⟨seed ++ edPublic seed, edPublic seed⟩ where
  pub := Tweet.edEncode_length _
  works m := by
    have hl := C84_length seed (edPublic seed) m
    refine ⟨edSign seed (edPublic seed) m, hl, ?_, ?_⟩
    · simp only [naclSodium]
      rw [List.take_length, List.take_left' h, List.drop_left' h]
    · simp only [naclSodium]
      rw [List.take_of_length_le (by rw [List.length_append, hl]), List.drop_left' hl, List.take_left' hl, if_pos]
      · rw [Nat.add_sub_cancel_left]
      · exact valid_mul c (C85_valid seed m)

theorem nacl_beforenm (c : Nat) (b : Bool) (pk sk u : Bytes) (h : x25519 sk pk = u) (hu : u ≠ zeros 32) :
    (naclSodium c b).boxBeforenm pk sk = (0, hsalsa20 u (zeros 16)) := by
  subst h
  simp only [naclSodium]
  rw [if_neg (fun h => hu h.2)]

theorem nacl_dh (c : Nat) (b : Bool) (x y u v : Bytes) (hx : x.length = 32) (hy : y.length = 32) (hu : u.length = 32) (hv : v.length = 32)
    (k : Bytes) (hk : k.length = 32) (h0 : k ≠ zeros 32) (h1 : x25519 x v = k) (h2 : x25519 y u = k) :
    NaclDH (naclSodium c b) ⟨x, u⟩ ⟨y, v⟩ where
  aSec := hx
  aPub := hu
  bSec := hy
  bPub := hv
  works := ⟨_, hsalsa20_length k hk, nacl_beforenm c b v x k h1 h0, nacl_beforenm c b u y k h2 h0⟩

/-- C89: the key agreement, for all secret keys. -/
theorem C89_dh (c : Nat) (b : Bool) (x y : Bytes) (hx : x.length = 32) (hy : y.length = 32) :
    NaclDH (naclSodium c b) ⟨x, x25519 x base9⟩ ⟨y, x25519 y base9⟩ :=
  nacl_dh c b x y _ _ hx hy (x25519_length _ _) (x25519_length _ _) _ (x25519_length x (x25519 y base9))
    (fun h => public_not_small y hy ((C88_zero_iff x _ hx).mp h)) rfl (C87_commutes y x base9 hy hx)

/-- C89: the key pairs that `SaltLib` makes with the native backend. -/
theorem C89_keys (c : Nat) (b : Bool) (sec : Bytes) (h : sec.length = 32) :
    SaltLib.createEncKeysFromSec (some (nativeApi (naclSodium c b))) sec = .ok ⟨sec, x25519 sec base9⟩ ∧
    SaltLib.createSigKeysFromSec (some (nativeApi (naclSodium c b))) sec = .ok ⟨sec ++ edPublic sec, edPublic sec⟩ := by
  have e1 : bufferRaw 32 (x25519 sec base9) = x25519 sec base9 := bufferRaw_eq _ _ (x25519_length _ _)
  have e2 : bufferRaw 32 (edPublic sec) = edPublic sec := bufferRaw_eq _ _ (Tweet.edEncode_length _)
  have e3 : bufferRaw 64 (sec ++ edPublic sec) = sec ++ edPublic sec :=
    bufferRaw_eq _ _ (by rw [List.length_append, h, show (edPublic sec).length = 32 from Tweet.edEncode_length _])
  have hs : slice sec 0 32 = sec := by
    unfold slice
    simp [h]
  constructor
  · unfold SaltLib.createEncKeysFromSec onApi nativeApi Native.boxKeypair
    simp only
    rw [if_neg (by omega)]
    simp only [naclSodium, Native.wrap, e1]
    rfl
  · unfold SaltLib.createSigKeysFromSec onApi nativeApi Native.signKeypair
    simp only
    rw [hs, if_neg (by omega)]
    simp only [naclSodium, Native.wrap, e2, e3]
    rfl

/-- C89: key pairs made from any secrets of 32 bytes satisfy, together with the native backend, what the theorems about
sessions ask for. -/
theorem C89_honest (c : Nat) (b : Bool) (x y s t : Bytes) (hx : x.length = 32) (hy : y.length = 32) (hs : s.length = 32) (ht : t.length = 32)
    (kc ks sc ss : KeyPair)
    (h1 : SaltLib.createEncKeysFromSec (some (nativeApi (naclSodium c b))) x = .ok kc)
    (h2 : SaltLib.createEncKeysFromSec (some (nativeApi (naclSodium c b))) y = .ok ks)
    (h3 : SaltLib.createSigKeysFromSec (some (nativeApi (naclSodium c b))) s = .ok sc)
    (h4 : SaltLib.createSigKeysFromSec (some (nativeApi (naclSodium c b))) t = .ok ss) :
    Honest (nativeApi (naclSodium c b)).toLib kc ks sc ss := by
  rw [(C89_keys c b x hx).1] at h1
  rw [(C89_keys c b y hy).1] at h2
  rw [(C89_keys c b s hs).2] at h3
  rw [(C89_keys c b t ht).2] at h4
  have h1 := Except.ok.inj h1
  have h2 := Except.ok.inj h2
  have h3 := Except.ok.inj h3
  have h4 := Except.ok.inj h4
  subst h1 h2 h3 h4
  exact C52_native_honest _ _ _ _ _ (C89_box c b) (C89_hash c b) (C89_dh c b x y hx hy) (C89_sign c b s hs) (C89_sign c b t ht)

/-- C89: a session between parties with key pairs made from any secrets, using the native backend: it ends as if the two
programs were directly connected, with the same key on both sides and the right signing keys. -/
theorem C89_session {α β : Type} (c : Nat) (b : Bool) (x y s t : Bytes) (hx : x.length = 32) (hy : y.length = 32) (hs : s.length = 32) (ht : t.length = 32)
    (kc ks : KeyPair) {cc cs : Clock} (hcc : Spec.Accepts cc cs) (hcs : Spec.Accepts cs cc) (cfgC : ClientCfg) (cfgS : ServerCfg)
    (hc : cfgC.encKp = some kc) (hsv : cfgS.encKp = some ks)
    (h1 : SaltLib.createEncKeysFromSec (some (nativeApi (naclSodium c b))) x = .ok kc)
    (h2 : SaltLib.createEncKeysFromSec (some (nativeApi (naclSodium c b))) y = .ok ks)
    (h3 : SaltLib.createSigKeysFromSec (some (nativeApi (naclSodium c b))) s = .ok cfgC.sigKp)
    (h4 : SaltLib.createSigKeysFromSec (some (nativeApi (naclSodium c b))) t = .ok cfgS.sigKp)
    (pA : IT appSig α) (pB : IT appSig β) {n : Nat} (hn : n ≤ 2 ^ 62) (hA : Modest 65535 pA n) (hB : Modest 65535 pB n)
    (hb : cfgC.bufferM4 = true → ∃ ms l k, pA = .op (S := appSig) (.write ms l) k) :
    ∃ key k1 k2, KeysOf (nativeApi (naclSodium c b)).toLib cc cs cfgS.bufferM2 kc ks key k1 k2 ∧ SameOutcome
      (ClientEnd key k1 k2 cfgS.sigKp.pub) (ServerEnd key k1 k2 cfgC.sigKp.pub)
      (Net.start pA pB)
      (Net.start (party (nativeApi (naclSodium c b)).toLib cc (clientSession cfgC pA) 0)
        (party (nativeApi (naclSodium c b)).toLib cs (serverSession cfgS pB) 0)) :=
  C47_end_to_end ⟨C89_honest c b x y s t hx hy hs ht kc ks _ _ h1 h2 h3 h4, hc, hsv, hcc, hcs⟩ pA pB hn hA hB hb

/-- The session of two parties that write one message each and read one, with secrets that repeat one byte. -/
example : ∃ kc ks sc ss key k1 k2, KeysOf (nativeApi (naclSodium 8 true)).toLib exClock exClock false kc ks key k1 k2 ∧ SameOutcome
    (ClientEnd key k1 k2 ss.pub) (ServerEnd key k1 k2 sc.pub)
    (Net.start (.op (S := appSig) (.write [[1, 2, 3]] false) fun _ => .op (S := appSig) .read fun r => .ret r)
      (.op (S := appSig) .read fun r => .op (S := appSig) (.write [[4]] false) fun _ => .ret r))
    (Net.start
      (party (nativeApi (naclSodium 8 true)).toLib exClock
        (clientSession { sigKp := sc, encKp := some kc, bufferM4 := true, wantedServerSigKey := [] }
          (.op (S := appSig) (.write [[1, 2, 3]] false) fun _ => .op (S := appSig) .read fun r => .ret r)) 0)
      (party (nativeApi (naclSodium 8 true)).toLib exClock
        (serverSession { sigKp := ss, encKp := some ks, bufferM2 := false, a2 := none }
          (.op (S := appSig) .read fun r => .op (S := appSig) (.write [[4]] false) fun _ => .ret r)) 0)) := by
  have hl : ∀ i : UInt8, (List.replicate 32 i).length = 32 := fun _ => List.length_replicate
  obtain ⟨kc, h1⟩ : ∃ k, _ = Except.ok (ε := Err) k := ⟨_, (C89_keys 8 true (List.replicate 32 1) (hl _)).1⟩
  obtain ⟨ks, h2⟩ : ∃ k, _ = Except.ok (ε := Err) k := ⟨_, (C89_keys 8 true (List.replicate 32 2) (hl _)).1⟩
  obtain ⟨sc, h3⟩ : ∃ k, _ = Except.ok (ε := Err) k := ⟨_, (C89_keys 8 true (List.replicate 32 3) (hl _)).2⟩
  obtain ⟨ss, h4⟩ : ∃ k, _ = Except.ok (ε := Err) k := ⟨_, (C89_keys 8 true (List.replicate 32 4) (hl _)).2⟩
  refine ⟨kc, ks, sc, ss, C89_session 8 true _ _ _ _ (hl _) (hl _) (hl _) (hl _) kc ks ?_ ?_
    { sigKp := sc, encKp := some kc, bufferM4 := true, wantedServerSigKey := [] }
    { sigKp := ss, encKp := some ks, bufferM2 := false, a2 := none } rfl rfl h1 h2 h3 h4 _ _ (n := 1) (by omega) ?_ ?_ ?_⟩
  · exact ⟨fun _ _ => rfl, fun _ _ => rfl, fun _ _ => rfl⟩
  · exact ⟨fun _ _ => rfl, fun _ _ => rfl, fun _ _ => rfl⟩
  · exact ⟨by simp, by simp, by simp, fun _ _ => trivial⟩
  · exact fun _ => ⟨by simp, by simp, by simp, fun _ => trivial⟩
  · exact fun _ => ⟨_, _, _, rfl⟩

end Salt.Props
