import Verif.Model.TestData
import Verif.Props.Nacl1
import Verif.Props.ClientServer
import Verif.Props.AioExamples
import Verif.Props.Transcript

/-!
# The keys of the examples (C110)

The key pairs in `CryptoTestData` are key pairs, and the example sessions, with these keys and the standard algorithms,
end as they should, with the session key of "Cryptography in NaCl" (the value that `example_session1.py` prints).
-/

namespace Salt.Props

open Salt Salt.Spec Salt.CryptoTestData

/-- The first key of Alice and Bob in "Cryptography in NaCl", section 8. -/
def naclKey : Bytes := digitsBE 32 0x1b27556473e985d462cd51197a9a46c76009549eac6474f206c4ee0844f68389

/-- The key pairs for signing. -/
def testSig : List KeyPair := [aSig, bSig, cSig, dSig]

/-- The key pairs for encryption. -/
def testEnc : List KeyPair := [aEnc, bEnc, cEnc, dEnc]

theorem sig_data : ∀ kp ∈ testSig, (kp.sec.take 32).length = 32 ∧ kp.pub = edPublic (kp.sec.take 32) ∧ kp.sec = kp.sec.take 32 ++ kp.pub := by
  simp only [testSig, List.forall_mem_cons, List.not_mem_nil, false_imp_iff, implies_true, and_true]
  unfold edPublic
  simp only [encodeBase_fast]
  decide +kernel

theorem enc_data : ∀ kp ∈ testEnc, kp.sec.length = 32 ∧ kp.pub = x25519 kp.sec base9 := by
  simp only [testEnc, List.forall_mem_cons, List.not_mem_nil, false_imp_iff, implies_true, and_true]
  simp only [x25519_fast]
  decide +kernel

theorem shared_data : x25519 aEnc.sec bEnc.pub = x25519 bEnc.sec aEnc.pub ∧ x25519 aEnc.sec bEnc.pub ≠ zeros 32 ∧
    hsalsa20 (x25519 aEnc.sec bEnc.pub) (zeros 16) = naclKey := by
  rw [x25519_fast, x25519_fast]
  decide +kernel

/-- **C110.** The key pairs for signing: the secret key is a seed followed by the public key, and both the native backend
(with the standard algorithms) and the pure Python one make this key pair from it. -/
theorem C110_sig (c : Nat) (b : Bool) : ∀ kp ∈ testSig, kp.sec.length = 64 ∧ kp.pub.length = 32 ∧ kp.pub = kp.sec.drop 32 ∧
    SaltLib.createSigKeysFromSec (some (nativeApi (naclSodium c b))) kp.sec = .ok kp ∧
    Pure.signKeypair (kp.sec.take 32) = .ok (kp.pub, kp.sec) := by
  intro kp h
  obtain ⟨h1, h2, h3⟩ := sig_data kp h
  have hp : kp.pub.length = 32 := by rw [h2]; exact Tweet.edEncode_length _
  have hl : kp.sec.length = 64 := by rw [h3, List.length_append, h1, hp]
  refine ⟨hl, hp, ?_, ?_, ?_⟩
  · conv_rhs => rw [h3]
    rw [List.drop_left' h1]
  · have hs : slice kp.sec 0 32 = slice (kp.sec.take 32) 0 32 := by
      unfold slice
      simp
    have e := (C89_keys c b (kp.sec.take 32) h1).2
    rw [← h2, ← h3] at e
    unfold SaltLib.createSigKeysFromSec at e ⊢
    rw [hs]
    exact e
  · rw [C83_keypair _ h1, ← h2, ← h3]

/-- **C110.** The key pairs for encryption: both backends make the key pair from its secret key. -/
theorem C110_enc (c : Nat) (b : Bool) : ∀ kp ∈ testEnc, kp.sec.length = 32 ∧ kp.pub.length = 32 ∧
    SaltLib.createEncKeysFromSec (some (nativeApi (naclSodium c b))) kp.sec = .ok kp ∧
    Pure.boxKeypair kp.sec = .ok (kp.pub, kp.sec) := by
  intro kp h
  obtain ⟨h1, h2⟩ := enc_data kp h
  refine ⟨h1, by rw [h2]; exact x25519_length _ _, ?_, ?_⟩
  · rw [(C89_keys c b kp.sec h1).1, ← h2]
  · rw [C81_keypair _ h1, ← h2]

/-- **C110.** The shared key of `aEnc` and `bEnc` is the one in "Cryptography in NaCl", for both sides and both backends. -/
theorem C110_shared (c : Nat) (b : Bool) (w : Nat) (hw : 32 ≤ w) :
    (nativeApi (naclSodium c b)).beforenm bEnc.pub aEnc.sec = .ok naclKey ∧
    (nativeApi (naclSodium c b)).beforenm aEnc.pub bEnc.sec = .ok naclKey ∧
    Pure.boxBeforenm w bEnc.pub aEnc.sec = .ok naclKey ∧ Pure.boxBeforenm w aEnc.pub bEnc.sec = .ok naclKey := by
  obtain ⟨h1, h2, h3⟩ := shared_data
  have hn : bufferRaw 32 naclKey = naclKey := bufferRaw_eq _ _ (by decide +kernel)
  have e : ∀ pk sk, x25519 sk pk = x25519 aEnc.sec bEnc.pub → (nativeApi (naclSodium c b)).beforenm pk sk = .ok naclKey := by
    intro pk sk h
    show (Native.wrap ((naclSodium c b).boxBeforenm pk sk).1 >>= fun _ => pure (bufferRaw 32 ((naclSodium c b).boxBeforenm pk sk).2)) = _
    rw [nacl_beforenm c b pk sk _ h h2, h3]
    simp only [Native.wrap, hn]
    rfl
  have p : ∀ pk sk, pk.length = 32 → sk.length = 32 → x25519 sk pk = x25519 aEnc.sec bEnc.pub → Pure.boxBeforenm w pk sk = .ok naclKey := by
    intro pk sk hp hs h
    rw [C82_beforenm w hw pk sk hp hs, h]
    exact congrArg _ h3
  exact ⟨e _ _ rfl, e _ _ h1.symm, p _ _ rfl rfl rfl, p _ _ rfl rfl h1.symm⟩

theorem nacl_size (c : Nat) (b : Bool) : BoxSize (nativeApi (naclSodium c b)).toLib := by
  intro m n k d h
  have h : (Native.wrap ((naclSodium c b).boxAfternm (zeros 32 ++ m) (zeros 32 ++ m).length n k).1 >>= fun _ =>
    pure ((bufferRaw (zeros 32 ++ m).length ((naclSodium c b).boxAfternm (zeros 32 ++ m) (zeros 32 ++ m).length n k).2).drop 16)) = Except.ok d := h
  generalize (naclSodium c b).boxAfternm (zeros 32 ++ m) (zeros 32 ++ m).length n k = r at h
  unfold Native.wrap at h
  split at h
  · cases h
  · have h := Except.ok.inj h
    rw [← h, List.length_drop, show ∀ n w, (bufferRaw n w).length = n by intro n w; simp [bufferRaw, zeros], List.length_append, zeros_length]
    omega

/-- **C110.** The parties of the example sessions are as they should be, whatever the buffering, with clocks that accept
each other's times. -/
theorem C110_setup (c : Nat) (b : Bool) {cc cs : Clock} (hc : Spec.Accepts cc cs) (hs : Spec.Accepts cs cc) {cfgC : ClientCfg} {cfgS : ServerCfg}
    (h1 : cfgC.sigKp = aSig) (h2 : cfgC.encKp = some aEnc) (h3 : cfgS.sigKp = bSig) (h4 : cfgS.encKp = some bEnc) :
    Setup (nativeApi (naclSodium c b)).toLib cc cs cfgC cfgS aEnc bEnc where
  honest := by
    have e := C110_enc c b
    have s := sig_data
    simp only [testEnc, testSig, List.forall_mem_cons] at e s
    rw [h1, h3]
    refine C89_honest c b _ _ (aSig.sec.take 32) (bSig.sec.take 32) e.1.1 e.2.1.1 s.1.1 s.2.1.1 _ _ _ _ e.1.2.2.1 e.2.1.2.2.1 ?_ ?_
    · rw [(C89_keys c b _ s.1.1).2, ← s.1.2.1, ← s.1.2.2]
    · rw [(C89_keys c b _ s.2.1.1).2, ← s.2.1.2.1, ← s.2.1.2.2]
  encC := h2
  encS := h4
  acceptsC := hc
  acceptsS := hs

theorem naclKey_of {c : Nat} {b : Bool} {cc cs : Clock} {b2 : Bool} {key h1 h2 : Bytes}
    (h : KeysOf (nativeApi (naclSodium c b)).toLib cc cs b2 aEnc bEnc key h1 h2) : key = naclKey :=
  Except.ok.inj (h.client.symm.trans (C110_shared c b 32 (by omega)).1)

section
variable (c : Nat) (b : Bool) {cc cs : Clock} (hc : Spec.Accepts cc cs) (hs : Spec.Accepts cs cc) (b4 b2 : Bool)
include hc hs

/-- **C110.** Example session 1 with its keys and the standard algorithms, with any request and buffering: whatever the
schedule, the client gets its request back, and both sides have the session key of "Cryptography in NaCl". -/
theorem C110_example1 (request : Bytes) :
    ∃ rc rs, EndsIn (Net.start
        (party (nativeApi (naclSodium c b)).toLib cc (clientSession (Example1.clientCfg b4) (Example1.client request ())) 0)
        (party (nativeApi (naclSodium c b)).toLib cs (serverSession (Example1.serverCfg b2) (Example1.server ())) 0)) ⟨.ret rc, .ret rs, [], []⟩ ∧
      rc.1 = .ok (.ok request, ()) ∧ rs.1 = .ok (.ok (), ()) ∧ rc.2.sessionKey = naclKey ∧ rs.2.sessionKey = naclKey ∧
      rs.2.clientSigKey = some aSig.pub := by
  obtain ⟨rc, rs, h, key, h1, h2, hk, e1, e2⟩ := C73_example1 (C110_setup c b hc hs (cfgC := Example1.clientCfg b4) (cfgS := Example1.serverCfg b2) rfl rfl rfl rfl) request
  have := naclKey_of hk
  subst this
  exact ⟨rc, rs, h, e1.1, e2.1, e1.2.1, e2.2.1, e2.2.2.2.2⟩

/-- **C110.** Example session 3. -/
theorem C110_example3 (r1 r21 r22 : Bytes) :
    ∃ rc rs, EndsIn (Net.start
        (party (nativeApi (naclSodium c b)).toLib cc (clientSession Example3.clientCfg (Example3.client r1 r21 r22 ())) 0)
        (party (nativeApi (naclSodium c b)).toLib cs (serverSession Example3.serverCfg (Example3.server ())) 0)) ⟨.ret rc, .ret rs, [], []⟩ ∧
      rc.1 = .ok (.ok (), ()) ∧ rs.1 = .ok (.ok (), ()) ∧ rc.2.sessionKey = naclKey ∧ rs.2.sessionKey = naclKey ∧
      rs.2.clientSigKey = some aSig.pub := by
  obtain ⟨rc, rs, h, key, h1, h2, hk, e1, e2⟩ := C73_example3 (C110_setup c b hc hs (cfgC := Example3.clientCfg) (cfgS := Example3.serverCfg) rfl rfl rfl rfl) r1 r21 r22
  have := naclKey_of hk
  subst this
  exact ⟨rc, rs, h, e1.1, e2.1, e1.2.1, e2.2.1, e2.2.2.2.2⟩

/-- **C112.** The counters of example session 1 with its keys and the standard algorithms. -/
theorem C112_shipped (clk : Nat → Nat) (i : Nat) :
    ∃ rc rs, rc.1 = .ok (.ok Example1.request, ()) ∧ rc.2.sessionKey = naclKey ∧
      EndsIn (Net.start
        (quiet clk (countedClient (nativeApi (naclSodium c b)).toLib cc (Example1.clientCfg true) (Example1.client Example1.request ()) { log := true }) i)
        (party (nativeApi (naclSodium c b)).toLib cs (serverSession (Example1.serverCfg true) (Example1.server ())) 0))
        ⟨.ret (rc, (158, 42), (188, 192)), .ret rs, [], []⟩ := by
  obtain ⟨rc, rs, ⟨key, h1, h2, hk, e1, -⟩, h⟩ := C112_example1 (C110_setup c b hc hs (cfgC := Example1.clientCfg true) (cfgS := Example1.serverCfg true) rfl rfl rfl rfl) rfl clk i
  have := naclKey_of hk
  subst this
  exact ⟨rc, rs, e1.1, e1.2.1, h⟩

/-- **C110.** Example session 1 as it is run by `MpClientServerPair`, over TCP and with any number of clients, whatever the
schedule and the segmentation: every client gets its request back, and prints that session key. -/
theorem C110_tcp (clk : Nat → Nat) (fuel : Nat) (reqs : List Bytes) (hreq : ∀ q ∈ reqs, CallFits [q]) :
    Farm.AllServed tcp reqs
      (fun q => SockNet.start
        (clientThread clk (party (nativeApi (naclSodium c b)).toLib cc (clientSession (Example1.clientCfg b4) (Example1.client q ())) 0))
        (onSocket (party (nativeApi (naclSodium c b)).toLib cs (sessionLoop (Example1.serverCfg b2) Example1.server (fuel + 2)) 0)))
      (fun q z => ∃ sc sm, Results ((.ok (.ok q, ()), sc), sm) (.ok ()) z ∧ sc.sessionKey = naclKey) := by
  obtain ⟨h1, h2, h3⟩ := C102_example1 (C110_setup c b hc hs (cfgC := Example1.clientCfg b4) (cfgS := Example1.serverCfg b2) rfl rfl rfl rfl) (nacl_size c b) clk fuel reqs hreq
  refine ⟨h1, h2, fun F hF hst => ⟨(h3 F hF hst).1, (h3 F hF hst).2.1, fun i q hq => ?_⟩⟩
  obtain ⟨x, e1, e2, e3, sc, sm, e4, key, k1, k2, hk, e5⟩ := (h3 F hF hst).2.2 i q hq
  have := naclKey_of hk
  subst this
  exact ⟨x, e1, e2, e3, sc, sm, e4, e5.2.1⟩

/-- **C110.** Example session 1 with coroutines. -/
theorem C110_asyncio (request : Bytes) (hr : request.length ≤ 2 ^ 31 - 29) :
    ∃ rc rs, BothFinish (nativeApi (naclSodium c b)).toLib cc cs
        (AioNet.pair (Example1A.client (Example1.clientCfg b4) request) (Example1A.server (Example1.serverCfg b2))) rc rs ∧
      rc.1 = .ok (.ok request, ()) ∧ rs.1 = .ok (.ok (), ()) ∧ rc.2.sessionKey = naclKey ∧ rs.2.sessionKey = naclKey ∧
      rs.2.clientSigKey = some aSig.pub := by
  obtain ⟨sc, ss, ⟨key, h1, h2, hk, e1, e2⟩, h⟩ := C98_example1 (C110_setup c b hc hs (cfgC := Example1.clientCfg b4) (cfgS := Example1.serverCfg b2) rfl rfl rfl rfl)
    (nacl_size c b) request hr
  have := naclKey_of hk
  subst this
  exact ⟨_, _, h, e1.1, e2.1, e1.2.1, e2.2.1, e2.2.2.2.2⟩

end

/-- The hypotheses can be met: the default clocks and the request of the example. -/
example : Spec.Accepts nullClock nullClock ∧ CallFits [Example1.request] ∧ Example1.request.length ≤ 2 ^ 31 - 29 :=
  ⟨C72_default_times.2.2.2, by simp [CallFits, Example1.request], by decide⟩

end Salt.Props
