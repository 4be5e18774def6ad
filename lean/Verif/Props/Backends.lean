import Verif.Spec.Backends
import Verif.Lemmas.Asks
import Verif.Lemmas.World
import Verif.Props.Degenerate

/-! C113–C115: what sessions ask of the crypto library, and sessions with different backends. -/

set_option linter.unusedSimpArgs false

namespace Salt.Props

open Salt Salt.Spec

theorem completed_chan {cfg : ServerCfg} {kp : KeyPair} {raw : Bytes} (h1 : LikeM1 raw) {tr : List (Ev env)} {s s' : ServerSt}
    (hcall : Call (Server.handshake cfg) s (⟨.read, .ok raw⟩ :: tr) (.ok ()) s') (hkp : cfg.encKp = some kp) :
    ∃ c, s'.chan = some c ∧ ∃ r, ⟨.beforenm (field raw 10 32) kp.sec, r⟩ ∈ tr := by
  obtain ⟨m, hm1⟩ := ctor_of_likeM1 h1
  rcases (server_ok hcall).ex with ⟨raw', e, a1, hm', -, hx, -⟩ | ⟨kp', raw1, m1, h1, m2, h2, k, mid, p4, m4, m4p, x, hkp', -, hs, -, -, -, -, hmid, -, -, -, hx, rfl⟩
  · have := (List.cons.inj hx).1
    simp only [Ev.mk.injEq, heq_eq_eq, Except.ok.injEq, true_and] at this
    rw [this, hm'] at hm1
    cases hm1
  · rw [hkp, Option.some.injEq] at hkp'
    subst hkp'
    simp only [List.cons_append, List.nil_append] at hx
    obtain ⟨hr, hx⟩ := List.cons.inj hx
    simp only [Ev.mk.injEq, heq_eq_eq, Except.ok.injEq, true_and] at hr
    refine ⟨_, rfl, .ok k, ?_⟩
    rw [hx, hr]
    cases hmid <;> simp

theorem completed_session {cfg : ServerCfg} {tr : List (Ev env)} {s' : ServerSt} {ch : AppSt}
    (hcall : Call (Server.handshake cfg) Server.init tr (.ok ()) s') (hch : s'.chan = some ch) :
    Exec (serverSession cfg (.ret ())) tr (.ok (), { s' with chan := some ch }) := by
  unfold serverSession
  rw [Exec_bind]
  refine ⟨_, _, [], (List.append_nil _).symm, hcall, ?_⟩
  simp only [serverAfter, hch, App.run]
  exact .ret _

/-- C113: whatever the network, the library and the time objects answer, a client only makes calls as `ClientAsks` says,
and computes shared keys only with keys it has read. -/
theorem C113_client {β : Type} (cfg : ClientCfg) (prog : IT appSig β) {tr : List (Ev env)} {r : Except Err β × ClientSt}
    (h : Exec (clientSession cfg prog) tr r) : (∀ ev ∈ tr, ClientAsks cfg ev.op) ∧ KeysRead offeredByServer tr :=
  clientSession_asks prog tr r h

/-- C113: the server. -/
theorem C113_server {β : Type} (cfg : ServerCfg) (prog : IT appSig β) {tr : List (Ev env)} {r : Except Err β × ServerSt}
    (h : Exec (serverSession cfg prog) tr r) : (∀ ev ∈ tr, ServerAsks cfg ev.op) ∧ KeysRead offeredByClient tr :=
  serverSession_asks prog tr r h

/-- C113 is not vacuous: a server that has read an M1 calls the library with the key in it. -/
example : ∃ tr s', Exec (serverSession naclServer (.ret ())) (⟨.read, .ok (Spec.m1 1 (zeros 32) none)⟩ :: tr) (.ok (), s') ∧
    ∃ r, ⟨.beforenm (zeros 32) (List.replicate 32 4), r⟩ ∈ tr := by
  obtain ⟨h1, h2, h3⟩ := small_m1 (Spec.m1 1 (zeros 32) none) (by simp)
  obtain ⟨tr, s', sig, c4, hcall, -⟩ := C90_completed 8 (cfg := naclServer) (kp := ⟨List.replicate 32 4, x25519 (List.replicate 32 4) base9⟩) rfl (x25519_length (List.replicate 32 4) base9) List.length_replicate
    (List.replicate 32 3) (List.replicate 32 5) List.length_replicate List.length_replicate rfl Server.init h1 (.inl h3) h2 0 1 2 3
  obtain ⟨ch, hch, r, hr⟩ := completed_chan h1 hcall rfl
  refine ⟨tr, _, completed_session hcall hch, r, ?_⟩
  have e : field (Spec.m1 1 (zeros 32) none) 10 32 = zeros 32 := by decide
  rwa [e] at hr

/-- Calls that `ServerAsks` excludes. -/
example (k : Bytes) : ¬ ServerAsks naclServer (.box [] (zeros 23) k) ∧ ¬ ServerAsks naclServer (.beforenm (zeros 31) k) ∧
    ¬ ServerAsks naclServer (.beforenm (zeros 32) (zeros 32)) ∧ ¬ ServerAsks naclServer (.sign (scSig02 ++ [1]) k) := by
  refine ⟨fun h => absurd h.1 (by decide), fun h => absurd h.1 (by decide), ?_, ?_⟩
  · rintro ⟨-, -, kp, h, e⟩
    cases h
    revert e
    decide
  · rintro ⟨-, rest, h⟩
    have := congrArg (List.take 8) h
    rw [List.take_left' (by decide), List.take_left' (by decide)] at this
    revert this
    decide

/-- C115: if two libraries give the same answers to the calls that a client makes, the client behaves in the same way with
both, whatever the network does. -/
theorem C115_client {β : Type} (L L' : Lib) (cfg : ClientCfg) (prog : IT appSig β) (h : ∀ e, ClientAsks cfg e → SameAnswer L L' e) :
    withLib L (clientSession cfg prog) = withLib L' (clientSession cfg prog) ∧
    ∀ c i, party L c (clientSession cfg prog) i = party L' c (clientSession cfg prog) i :=
  ⟨withLib_congr h _ fun _ _ hx => (C113_client cfg prog hx).1, fun c i => party_congr h c _ (fun _ _ hx => (C113_client cfg prog hx).1) i⟩

/-- C115: the server. -/
theorem C115_server {β : Type} (L L' : Lib) (cfg : ServerCfg) (prog : IT appSig β) (h : ∀ e, ServerAsks cfg e → SameAnswer L L' e) :
    withLib L (serverSession cfg prog) = withLib L' (serverSession cfg prog) ∧
    ∀ c i, party L c (serverSession cfg prog) i = party L' c (serverSession cfg prog) i :=
  ⟨withLib_congr h _ fun _ _ hx => (C113_server cfg prog hx).1, fun c i => party_congr h c _ (fun _ _ hx => (C113_server cfg prog hx).1) i⟩

/-! ### Two libraries as one -/

/-- A library that answers a client as `Lc` and a server as `Ls`. -/
def mergedLib (Lc Ls : Lib) (kc : KeyPair) : Lib where
  sign m sk := if m.take 8 = scSig02 then Lc.sign m sk else Ls.sign m sk
  signOpen sm pk := if (sm.drop 64).take 8 = scSig02 then Ls.signOpen sm pk else Lc.signOpen sm pk
  hash := Lc.hash
  beforenm pk sk := if sk = kc.sec then Lc.beforenm pk sk else Ls.beforenm pk sk
  box := Lc.box
  boxOpen := Lc.boxOpen

section
variable {Lc Ls : Lib} {kc ks sc ss : KeyPair}

theorem same_open (h : Interop Lc Ls kc ks sc ss) (x n k : Bytes) (hn : n.length = 24) (hk : k.length = 32) :
    Lc.boxOpen x n k = Ls.boxOpen x n k := by
  cases h1 : Lc.boxOpen x n k with
  | ok m => exact ((h.boxS.open_iff x m n k hn hk).2 (by rw [← h.box m n k hn hk]; exact (h.boxC.open_iff x m n k hn hk).1 h1)).symm
  | error e =>
    cases h2 : Ls.boxOpen x n k with
    | ok m =>
      rw [(h.boxC.open_iff x m n k hn hk).2 (by rw [h.box m n k hn hk]; exact (h.boxS.open_iff x m n k hn hk).1 h2)] at h1
      cases h1
    | error e' => rw [h.boxC.open_err x n k e hn hk h1, h.boxS.open_err x n k e' hn hk h2]

theorem merged_sig {kp : KeyPair} (h : CrossSig Lc Ls kp ∧ CrossSig Ls Lc kp) : SigLaw (mergedLib Lc Ls kc) kp where
  pub := h.1.pub
  works m := by
    by_cases hm : m.take 8 = scSig02
    · obtain ⟨sig, h1, h2, h3⟩ := h.1.works m
      refine ⟨sig, h1, ?_, ?_⟩
      · simp only [mergedLib]; rw [if_pos hm, h2]
      · simp only [mergedLib]; rw [List.drop_left' h1, if_pos hm, h3]
    · obtain ⟨sig, h1, h2, h3⟩ := h.2.works m
      refine ⟨sig, h1, ?_, ?_⟩
      · simp only [mergedLib]; rw [if_neg hm, h2]
      · simp only [mergedLib]; rw [List.drop_left' h1, if_neg hm, h3]

theorem merged_honest (h : Interop Lc Ls kc ks sc ss) : Honest (mergedLib Lc Ls kc) kc ks sc ss where
  box := ⟨h.boxC.total, h.boxC.open_iff, h.boxC.open_err⟩
  hash := h.hashC
  dh := by
    obtain ⟨k, h1, h2, h3⟩ := h.dh
    refine ⟨h.secC, h.pubC, h.secS, h.pubS, k, h1, ?_, ?_⟩
    · simp only [mergedLib]; rw [if_pos trivial, h2]
    · simp only [mergedLib]; rw [if_neg (fun e => h.secs e.symm), h3]
  sigC := merged_sig (h.sigs sc (.inl rfl))
  sigS := merged_sig (h.sigs ss (.inr rfl))

theorem merged_client (cfg : ClientCfg) (hk : cfg.encKp = some kc) (e : EnvOp) (ha : ClientAsks cfg e) :
    SameAnswer Lc (mergedLib Lc Ls kc) e := by
  cases e with
  | sign m sk =>
    obtain ⟨-, rest, rfl⟩ := ha
    simp only [SameAnswer, mergedLib]
    rw [if_pos (List.take_left' (by decide))]
  | signOpen sm pk =>
    obtain ⟨-, sig, rest, h1, rfl⟩ := ha
    simp only [SameAnswer, mergedLib]
    rw [List.drop_left' h1, List.take_left' (by decide), if_neg (by decide)]
  | beforenm pk sk =>
    obtain ⟨-, -, kp, h1, rfl⟩ := ha
    rw [hk] at h1
    cases h1
    simp only [SameAnswer, mergedLib]
    rw [if_pos trivial]
  | _ => trivial

theorem merged_server (h : Interop Lc Ls kc ks sc ss) (cfg : ServerCfg) (hk : cfg.encKp = some ks) (e : EnvOp) (ha : ServerAsks cfg e) :
    SameAnswer Ls (mergedLib Lc Ls kc) e := by
  cases e with
  | sign m sk =>
    obtain ⟨-, rest, rfl⟩ := ha
    simp only [SameAnswer, mergedLib]
    rw [List.take_left' (by decide), if_neg (by decide)]
  | signOpen sm pk =>
    obtain ⟨-, sig, rest, h1, rfl⟩ := ha
    simp only [SameAnswer, mergedLib]
    rw [List.drop_left' h1, if_pos (List.take_left' (by decide))]
  | beforenm pk sk =>
    obtain ⟨-, -, kp, h1, rfl⟩ := ha
    rw [hk] at h1
    cases h1
    simp only [SameAnswer, mergedLib]
    rw [if_neg (fun e => h.secs e.symm)]
  | hash m => exact (h.hash m).symm
  | box m n k => exact (h.box m n k ha.1 ha.2).symm
  | boxOpen x n k => exact (same_open h x n k ha.1 ha.2).symm
  | _ => trivial

end

/-! ### C114: sessions between different backends -/

/-- C114: a client with the library `Lc` and a server with the library `Ls`: if the two fit together, the session ends as if
the two programs were directly connected, with the same key and hashes on both sides and the right signing keys. -/
theorem C114_session {α β : Type} {Lc Ls : Lib} {kc ks : KeyPair} {cc cs : Clock} (hcc : Spec.Accepts cc cs) (hcs : Spec.Accepts cs cc)
    (cfgC : ClientCfg) (cfgS : ServerCfg) (hc : cfgC.encKp = some kc) (hs : cfgS.encKp = some ks)
    (h : Interop Lc Ls kc ks cfgC.sigKp cfgS.sigKp)
    (pA : IT appSig α) (pB : IT appSig β) {n : Nat} (hn : n ≤ 2 ^ 62) (hA : Modest 65535 pA n) (hB : Modest 65535 pB n)
    (hb : cfgC.bufferM4 = true → ∃ ms l k, pA = .op (S := appSig) (.write ms l) k) :
    ∃ key h1 h2, Lc.beforenm ks.pub kc.sec = .ok key ∧ Ls.beforenm kc.pub ks.sec = .ok key ∧
      Lc.hash (Spec.m1 (cc.first 0) kc.pub none) = .ok h1 ∧
      Ls.hash (Spec.m2 false false (if cfgS.bufferM2 then cs.first 2 else cs.first 1) ks.pub) = .ok h2 ∧
      SameOutcome (ClientEnd key h1 h2 cfgS.sigKp.pub) (ServerEnd key h1 h2 cfgC.sigKp.pub) (Net.start pA pB)
        (Net.start (party Lc cc (clientSession cfgC pA) 0) (party Ls cs (serverSession cfgS pB) 0)) := by
  obtain ⟨key, h1, h2, hk, ho⟩ := C47_end_to_end (L := mergedLib Lc Ls kc) (cc := cc) (cs := cs) ⟨merged_honest h, hc, hs, hcc, hcs⟩ pA pB hn hA hB hb
  rw [(C115_client Lc (mergedLib Lc Ls kc) cfgC pA (merged_client cfgC hc)).2 cc 0,
    (C115_server Ls (mergedLib Lc Ls kc) cfgS pB (merged_server h cfgS hs)).2 cs 0]
  have e1 := hk.client
  have e2 := hk.server
  simp only [mergedLib] at e1 e2
  rw [if_pos trivial] at e1
  rw [if_neg (fun e => h.secs e.symm)] at e2
  exact ⟨key, h1, h2, e1, e2, hk.hash1, by rw [← h.hash]; exact hk.hash2, ho⟩

/-- C114: the native backend, with libsodium that checks shared secrets or one that does not. -/
theorem C114_native (c : Nat) (b : Bool) : StdApi c (nativeApi (naclSodium c b)) where
  signKeypair seed h := by
    show Native.signKeypair (naclSodium c b) seed = _
    unfold Native.signKeypair
    rw [if_neg (by omega)]
    simp only [naclSodium, Native.wrap]
    show Except.ok (bufferRaw 32 (edPublic seed), bufferRaw 64 (seed ++ edPublic seed)) = _
    have hp : (edPublic seed).length = 32 := Tweet.edEncode_length _
    rw [bufferRaw_eq _ _ hp, bufferRaw_eq _ _ (by rw [List.length_append, h, hp])]
  boxKeypair sk h := by
    show Native.boxKeypair (naclSodium c b) sk = _
    unfold Native.boxKeypair
    rw [if_neg (by omega)]
    simp only [naclSodium, Native.wrap]
    show Except.ok (bufferRaw 32 (x25519 sk base9), sk) = _
    rw [bufferRaw_eq _ _ (x25519_length _ _)]
  sign m sk h := by
    have hl := C84_length (sk.take 32) (sk.drop 32) m
    show Native.sign (naclSodium c b) m sk = _
    unfold Native.sign
    simp only [naclSodium, List.take_length]
    show Except.ok (bufferRaw _ _) = _
    rw [bufferRaw_eq _ _ (by rw [List.length_append, hl]; omega)]
  signOpen sm pk _ := by
    show Native.signOpen (naclSodium c b) sm pk = _
    unfold Native.signOpen
    simp only [naclSodium, List.take_length]
    have et : sm.take sm.length = sm := List.take_length
    rw [et]
    by_cases h : EdValid c pk (sm.drop 64) (sm.take 64)
    · rw [if_pos h, if_pos h]
      have hl : (sm.take 64).length = 64 := h.1
      have hl : 64 ≤ sm.length := by rw [List.length_take] at hl; omega
      simp only [ne_eq, not_true, if_false, Except.ok.injEq, bufferRaw, List.take_take]
      rw [Nat.min_eq_left (by omega), List.take_left' (by rw [List.length_drop])]
    · rw [if_neg h, if_neg h]
      rfl
  hash m := naclLib_hash c b m
  beforenm pk sk _ _ h := native_beforenm_ok _ _ _ _ (hsalsa20_length _ (x25519_length _ _)) (nacl_beforenm c b pk sk _ rfl h)
  box m n k hn hk := naclLib_box c b m n k hn hk
  boxOpen x n k hn hk := by
    show Native.boxOpenAfternm (naclSodium c b) x n k = _
    unfold Native.boxOpenAfternm
    have e : (zeros 16 ++ x).length = 16 + x.length := by rw [List.length_append, zeros_length]
    simp only [naclSodium, List.take_length, e]
    by_cases hx : 16 + x.length < 32
    · have hnone : secretboxOpen k n x = none := by
        unfold secretboxOpen
        rw [if_neg (by omega)]
      rw [if_pos hx, hnone]
      rfl
    · rw [if_neg hx, show (zeros 16 ++ x).take (16 + x.length) = zeros 16 ++ x from List.take_of_length_le (by omega), List.drop_left' (zeros_length 16)]
      cases ho : secretboxOpen k n x with
      | none => rfl
      | some m =>
        have hl := secretbox_length' hk hn m
        rw [← (secretboxOpen_iff hk hn x m).1 ho] at hl
        simp only [ne_eq, not_true, if_false]
        rw [bufferRaw_eq _ _ (by rw [List.length_append, zeros_length]; omega), List.drop_left' (zeros_length 32)]

/-- C114: the backends on the packages `nacl` and `tweetnacl`. -/
theorem C114_bindings (c : Nat) (B : Bindings) (h : NaclBindings c B) : StdApi c (bindingsApi B) where
  signKeypair seed hs := by simp only [bindingsApi]; rw [if_neg (by omega), h.seedKeypair seed hs]
  boxKeypair sk hs := by simp only [bindingsApi]; rw [if_neg (by omega), h.scalarmultBase sk hs]; rfl
  sign := h.sign
  signOpen sm pk hp := by
    simp only [bindingsApi]
    by_cases hv : EdValid c pk (sm.drop 64) (sm.take 64)
    · rw [if_pos hv, h.valid sm pk hp hv]; rfl
    · obtain ⟨e, he⟩ := h.invalid sm pk hp hv
      rw [if_neg hv, he]; rfl
  hash := h.hash
  beforenm := h.beforenm
  box := h.box
  boxOpen x n k hn hk := by
    simp only [bindingsApi]
    cases ho : secretboxOpen k n x with
    | none =>
      obtain ⟨e, he⟩ := h.refuses x n k hn hk ho
      rw [he]; rfl
    | some m => rw [h.opens x n k m hn hk ho]; rfl

theorem std_box {c : Nat} {A : Api} (h : StdApi c A) : BoxLaw A.toLib where
  total m n k hn hk := ⟨_, h.box m n k hn hk, by rw [secretbox_length' hk hn]; omega⟩
  open_iff x m n k hn hk := by
    rw [h.box m n k hn hk, h.boxOpen x n k hn hk, Except.ok.injEq]
    cases ho : secretboxOpen k n x with
    | none =>
      simp only [reduceCtorEq, false_iff]
      intro e
      rw [(secretboxOpen_iff hk hn x m).2 e.symm] at ho
      cases ho
    | some m' =>
      rw [Except.ok.injEq]
      constructor
      · rintro rfl; exact ((secretboxOpen_iff hk hn x m').1 ho).symm
      · intro e
        rw [(secretboxOpen_iff hk hn x m).2 e.symm] at ho
        exact (Option.some.inj ho).symm
  open_err x n k e hn hk he := by
    rw [h.boxOpen x n k hn hk] at he
    cases ho : secretboxOpen k n x with
    | none => rw [ho] at he; exact (Except.error.inj he).symm
    | some m => rw [ho] at he; cases he

theorem std_sig {c c' : Nat} {A A' : Api} (h : StdApi c A) (h' : StdApi c' A') (seed : Bytes) (hs : seed.length = 32) :
    CrossSig A.toLib A'.toLib ⟨seed ++ edPublic seed, edPublic seed⟩ where
  pub := Tweet.edEncode_length _
  works m := by
    have hp : (edPublic seed).length = 32 := Tweet.edEncode_length _
    have hl := C84_length seed (edPublic seed) m
    refine ⟨edSign seed (edPublic seed) m, hl, ?_, ?_⟩
    · rw [h.sign m _ (by rw [List.length_append, hs, hp]), List.take_left' hs, List.drop_left' hs]
    · rw [h'.signOpen _ _ hp, List.drop_left' hl, List.take_left' hl, if_pos (valid_mul c' (C85_valid seed m))]

theorem std_keys {c : Nat} {A : Api} (h : StdApi c A) (sec : Bytes) (hl : sec.length = 32) :
    SaltLib.createEncKeysFromSec (some A) sec = .ok ⟨sec, x25519 sec base9⟩ ∧
    SaltLib.createSigKeysFromSec (some A) sec = .ok ⟨sec ++ edPublic sec, edPublic sec⟩ := by
  have hs : slice sec 0 32 = sec := by
    unfold slice
    simp [hl]
  constructor
  · unfold SaltLib.createEncKeysFromSec onApi
    simp only [h.boxKeypair sec hl]
    rfl
  · unfold SaltLib.createSigKeysFromSec onApi
    simp only [hs, h.signKeypair sec hl]
    rfl

/-- C114: backends with the standard algorithms fit together, with the key pairs that each side makes from its secrets with
its own backend. -/
theorem C114_fit {c c' : Nat} {A A' : Api} (hA : StdApi c A) (hA' : StdApi c' A') (x y s t : Bytes) (hx : x.length = 32) (hy : y.length = 32)
    (hs : s.length = 32) (ht : t.length = 32) (hxy : x ≠ y) (kc ks sc ss : KeyPair)
    (h1 : SaltLib.createEncKeysFromSec (some A) x = .ok kc) (h2 : SaltLib.createEncKeysFromSec (some A') y = .ok ks)
    (h3 : SaltLib.createSigKeysFromSec (some A) s = .ok sc) (h4 : SaltLib.createSigKeysFromSec (some A') t = .ok ss) :
    Interop A.toLib A'.toLib kc ks sc ss := by
  rw [(std_keys hA x hx).1] at h1
  rw [(std_keys hA' y hy).1] at h2
  rw [(std_keys hA s hs).2] at h3
  rw [(std_keys hA' t ht).2] at h4
  have h1 := Except.ok.inj h1
  have h2 := Except.ok.inj h2
  have h3 := Except.ok.inj h3
  have h4 := Except.ok.inj h4
  subst h1 h2 h3 h4
  have hu : ∀ a b : Bytes, a.length = 32 → b.length = 32 → x25519 a (x25519 b base9) ≠ zeros 32 :=
    fun a b ha hb h => public_not_small b hb ((C88_zero_iff a _ ha).mp h)
  have hpx : (x25519 x base9).length = 32 := x25519_length _ _
  have hpy : (x25519 y base9).length = 32 := x25519_length _ _
  refine ⟨std_box hA, std_box hA', ?_, ?_, ?_, hpx, hx, hpy, hy, hxy, ?_, ?_⟩
  · intro m n k hn hk; rw [hA.box m n k hn hk, hA'.box m n k hn hk]
  · intro m; exact ⟨_, hA.hash m⟩
  · intro m; rw [hA.hash, hA'.hash]
  · refine ⟨_, hsalsa20_length _ (x25519_length _ _), hA.beforenm _ _ hpy hx (hu x y hx hy), ?_⟩
    rw [hA'.beforenm _ _ hpx hy (hu y x hy hx), C87_commutes y x base9 hy hx]
    rfl
  · rintro kp (rfl | rfl)
    · exact ⟨std_sig hA hA' s hs, std_sig hA' hA s hs⟩
    · exact ⟨std_sig hA hA' t ht, std_sig hA' hA t ht⟩

/-- C114: sessions between backends with the standard algorithms, for all secrets (those of the two encryption keys must be
different). -/
theorem C114_std {α β : Type} {c c' : Nat} {A A' : Api} (hA : StdApi c A) (hA' : StdApi c' A') (x y s t : Bytes) (hx : x.length = 32)
    (hy : y.length = 32) (hs : s.length = 32) (ht : t.length = 32) (hxy : x ≠ y) (kc ks : KeyPair) (cfgC : ClientCfg) (cfgS : ServerCfg)
    (h1 : SaltLib.createEncKeysFromSec (some A) x = .ok kc) (h2 : SaltLib.createEncKeysFromSec (some A') y = .ok ks)
    (h3 : SaltLib.createSigKeysFromSec (some A) s = .ok cfgC.sigKp) (h4 : SaltLib.createSigKeysFromSec (some A') t = .ok cfgS.sigKp)
    (hc : cfgC.encKp = some kc) (hs' : cfgS.encKp = some ks) {cc cs : Clock} (hcc : Spec.Accepts cc cs) (hcs : Spec.Accepts cs cc)
    (pA : IT appSig α) (pB : IT appSig β) {n : Nat} (hn : n ≤ 2 ^ 62) (hmA : Modest 65535 pA n) (hmB : Modest 65535 pB n)
    (hb : cfgC.bufferM4 = true → ∃ ms l k, pA = .op (S := appSig) (.write ms l) k) :
    ∃ h1 h2, SameOutcome (ClientEnd (hsalsa20 (x25519 x (x25519 y base9)) (zeros 16)) h1 h2 (edPublic t))
        (ServerEnd (hsalsa20 (x25519 x (x25519 y base9)) (zeros 16)) h1 h2 (edPublic s)) (Net.start pA pB)
        (Net.start (party A.toLib cc (clientSession cfgC pA) 0) (party A'.toLib cs (serverSession cfgS pB) 0)) := by
  obtain ⟨key, h1', h2', e, -, -, -, ho⟩ := C114_session hcc hcs cfgC cfgS hc hs' (C114_fit hA hA' x y s t hx hy hs ht hxy kc ks _ _ h1 h2 h3 h4) pA pB hn hmA hmB hb
  rw [(std_keys hA x hx).1] at h1
  rw [(std_keys hA' y hy).1] at h2
  rw [(std_keys hA s hs).2] at h3
  rw [(std_keys hA' t ht).2] at h4
  have h1 := Except.ok.inj h1
  have h2 := Except.ok.inj h2
  have h3 := Except.ok.inj h3
  have h4 := Except.ok.inj h4
  subst h1 h2
  rw [← h3, ← h4] at ho
  have hpy : (x25519 y base9).length = 32 := x25519_length _ _
  have e' := hA.beforenm _ _ hpy hx fun h => public_not_small y hy ((C88_zero_iff x _ hx).mp h)
  have hk : key = hsalsa20 (x25519 x (x25519 y base9)) (zeros 16) := Except.ok.inj (e.symm.trans e')
  rw [hk] at ho
  exact ⟨h1', h2', ho⟩

open Classical in
/-- Bindings with the standard algorithms, that raise ValueError otherwise. -/
noncomputable def stdBindings (c : Nat) : Bindings where
  sign m sk := if sk.length = 64 then .ok (edSign (sk.take 32) (sk.drop 32) m ++ m) else .error .valueError
  signOpen sm pk := if EdValid c pk (sm.drop 64) (sm.take 64) then .ok (sm.drop 64) else .error .valueError
  hash m := .ok (sha512 m)
  beforenm pk sk := if x25519 sk pk = zeros 32 then .error .valueError else .ok (hsalsa20 (x25519 sk pk) (zeros 16))
  box m n k := .ok (secretbox k n m)
  boxOpen x n k := match secretboxOpen k n x with | none => .error .valueError | some m => .ok m
  seedKeypair seed := .ok (edPublic seed, seed ++ edPublic seed)
  scalarmultBase sk := .ok (x25519 sk base9)

/-- `NaclBindings` can be met. -/
theorem stdBindings_ok (c : Nat) : NaclBindings c (stdBindings c) where
  seedKeypair _ _ := by simp only [stdBindings]
  scalarmultBase _ _ := by simp only [stdBindings]
  sign _ _ h := by simp only [stdBindings]; rw [if_pos h]
  valid _ _ _ h := by simp only [stdBindings]; rw [if_pos h]
  invalid _ _ _ h := ⟨.valueError, by simp only [stdBindings]; rw [if_neg h]⟩
  hash _ := by simp only [stdBindings]
  beforenm _ _ _ _ h := by simp only [stdBindings]; rw [if_neg h]
  box _ _ _ _ _ := by simp only [stdBindings]
  opens x n k m _ _ h := by simp only [stdBindings, h]
  refuses x n k _ _ h := ⟨.valueError, by simp only [stdBindings, h]⟩

/-- C114 is not vacuous: a client on libsodium that buffers its M4, and a server on bindings with cofactorless verification. -/
example : ∃ kc ks sc ss k1 k2, SameOutcome
    (ClientEnd (hsalsa20 (x25519 (List.replicate 32 1) (x25519 (List.replicate 32 2) base9)) (zeros 16)) k1 k2 (edPublic (List.replicate 32 4)))
    (ServerEnd (hsalsa20 (x25519 (List.replicate 32 1) (x25519 (List.replicate 32 2) base9)) (zeros 16)) k1 k2 (edPublic (List.replicate 32 3)))
    (Net.start (.op (S := appSig) (.write [[1, 2, 3]] false) fun _ => .op (S := appSig) .read fun r => .ret r)
      (.op (S := appSig) .read fun r => .op (S := appSig) (.write [[4]] false) fun _ => .ret r))
    (Net.start
      (party (nativeApi (naclSodium 8 true)).toLib exClock
        (clientSession { sigKp := sc, encKp := some kc, bufferM4 := true, wantedServerSigKey := [] }
          (.op (S := appSig) (.write [[1, 2, 3]] false) fun _ => .op (S := appSig) .read fun r => .ret r)) 0)
      (party (bindingsApi (stdBindings 1)).toLib exClock
        (serverSession { sigKp := ss, encKp := some ks, bufferM2 := false, a2 := none }
          (.op (S := appSig) .read fun r => .op (S := appSig) (.write [[4]] false) fun _ => .ret r)) 0)) := by
  have hl : ∀ i : UInt8, (List.replicate 32 i).length = 32 := fun _ => List.length_replicate
  have hA := C114_native 8 true
  have hA' := C114_bindings 1 _ (stdBindings_ok 1)
  obtain ⟨kc, h1⟩ : ∃ k, _ = Except.ok (ε := Err) k := ⟨_, (std_keys hA (List.replicate 32 1) (hl _)).1⟩
  obtain ⟨ks, h2⟩ : ∃ k, _ = Except.ok (ε := Err) k := ⟨_, (std_keys hA' (List.replicate 32 2) (hl _)).1⟩
  obtain ⟨sc, h3⟩ : ∃ k, _ = Except.ok (ε := Err) k := ⟨_, (std_keys hA (List.replicate 32 3) (hl _)).2⟩
  obtain ⟨ss, h4⟩ : ∃ k, _ = Except.ok (ε := Err) k := ⟨_, (std_keys hA' (List.replicate 32 4) (hl _)).2⟩
  obtain ⟨k1, k2, h⟩ := C114_std hA hA' _ _ _ _ (hl 1) (hl 2) (hl 3) (hl 4) (by decide) kc ks
    { sigKp := sc, encKp := some kc, bufferM4 := true, wantedServerSigKey := [] } { sigKp := ss, encKp := some ks, bufferM2 := false, a2 := none }
    h1 h2 h3 h4 rfl rfl (cc := exClock) (cs := exClock) ⟨fun _ _ => rfl, fun _ _ => rfl, fun _ _ => rfl⟩ ⟨fun _ _ => rfl, fun _ _ => rfl, fun _ _ => rfl⟩
    (.op (S := appSig) (.write [[1, 2, 3]] false) fun _ => .op (S := appSig) .read fun r => .ret r)
    (.op (S := appSig) .read fun r => .op (S := appSig) (.write [[4]] false) fun _ => .ret r)
    (n := 1) (by omega) ⟨by simp, by simp, by simp, fun _ _ => trivial⟩ (fun _ => ⟨by simp, by simp, by simp, fun _ => trivial⟩) fun _ => ⟨_, _, _, rfl⟩
  exact ⟨kc, ks, sc, ss, k1, k2, h⟩

/-! ### C115: any network -/

/-- The key in the first message read is of small order. -/
def SmallOffer (offered : Bytes → Option Bytes) (tr : List (Ev env)) : Prop :=
  ∃ raw pk, (readsOf tr).head? = some raw ∧ offered raw = some pk ∧ decodeU pk ∈ smallOrderU

theorem readsOf_io (tr : List (Ev env)) : readsOf (tr.filter Ev.isIO) = readsOf tr := by
  induction tr with
  | nil => rfl
  | cons ev tr ih =>
    obtain ⟨e, r⟩ := ev
    cases e with
    | read =>
      rw [List.filter_cons_of_pos rfl]
      cases r with
      | ok m => exact congrArg (m :: ·) ih
      | error e => exact ih
    | _ => first
      | (rw [List.filter_cons_of_pos rfl]; exact ih)
      | (rw [List.filter_cons_of_neg (by simp [Ev.isIO])]; exact ih)

theorem std_same {c : Nat} {A A' : Api} (hA : StdApi c A) (hA' : StdApi c A') {tr : List (Ev env)} {offered : Bytes → Option Bytes}
    (hl : ∀ ev ∈ tr, match ev.op with
      | .sign _ sk => sk.length = 64
      | .signOpen _ pk => pk.length = 32
      | .beforenm pk sk => pk.length = 32 ∧ sk.length = 32
      | .box _ n k => n.length = 24 ∧ k.length = 32
      | .boxOpen _ n k => n.length = 24 ∧ k.length = 32
      | _ => True)
    (hk : KeysRead offered tr) (hno : ¬ SmallOffer offered tr) : ∀ ev ∈ tr, SameAnswer A.toLib A'.toLib ev.op := by
  intro ev hev
  have h := hl ev hev
  cases he : ev.op with
  | sign m sk => rw [he] at h; exact (hA.sign m sk h).trans (hA'.sign m sk h).symm
  | signOpen sm pk => rw [he] at h; exact (hA.signOpen sm pk h).trans (hA'.signOpen sm pk h).symm
  | hash m => exact (hA.hash m).trans (hA'.hash m).symm
  | beforenm pk sk =>
    rw [he] at h
    have hz : x25519 sk pk ≠ zeros 32 := by
      intro hz
      obtain ⟨raw, h1, h2⟩ := hk ev hev pk sk he
      exact hno ⟨raw, pk, h1, h2, (C88_zero_iff sk pk h.2).mp hz⟩
    exact (hA.beforenm pk sk h.1 h.2 hz).trans (hA'.beforenm pk sk h.1 h.2 hz).symm
  | box m n k => rw [he] at h; exact (hA.box m n k h.1 h.2).trans (hA'.box m n k h.1 h.2).symm
  | boxOpen x n k => rw [he] at h; exact (hA.boxOpen x n k h.1 h.2).trans (hA'.boxOpen x n k h.1 h.2).symm
  | _ => trivial

theorem C115_client_imp {β : Type} {c : Nat} {A A' : Api} (hA : StdApi c A) (hA' : StdApi c A') (cfg : ClientCfg) (hs : cfg.sigKp.sec.length = 64)
    (prog : IT appSig β) {tr : List (Ev env)} {r : Except Err β × ClientSt} (hno : ¬ SmallOffer offeredByServer tr)
    (h : Exec (withLib A.toLib (clientSession cfg prog)) tr r) : Exec (withLib A'.toLib (clientSession cfg prog)) tr r := by
  rw [Exec_withLib] at h ⊢
  obtain ⟨tr', h1, h2, rfl⟩ := h
  obtain ⟨h3, h4⟩ := C113_client cfg prog h1
  refine ⟨tr', h1, fun ev hev => answered_congr (std_same hA hA' ?_ h4 ?_ ev hev) (h2 ev hev), rfl⟩
  · intro ev hev
    have := h3 ev hev
    cases he : ev.op <;> rw [he] at this <;> simp only [ClientAsks] at this <;> first | trivial | (rw [this.1]; exact hs) | exact this.1 | exact ⟨this.1, this.2.1⟩
  · unfold SmallOffer at hno ⊢
    rwa [readsOf_io] at hno

theorem C115_server_imp {β : Type} {c : Nat} {A A' : Api} (hA : StdApi c A) (hA' : StdApi c A') (cfg : ServerCfg) (hs : cfg.sigKp.sec.length = 64)
    (prog : IT appSig β) {tr : List (Ev env)} {r : Except Err β × ServerSt} (hno : ¬ SmallOffer offeredByClient tr)
    (h : Exec (withLib A.toLib (serverSession cfg prog)) tr r) : Exec (withLib A'.toLib (serverSession cfg prog)) tr r := by
  rw [Exec_withLib] at h ⊢
  obtain ⟨tr', h1, h2, rfl⟩ := h
  obtain ⟨h3, h4⟩ := C113_server cfg prog h1
  refine ⟨tr', h1, fun ev hev => answered_congr (std_same hA hA' ?_ h4 ?_ ev hev) (h2 ev hev), rfl⟩
  · intro ev hev
    have := h3 ev hev
    cases he : ev.op <;> rw [he] at this <;> simp only [ServerAsks] at this <;> first | trivial | (rw [this.1]; exact hs) | exact this.1 | exact ⟨this.1, this.2.1⟩
  · unfold SmallOffer at hno ⊢
    rwa [readsOf_io] at hno

/-- C115: with two backends that have the standard algorithms a server behaves in the same way, whatever the network does: it
can exchange the same messages and end in the same way. -/
def C115_claim : Prop := ∀ (β : Type) (c : Nat) (A A' : Api) (cfg : ServerCfg) (prog : IT appSig β) (tr : List (Ev env)) (r : Except Err β × ServerSt),
    StdApi c A → StdApi c A' → cfg.sigKp.sec.length = 64 →
    (Exec (withLib A.toLib (serverSession cfg prog)) tr r ↔ Exec (withLib A'.toLib (serverSession cfg prog)) tr r)

/-- C115: this holds when the M1 does not contain one of the keys of small order. -/
theorem C115_server_partial {β : Type} (c : Nat) (A A' : Api) (cfg : ServerCfg) (prog : IT appSig β) (tr : List (Ev env))
    (r : Except Err β × ServerSt) (hA : StdApi c A) (hA' : StdApi c A') (hs : cfg.sigKp.sec.length = 64) (hno : ¬ SmallOffer offeredByClient tr) :
    Exec (withLib A.toLib (serverSession cfg prog)) tr r ↔ Exec (withLib A'.toLib (serverSession cfg prog)) tr r :=
  ⟨C115_server_imp hA hA' cfg hs prog hno, C115_server_imp hA' hA cfg hs prog hno⟩

/-- C115: the client, when the M2 does not contain one of these keys. -/
theorem C115_client_partial {β : Type} (c : Nat) (A A' : Api) (cfg : ClientCfg) (prog : IT appSig β) (tr : List (Ev env))
    (r : Except Err β × ClientSt) (hA : StdApi c A) (hA' : StdApi c A') (hs : cfg.sigKp.sec.length = 64) (hno : ¬ SmallOffer offeredByServer tr) :
    Exec (withLib A.toLib (clientSession cfg prog)) tr r ↔ Exec (withLib A'.toLib (clientSession cfg prog)) tr r :=
  ⟨C115_client_imp hA hA' cfg hs prog hno, C115_client_imp hA' hA cfg hs prog hno⟩

/-- The hypothesis of `C115_server_partial` is met by every M1 with the public key of a secret. -/
example (t : Nat) (x : Bytes) (hx : x.length = 32) (tr : List (Ev env)) :
    ¬ SmallOffer offeredByClient (⟨.read, .ok (Spec.m1 t (x25519 x base9) none)⟩ :: tr) := by
  rintro ⟨raw, pk, h1, h2, h3⟩
  have h1 : Spec.m1 t (x25519 x base9) none = raw := Option.some.inj h1
  have hp : (x25519 x base9).length = 32 := x25519_length _ _
  have hf : field raw 10 32 = x25519 x base9 := by
    rw [← h1]
    exact field_m1 t _ hp
  have h2 : field raw 10 32 = pk := Option.some.inj h2
  rw [← h2, hf] at h3
  exact public_not_small x hx h3

theorem C115_violated : ¬ C115_claim := by
  intro hc
  obtain ⟨h1, h2, h3⟩ := small_m1 [] (by simp)
  obtain ⟨tr, s', sig, c4, hcall, hL, -, -, -, -⟩ := C90_completed 8 (cfg := naclServer) (kp := ⟨List.replicate 32 4, x25519 (List.replicate 32 4) base9⟩) rfl (x25519_length (List.replicate 32 4) base9) List.length_replicate
    (List.replicate 32 3) (List.replicate 32 5) List.length_replicate List.length_replicate rfl Server.init h1 (.inl h3) h2 0 1 2 3
  obtain ⟨ch, hch, -⟩ := completed_chan h1 hcall rfl
  have hx := completed_session hcall hch
  have hA := (Exec_withLib (naclLib 8 false) _ _ _).2 ⟨_, hx, by
    intro ev hev
    rcases List.mem_cons.1 hev with rfl | hev
    · trivial
    · exact hL ev hev, rfl⟩
  have hA' := (hc _ 8 _ _ _ _ _ _ (C114_native 8 false) (C114_native 8 true) (by
    show (List.replicate 32 3 ++ edPublic (List.replicate 32 3)).length = 64
    rw [List.length_append, List.length_replicate, show (edPublic (List.replicate 32 3)).length = 32 from Tweet.edEncode_length _])).1 hA
  obtain ⟨tr2, hx2, hL2, hf⟩ := (Exec_withLib _ _ _ _).1 hA'
  unfold serverSession at hx2
  rw [Exec_bind] at hx2
  obtain ⟨t1, ⟨r1, s1⟩, t2, rfl, hh, ht⟩ := hx2
  have hfirst : ∃ t, t1 = ⟨.read, .ok []⟩ :: t := by
    have : ∃ k, Server.handshake naclServer Server.init = .op (S := env) .read k := ⟨_, rfl⟩
    obtain ⟨k, hk⟩ := this
    rw [hk, Exec_op] at hh
    obtain ⟨r, t, rfl, -⟩ := hh
    rw [List.cons_append, List.filter_cons_of_pos rfl, List.filter_cons_of_pos rfl] at hf
    have := (List.cons.inj hf).1
    exact ⟨t, by rw [← this]⟩
  obtain ⟨t, rfl⟩ := hfirst
  obtain ⟨⟨e, rfl⟩, -⟩ := C90_server_partial 8 (cfg := naclServer) rfl List.length_replicate h1 h2
    (fun ev hev => hL2 ev (List.mem_append_left _ (List.mem_cons_of_mem _ hev))) hh
  simp only [serverAfter] at ht
  cases ht

end Salt.Props
