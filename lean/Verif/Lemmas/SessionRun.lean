import Verif.Lemmas.SessionCut

/-!
# Handshakes that can happen

The converse of `client_ok` and `server_ok`: given suitable answers the handshake completes.
-/

set_option linter.unusedSimpArgs false

namespace Salt

open Spec

theorem Enc_read_do {s : EncSt} (hp : s.pushback = []) (hs : s.sessionNonce = zeros 8)
    (hn : s.readNonce < 2 ^ 64) (raw m : Bytes) (h1 : 18 ≤ raw.length) (h2 : raw.head? = some 6) :
    Exec (Enc.read s) [⟨.read, .ok raw⟩, ⟨.boxOpen (raw.drop 2) (Spec.nonce s.readNonce) s.key, .ok m⟩]
      (.ok m, { s with lastFlag := 128 ≤ (raw.getD 1 0).toNat, readNonce := s.readNonce + 2 }) := by
  have hb : nonceBytes s.readNonce s.sessionNonce = .ok (Spec.nonce s.readNonce) := by
    rw [hs, nonceBytes_eq, if_pos hn]
  rw [Enc_read_run, if_neg (by simp [hp])]
  refine .op _ _ _ _ _ ?_
  simp only [openPkt]
  rw [if_neg (by rintro rfl; simp at h1), if_pos ⟨h1, h2⟩, hb]
  exact .op _ _ _ _ _ (.ret _)

theorem Enc_write1_do {s : EncSt} (hs : s.sessionNonce = zeros 8) (hn : s.writeNonce < 2 ^ 64)
    (m c : Bytes) (l : Bool) :
    Exec (Enc.write [m] l s) [⟨.box m (Spec.nonce s.writeNonce) s.key, .ok c⟩,
        ⟨.write [Spec.encrypted l c] l, .ok ()⟩]
      (.ok (), { s with writeNonce := s.writeNonce + 2 }) := by
  have hb : nonceBytes s.writeNonce s.sessionNonce = .ok (Spec.nonce s.writeNonce) := by
    rw [hs, nonceBytes_eq, if_pos hn]
  rw [Enc_write_run, encryptAll_cons_run, hb]
  simp only [IT.op_bind, Exec_op_cons, encryptAll_nil_run, IT.ret_bind, List.isEmpty_nil, Bool.and_true,
    Exec_ret, and_self]

/-- Answers with which the client handshake completes. -/
structure CGood (cfg : ClientCfg) (kp : KeyPair) (p : CP) : Prop where
  enc : cfg.encKp = some kp
  pub : kp.pub.length = 32
  sec : kp.sec.length = 32
  sig : cfg.sigKp.pub.length = 32
  m2 : p.raw2 = [] ∨ p.raw2.head? = some 2
  nss : leNat (field p.raw2 1 1) % 2 = 0
  k : p.k.length = 32
  p3 : 18 ≤ p.p3.length
  p3h : p.p3.head? = some 6
  m3 : p.m3.length = 102
  m3h : p.m3.head? = some 3
  sm : 64 ≤ p.sm.length

theorem m2_ctor_of {raw : Bytes} (h : raw = [] ∨ raw.head? = some 2) : ∃ m, M2.ctor raw = .ok m := by
  by_cases hne : raw = []
  · subst hne; exact ⟨_, rfl⟩
  · rw [Props.M2_ctor_spec raw hne, if_pos (by simpa [hne] using h)]; exact ⟨_, rfl⟩

theorem m34_ctor_of {ty : PacketType} (x : UInt8) (hx : x.toNat = ty.value) {raw : Bytes}
    (h : raw = [] ∨ raw.head? = some x) : ∃ m, M34.ctor ty raw = .ok m := by
  by_cases hne : raw = []
  · subst hne; exact ⟨_, rfl⟩
  · rw [Props.M34_ctor_spec ty x hx raw hne, if_pos (by simpa [hne] using h)]; exact ⟨_, rfl⟩

/-- The state of a client after the handshake. -/
structure CDone (cfg : ClientCfg) (p : CP) (s' : ClientSt) : Prop where
  key : s'.sessionKey = p.k
  h1 : s'.m1Hash = p.h1
  h2 : s'.m2Hash = p.h2
  m3 : ∃ m3p, s'.m3 = some m3p ∧ M34.ctor .m3 p.m3 = .ok m3p
  chan : ∃ f, s'.chan = some (if cfg.bufferM4 then
      ⟨⟨p.k, zeros 8, 4, 1, [], f⟩, some ⟨Spec.m4 p.t4 cfg.sigKp.pub (p.sm.take 64), none⟩, []⟩
    else ⟨⟨p.k, zeros 8, 4, 3, [], f⟩, none, []⟩)

theorem client_runs' {cfg : ClientCfg} {kp : KeyPair} {p : CP} (h : CGood cfg kp p) (s : ClientSt) :
    ∃ s', Call (Client.handshake cfg) s
      (clientPre kp p ++ if cfg.bufferM4 then (clientPost cfg p).take 2 else clientPost cfg p) (.ok ()) s' ∧
      CDone cfg p s' := by
  obtain ⟨t1, h1, raw2, h2, k, p3, m3, x, t4, sm, c4⟩ := p
  obtain ⟨hkp, hpub, hsec, hsig, hm2, hz, hk, hp3, hp3h, hm3, hm3h, hsm⟩ := h
  simp only at *
  obtain ⟨m2, hm2⟩ := m2_ctor_of hm2
  obtain ⟨m3p, hm3p⟩ := m34_ctor_of (ty := .m3) 3 rfl (.inr hm3h)
  simp only [Call, Client.handshake, Exec_py_bind_ok]
  have hv : Exec (Client.validate cfg s) [] (.ok kp, s) := by
    unfold Client.validate; rw [hkp]; exact .ret _
  let s1 : ClientSt := { s with m1 := some ⟨Spec.m1 t1 kp.pub none, some []⟩, m1Hash := h1 }
  let s2 : ClientSt := { s1 with m2 := some m2, m2Hash := h2 }
  let s3 : ClientSt := { s2 with sessionKey := k, chan := some (App.init (encInit k .client)) }
  let e4 : EncSt := { encInit k .client with lastFlag := 128 ≤ (p3.getD 1 0).toNat, readNonce := 2 + 2 }
  let c4' : AppSt := { App.init (encInit k .client) with enc := e4 }
  let s4 : ClientSt := { s3 with m3 := some m3p, chan := some c4' }
  have d1 : Exec (Client.doM1 kp s) [⟨.firstTime, .ok t1⟩, ⟨.hash (Spec.m1 t1 kp.pub none), .ok h1⟩,
      ⟨.write [Spec.m1 t1 kp.pub none] false, .ok ()⟩] (.ok (), s1) := by
    rw [c_doM1_run]
    simp only [Exec_op_cons, hpub, if_true, Exec_ret, s1, and_self]
  have d2 : Exec (Client.doM2 s1) [⟨.read, .ok raw2⟩, ⟨.report (leNat (field raw2 2 4)), .ok ()⟩,
      ⟨.hash raw2, .ok h2⟩] (.ok true, s2) := by
    rw [c_doM2_run]
    simp only [Exec_op_cons, hm2, hz, if_true, Exec_ret, s2, and_self]
  have d3 : Exec (Client.createEncryptedChannel kp s2) [⟨.beforenm (field raw2 6 32) kp.sec, .ok k⟩]
      (.ok (), s3) := by
    rw [c_create_run kp s2 raw2 m2 hm2 rfl]
    simp only [hsec, if_true, Exec_op_cons, hk, Exec_ret, s3, and_self]
  have d4 : Exec (Client.doM3 s3) [⟨.read, .ok p3⟩, ⟨.boxOpen (p3.drop 2) (Spec.nonce 2) k, .ok m3⟩,
      ⟨.check (leNat (field m3 2 4)), .ok ()⟩] (.ok (), s4) := by
    rw [c_doM3_run s3 (App.init (encInit k .client)) rfl, Exec_bind]
    refine ⟨_, _, [⟨.check (leNat (field m3 2 4)), .ok ()⟩], rfl,
      Enc_read_do rfl rfl (show (2:Nat) < 2 ^ 64 by decide) p3 m3 hp3 hp3h, ?_⟩
    simp only [hm3, if_true, hm3p, Exec_op_cons, Exec_ret, true_and]
    rfl
  have d5 : Exec (Client.validateSignature1 s4)
      [⟨.signOpen (field m3 38 64 ++ scSig01 ++ h1 ++ h2) (field m3 6 32), .ok x⟩] (.ok (), s4) := by
    rw [c_validate_run s4 m3 m3p hm3p rfl]
    exact .op _ _ _ _ _ (.ret _)
  let m4 : Packet := ⟨Spec.m4 t4 cfg.sigKp.pub (sm.take 64), none⟩
  cases hb : cfg.bufferM4 with
  | true =>
    refine ⟨{ s4 with m4 := some m4, chan := some { c4' with bufferedM4 := some m4 } }, ?_,
      rfl, rfl, rfl, ⟨m3p, rfl, hm3p⟩, ⟨_, by rw [hb]; rfl⟩⟩
    refine ⟨[], kp, s, _, rfl, hv, _, (), s1, _, rfl, d1, _, true, s2, _, rfl, d2, ?_⟩
    simp only [not_true_eq_false, if_false, Exec_py_bind_ok]
    refine ⟨_, (), s3, _, rfl, d3, _, (), s4, _, rfl, d4, _, (), s4, _, rfl, d5, ?_⟩
    rw [c_doM4_run cfg s4 c4' rfl]
    simp only [clientPost, List.take_succ_cons, List.take_zero, hb, if_true]
    refine .op _ _ _ _ _ ?_
    simp only [hsig, if_true]
    refine .op _ _ _ _ _ ?_
    simp only [hsm, if_true]
    exact .ret _
  | false =>
    refine ⟨{ s4 with m4 := some m4, chan := some { c4' with enc := { e4 with writeNonce := 1 + 2 } } }, ?_,
      rfl, rfl, rfl, ⟨m3p, rfl, hm3p⟩, ⟨_, by rw [hb]; rfl⟩⟩
    refine ⟨[], kp, s, _, rfl, hv, _, (), s1, _, rfl, d1, _, true, s2, _, rfl, d2, ?_⟩
    simp only [not_true_eq_false, if_false, Exec_py_bind_ok]
    refine ⟨_, (), s3, _, rfl, d3, _, (), s4, _, rfl, d4, _, (), s4, _, rfl, d5, ?_⟩
    rw [c_doM4_run cfg s4 c4' rfl]
    simp only [clientPost, hb, Bool.false_eq_true, if_false]
    refine .op _ _ _ _ _ ?_
    simp only [hsig, if_true]
    refine .op _ _ _ _ _ ?_
    simp only [hsm, if_true]
    rw [Exec_bind]
    exact ⟨_, _, [], rfl, Enc_write1_do (s := e4) rfl (show (1:Nat) < 2 ^ 64 by decide) _ c4 false, .ret _⟩

theorem client_runs {cfg : ClientCfg} {kp : KeyPair} {p : CP} (h : CGood cfg kp p) (s : ClientSt) :
    ∃ s', Call (Client.handshake cfg) s
      (clientPre kp p ++ if cfg.bufferM4 then (clientPost cfg p).take 2 else clientPost cfg p) (.ok ()) s' :=
  let ⟨s', h, _⟩ := client_runs' h s
  ⟨s', h⟩

/-- Answers with which the server handshake completes. -/
structure SGood (cfg : ServerCfg) (kp : KeyPair) (p : SP) : Prop where
  enc : cfg.encKp = some kp
  pub : kp.pub.length = 32
  sec : kp.sec.length = 32
  sig : cfg.sigKp.pub.length = 32
  m1 : p.raw1.take 5 = m1Start.take p.raw1.length
  key : ¬ (leNat (field p.raw1 5 1) % 2 = 1 ∧ field p.raw1 42 32 ≠ cfg.sigKp.pub)
  k : p.k.length = 32
  p4 : 18 ≤ p.p4.length
  p4h : p.p4.head? = some 6
  m4 : p.m4 = [] ∨ p.m4.head? = some 4
  sm : 64 ≤ p.sm.length

/-- The state of a server after the handshake. -/
structure SDone (p : SP) (s' : ServerSt) : Prop where
  key : s'.sessionKey = p.k
  h1 : s'.m1Hash = p.h1
  h2 : s'.m2Hash = p.h2
  peer : s'.clientSigKey = some (field p.m4 6 32)
  chan : ∃ f, s'.chan = some ⟨⟨p.k, zeros 8, 3, 4, [], f⟩, none, []⟩

theorem server_runs' {cfg : ServerCfg} {kp : KeyPair} {p : SP} (h : SGood cfg kp p) (s : ServerSt) :
    ∃ s', Call (Server.handshake cfg) s (serverFull cfg kp p) (.ok ()) s' ∧ SDone p s' := by
  obtain ⟨raw1, h1, t0, t2, t3, h2, k, sm, c3, p4, m4, x⟩ := p
  obtain ⟨hkp, hpub, hsec, hsig, hm1, hz, hk, hp4, hp4h, hm4, hsm⟩ := h
  simp only at *
  obtain ⟨m1, hm1⟩ : ∃ p, M1.ctor raw1 = .ok p := by
    rcases m1_accept raw1 with ⟨h, -⟩ | ⟨-, h⟩
    · exact h
    · exact absurd hm1 h
  obtain ⟨m4p, hm4p⟩ := m34_ctor_of (ty := .m4) 4 rfl hm4
  simp only [Call, Server.handshake, Exec_py_bind_ok]
  have hv : ∀ s, Exec (Server.validate cfg s) [] (.ok kp, s) := by
    intro s; unfold Server.validate; rw [hkp]; exact .ret _
  let s1 : ServerSt := { s with m1 := some m1, m1Hash := h1 }
  have d1 : Exec (Server.doM1 cfg s) [⟨.read, .ok raw1⟩, ⟨.report (leNat (field raw1 6 4)), .ok ()⟩,
      ⟨.hash raw1, .ok h1⟩] (.ok none, s1) := by
    rw [s_doM1_run]
    simp only [Exec_op_cons, hm1, if_neg hz, Exec_ret, s1, and_self]
  let e4 : EncSt := { encInit k .server with writeNonce := 2 + 2 }
  let c4 : AppSt := { App.init (encInit k .server) with enc := e4 }
  let e5 : EncSt := { e4 with lastFlag := 128 ≤ (p4.getD 1 0).toNat, readNonce := 1 + 2 }
  let s2 : ServerSt := { s1 with m2 := some ⟨Spec.m2 false false t2 kp.pub, none⟩, m2Hash := h2 }
  let s3 : ServerSt := { s2 with sessionKey := k, chan := some c4 }
  let s4 : ServerSt := { s3 with
    m4 := some m4p
    clientSigKey := some (field m4 6 32)
    chan := some { c4 with enc := e5 } }
  have d5 : Exec (Server.doM4 s3) [⟨.read, .ok p4⟩, ⟨.boxOpen (p4.drop 2) (Spec.nonce 1) k, .ok m4⟩,
      ⟨.check (leNat (field m4 2 4)), .ok ()⟩] (.ok (), s4) := by
    rw [s_doM4_run s3 c4 rfl, Exec_bind]
    refine ⟨_, _, [⟨.check (leNat (field m4 2 4)), .ok ()⟩], rfl,
      Enc_read_do rfl rfl (show (1:Nat) < 2 ^ 64 by decide) p4 m4 hp4 hp4h, ?_⟩
    simp only [hm4p, Exec_op_cons, Exec_ret, true_and]
    rfl
  have d6 : Exec (Server.validateSignature2 s4)
      [⟨.signOpen (field m4 38 64 ++ scSig02 ++ h1 ++ h2) (field m4 6 32), .ok x⟩] (.ok (), s4) := by
    rw [s_validate_run s4 m4 m4p hm4p rfl]
    exact .op _ _ _ _ _ (.ret _)
  have hnb : nonceBytes 2 (zeros 8) = .ok (Spec.nonce 2) := by rw [nonceBytes_eq, if_pos (by decide)]
  have tail : ∀ ml t (s0 : ServerSt), s0.m1Hash = h1 → s0.m2Hash = h2 →
      Exec (m3Tail cfg ml t (App.init (encInit k .server)) s0)
      [⟨.sign (scSig01 ++ h1 ++ h2) cfg.sigKp.sec, .ok sm⟩,
       ⟨.box (Spec.m3 t cfg.sigKp.pub (sm.take 64)) (Spec.nonce 2) k, .ok c3⟩,
       ⟨.write (ml ++ [Spec.encrypted false c3]) false, .ok ()⟩]
      (.ok (), { s0 with chan := some c4 }) := by
    intro ml t s0 e1 e2
    subst e1 e2
    unfold m3Tail
    simp only [hsig, if_true, Exec_op_cons, hsm]
    rw [show nonceBytes (App.init (encInit k .server)).enc.writeNonce
      (App.init (encInit k .server)).enc.sessionNonce = .ok (Spec.nonce 2) from hnb]
    exact .op _ _ _ _ _ (.op _ _ _ _ _ (.ret _))
  cases hb : cfg.bufferM2 with
  | true =>
    let u1 : ServerSt := { s1 with m2 := some ⟨Spec.m2 false false t0 kp.pub, none⟩ }
    let u2 : ServerSt := { u1 with sessionKey := k, chan := some (App.init (encInit k .server)) }
    have b2 : Exec (Server.doM2 cfg kp s1) [⟨.firstTime, .ok t0⟩] (.ok (), u1) := by
      rw [s_doM2_run]
      simp only [Exec_op_cons, hpub, hb, if_true, Exec_ret, u1, and_self]
    have b3 : Exec (Server.createEncryptedChannel kp u1) [⟨.beforenm (field raw1 10 32) kp.sec, .ok k⟩]
        (.ok (), u2) := by
      rw [s_create_run kp u1 raw1 m1 hm1 rfl]
      simp only [hsec, if_true, Exec_op_cons, hk, Exec_ret, u2, and_self]
    have b4 : Exec (Server.doM3 cfg u2) [⟨.firstTime, .ok t2⟩,
         ⟨.hash (Spec.m2 false false t2 kp.pub), .ok h2⟩,
         ⟨.sign (scSig01 ++ h1 ++ h2) cfg.sigKp.sec, .ok sm⟩,
         ⟨.box (Spec.m3 t2 cfg.sigKp.pub (sm.take 64)) (Spec.nonce 2) k, .ok c3⟩,
         ⟨.write [Spec.m2 false false t2 kp.pub, Spec.encrypted false c3] false, .ok ()⟩] (.ok (), s3) := by
      rw [s_doM3_run cfg u2 t0 kp.pub (App.init (encInit k .server)) rfl rfl,
        s_doM3Head_run cfg u2 t0 kp.pub rfl, if_pos hb]
      refine .op _ _ _ _ _ (.op _ _ _ _ _ ?_)
      exact tail [Spec.m2 false false t2 kp.pub] t2 { u2 with
        m2 := some ⟨Spec.m2 false false t2 kp.pub, none⟩
        m2Hash := h2 } rfl rfl
    refine ⟨s4, ?_, rfl, rfl, rfl, rfl, ⟨_, rfl⟩⟩
    refine ⟨[], kp, s, _, rfl, hv s, [⟨.read, .ok raw1⟩, ⟨.report (leNat (field raw1 6 4)), .ok ()⟩,
      ⟨.hash raw1, .ok h1⟩], none, s1,
      serverBuffered cfg kp ⟨raw1, h1, t0, t2, t3, h2, k, sm, c3, p4, m4, x⟩ ++ serverTail ⟨raw1, h1, t0, t2, t3, h2, k, sm, c3, p4, m4, x⟩, ?_, d1, ?_⟩
    · simp only [serverFull, hb, if_true, serverHead, List.append_assoc]; rfl
    simp only [Exec_py_bind_ok]
    exact ⟨[], kp, s1, _, rfl, hv s1, [⟨.firstTime, .ok t0⟩], (), u1, _, rfl, b2,
      [⟨.beforenm (field raw1 10 32) kp.sec, .ok k⟩], (), u2, _, rfl, b3,
      [⟨.firstTime, .ok t2⟩,
         ⟨.hash (Spec.m2 false false t2 kp.pub), .ok h2⟩,
         ⟨.sign (scSig01 ++ h1 ++ h2) cfg.sigKp.sec, .ok sm⟩,
         ⟨.box (Spec.m3 t2 cfg.sigKp.pub (sm.take 64)) (Spec.nonce 2) k, .ok c3⟩,
         ⟨.write [Spec.m2 false false t2 kp.pub, Spec.encrypted false c3] false, .ok ()⟩], (), s3, _, rfl, b4,
      [⟨.read, .ok p4⟩, ⟨.boxOpen (p4.drop 2) (Spec.nonce 1) k, .ok m4⟩,
      ⟨.check (leNat (field m4 2 4)), .ok ()⟩], (), s4, _, rfl, d5, d6⟩
  | false =>
    let u2 : ServerSt := { s2 with sessionKey := k, chan := some (App.init (encInit k .server)) }
    have b2 : Exec (Server.doM2 cfg kp s1) [⟨.firstTime, .ok t2⟩,
        ⟨.write [Spec.m2 false false t2 kp.pub] false, .ok ()⟩,
        ⟨.hash (Spec.m2 false false t2 kp.pub), .ok h2⟩] (.ok (), s2) := by
      rw [s_doM2_run]
      refine .op _ _ _ _ _ ?_
      simp only [hpub, hb, if_true, Bool.false_eq_true, if_false]
      exact .op _ _ _ _ _ (.op _ _ _ _ _ (.ret _))
    have b3 : Exec (Server.createEncryptedChannel kp s2) [⟨.beforenm (field raw1 10 32) kp.sec, .ok k⟩]
        (.ok (), u2) := by
      rw [s_create_run kp s2 raw1 m1 hm1 rfl]
      simp only [hsec, if_true, Exec_op_cons, hk, Exec_ret, u2, and_self]
    have b4 : Exec (Server.doM3 cfg u2) [⟨.time, .ok t3⟩,
         ⟨.sign (scSig01 ++ h1 ++ h2) cfg.sigKp.sec, .ok sm⟩,
         ⟨.box (Spec.m3 t3 cfg.sigKp.pub (sm.take 64)) (Spec.nonce 2) k, .ok c3⟩,
         ⟨.write [Spec.encrypted false c3] false, .ok ()⟩] (.ok (), s3) := by
      rw [s_doM3_run cfg u2 t2 kp.pub (App.init (encInit k .server)) rfl rfl,
        s_doM3Head_run cfg u2 t2 kp.pub rfl, if_neg (by simp [hb])]
      refine .op _ _ _ _ _ ?_
      exact tail [] t3 u2 rfl rfl
    refine ⟨s4, ?_, rfl, rfl, rfl, rfl, ⟨_, rfl⟩⟩
    refine ⟨[], kp, s, _, rfl, hv s, [⟨.read, .ok raw1⟩, ⟨.report (leNat (field raw1 6 4)), .ok ()⟩,
      ⟨.hash raw1, .ok h1⟩], none, s1,
      serverPlain cfg kp ⟨raw1, h1, t0, t2, t3, h2, k, sm, c3, p4, m4, x⟩ ++ serverTail ⟨raw1, h1, t0, t2, t3, h2, k, sm, c3, p4, m4, x⟩, ?_, d1, ?_⟩
    · simp only [serverFull, hb, Bool.false_eq_true, if_false, serverHead, List.append_assoc]; rfl
    simp only [Exec_py_bind_ok]
    exact ⟨[], kp, s1, _, rfl, hv s1, [⟨.firstTime, .ok t2⟩,
        ⟨.write [Spec.m2 false false t2 kp.pub] false, .ok ()⟩,
        ⟨.hash (Spec.m2 false false t2 kp.pub), .ok h2⟩], (), s2, _, rfl, b2,
      [⟨.beforenm (field raw1 10 32) kp.sec, .ok k⟩], (), u2, _, rfl, b3,
      [⟨.time, .ok t3⟩,
         ⟨.sign (scSig01 ++ h1 ++ h2) cfg.sigKp.sec, .ok sm⟩,
         ⟨.box (Spec.m3 t3 cfg.sigKp.pub (sm.take 64)) (Spec.nonce 2) k, .ok c3⟩,
         ⟨.write [Spec.encrypted false c3] false, .ok ()⟩], (), s3, _, rfl, b4,
      [⟨.read, .ok p4⟩, ⟨.boxOpen (p4.drop 2) (Spec.nonce 1) k, .ok m4⟩,
      ⟨.check (leNat (field m4 2 4)), .ok ()⟩], (), s4, _, rfl, d5, d6⟩

theorem server_runs {cfg : ServerCfg} {kp : KeyPair} {p : SP} (h : SGood cfg kp p) (s : ServerSt) :
    ∃ s', Call (Server.handshake cfg) s (serverFull cfg kp p) (.ok ()) s' :=
  let ⟨s', h, _⟩ := server_runs' h s
  ⟨s', h⟩

end Salt
