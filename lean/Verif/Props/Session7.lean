import Verif.Props.Session6

/-!
# C46, C59: times seen by a completed client handshake, and occurrences of every exception of C59
-/

set_option linter.unusedSimpArgs false

namespace Salt.Props

open Salt Spec

/-- C46, client: with the default time checker a completed handshake has read an M2 with a time of 0 or 1. -/
theorem C46_completed_client {cfg : ClientCfg} {s s' : ClientSt} {tr : List (Ev env)} (hd : DefaultChecker tr)
    (h : Call (Client.handshake cfg) s tr (.ok ()) s') :
    ∃ m2 rest, readsOf tr = m2 :: rest ∧ (leNat (field m2 2 4) = 0 ∨ leNat (field m2 2 4) = 1) := by
  obtain ⟨m2, p3, m3, sm, pk, x, pre, post, hr, -, ht, -⟩ := C65_client h
  refine ⟨m2, [p3], hr, Decidable.byContradiction fun hn => ?_⟩
  have := hd _ _ ht
  rw [nullReport_bad (by omega)] at this
  simp at this

/-- A packet that decrypts to a message not of the length of an M3 makes the client raise AssertionError. -/
theorem C59_client_assertion {cfg : ClientCfg} {p : CP} {kp : KeyPair} (g : CGood cfg kp p) (s : ClientSt)
    (m : Bytes) (hm : m.length ≠ 102) :
    ∃ s', Call (Client.handshake cfg) s
      ((clientPre kp p).take 7 ++ [⟨.read, .ok p.p3⟩, ⟨.boxOpen (p.p3.drop 2) (Spec.nonce 2) p.k, .ok m⟩])
      (.error .assertionError) s' := by
  obtain ⟨t1, h1, raw2, h2, k, p3, m3, x, t4, sm, c4⟩ := p
  obtain ⟨hkp, hpub, hsec, hsig, hm2, hz, hk, hp3, hp3h, hm3, hm3h, hsm⟩ := g
  simp only at *
  obtain ⟨m2, hm2⟩ := m2_ctor_of hm2
  let s1 : ClientSt := { s with m1 := some ⟨Spec.m1 t1 kp.pub none, some []⟩, m1Hash := h1 }
  let s2 : ClientSt := { s1 with m2 := some m2, m2Hash := h2 }
  let s3 : ClientSt := { s2 with sessionKey := k, chan := some (App.init (encInit k .client)) }
  let s4 : ClientSt := { s3 with chan := some { App.init (encInit k .client) with
    enc := { encInit k .client with lastFlag := 128 ≤ (p3.getD 1 0).toNat, readNonce := 2 + 2 } } }
  have hv : Exec (Client.validate cfg s) [] (.ok kp, s) := by
    unfold Client.validate; rw [hkp]; exact .ret _
  have d1 : Exec (Client.doM1 kp s) [⟨.firstTime, .ok t1⟩, ⟨.hash (Spec.m1 t1 kp.pub none), .ok h1⟩,
      ⟨.write [Spec.m1 t1 kp.pub none] false, .ok ()⟩] (.ok (), s1) := by
    rw [c_doM1_run]
    simp only [Exec_op_cons, hpub, if_true, Exec_ret, s1, and_self]
  have d2 : Exec (Client.doM2 s1) [⟨.read, .ok raw2⟩, ⟨.report (leNat (field raw2 2 4)), .ok ()⟩,
      ⟨.hash raw2, .ok h2⟩] (.ok true, s2) := by
    rw [c_doM2_run]
    simp only [Exec_op_cons, hm2, hz, if_true, Exec_ret, s2, and_self]
  have d3 : Exec (Client.createEncryptedChannel kp s2) [⟨.beforenm (field raw2 6 32) kp.sec, .ok k⟩]
      (.ok (), s3) := by
    rw [c_create_run kp s2 raw2 m2 hm2 rfl]
    simp only [hsec, if_true, Exec_op_cons, hk, Exec_ret, s3, and_self]
  have d4 : Exec (Client.doM3 s3) [⟨.read, .ok p3⟩, ⟨.boxOpen (p3.drop 2) (Spec.nonce 2) k, .ok m⟩]
      (.error .assertionError, s4) := by
    rw [c_doM3_run s3 (App.init (encInit k .client)) rfl, Exec_bind]
    refine ⟨_, _, [], rfl, Enc_read_do (s := encInit k .client) rfl rfl (show (2:Nat) < 2 ^ 64 by decide)
      p3 m hp3 hp3h, ?_⟩
    simp only [hm, if_false]
    exact .ret _
  refine ⟨s4, ?_⟩
  unfold Call Client.handshake
  simp only [clientPre, List.take_succ_cons, List.take_zero, List.cons_append, List.nil_append]
  refine (Exec_py_bind_err ..).2 (.inr ⟨[], kp, s, _, rfl, hv, ?_⟩)
  refine (Exec_py_bind_err ..).2 (.inr ⟨[_, _, _], (), s1, [_, _, _, _, _, _], rfl, d1, ?_⟩)
  refine (Exec_py_bind_err ..).2 (.inr ⟨[_, _, _], true, s2, [_, _, _], rfl, d2, ?_⟩)
  simp only [not_true_eq_false, if_false]
  refine (Exec_py_bind_err ..).2 (.inr ⟨[_], (), s3, [_, _], rfl, d3, ?_⟩)
  exact (Exec_py_bind_err ..).2 (.inl d4)

/-- A first message of less than 5 bytes that does not start as an M1 makes the server raise ValueError. -/
theorem C59_server_value {cfg : ServerCfg} {kp : KeyPair} (hkp : cfg.encKp = some kp) (s : ServerSt)
    {raw : Bytes} (hm : ¬ LikeM1 raw) (hl : raw.length < 5) :
    ∃ s', Call (Server.handshake cfg) s [⟨.read, .ok raw⟩] (.error .valueError) s' := by
  refine ⟨{ s with m1 := none }, (server_not_m1 hkp hm).2 ?_⟩
  have : A1.ctor raw = .error .valueError := by
    have hemp : raw.isEmpty = false := by
      cases raw with
      | nil => exact absurd (by decide) hm
      | cons _ _ => rfl
    simp [A1.ctor, hemp, A1.fromBytes, hl]
  rw [this]
  exact ⟨rfl, rfl, rfl⟩

/-- An empty message in place of M4 makes the server raise AttributeError. -/
theorem C59_server_empty {cfg : ServerCfg} {kp : KeyPair} {p : SP} (h : SGood cfg kp p) (s : ServerSt) :
    ∃ s', Call (Server.handshake cfg) s
      (serverHead p ++ (if cfg.bufferM2 then serverBuffered cfg kp p else serverPlain cfg kp p) ++
        [⟨.read, .ok []⟩]) (.error .attributeError) s' := by
  obtain ⟨raw1, h1, t0, t2, t3, h2, k, sm, c3, p4, m4, x⟩ := p
  obtain ⟨hkp, hpub, hsec, hsig, hm1, hz, hk, hp4, hp4h, hm4, hsm⟩ := h
  simp only at *
  obtain ⟨m1, hm1⟩ : ∃ p, M1.ctor raw1 = .ok p := by
    rcases m1_accept raw1 with ⟨h, -⟩ | ⟨-, h⟩
    · exact h
    · exact absurd hm1 h
  simp only [Call, Server.handshake]
  have hv : ∀ s, Exec (Server.validate cfg s) [] (.ok kp, s) := by
    intro s; unfold Server.validate; rw [hkp]; exact .ret _
  let s1 : ServerSt := { s with m1 := some m1, m1Hash := h1 }
  have d1 : Exec (Server.doM1 cfg s) [⟨.read, .ok raw1⟩, ⟨.report (leNat (field raw1 6 4)), .ok ()⟩,
      ⟨.hash raw1, .ok h1⟩] (.ok none, s1) := by
    rw [s_doM1_run]
    simp only [Exec_op_cons, hm1, if_neg hz, Exec_ret, s1, and_self]
  let e4 : EncSt := { encInit k .server with writeNonce := 2 + 2 }
  let c4 : AppSt := { App.init (encInit k .server) with enc := e4 }
  let s2 : ServerSt := { s1 with m2 := some ⟨Spec.m2 false false t2 kp.pub, none⟩, m2Hash := h2 }
  let s3 : ServerSt := { s2 with sessionKey := k, chan := some c4 }
  let s4 : ServerSt := { s3 with chan := some { c4 with enc := { e4 with lastFlag := false } } }
  have d5 : Exec (Server.doM4 s3) [⟨.read, .ok []⟩] (.error .attributeError, s4) := by
    rw [s_doM4_run s3 c4 rfl, Enc_read_run, if_neg (by simp [c4, e4, App.init, encInit])]
    simp only [IT.op_bind, Exec_op_cons, openPkt, if_true, IT.ret_bind, Exec_ret, true_and]
    rfl
  have hnb : nonceBytes 2 (zeros 8) = .ok (Spec.nonce 2) := by rw [nonceBytes_eq, if_pos (by decide)]
  have tail : ∀ ml t (s0 : ServerSt), s0.m1Hash = h1 → s0.m2Hash = h2 →
      Exec (m3Tail cfg ml t (App.init (encInit k .server)) s0)
      [⟨.sign (scSig01 ++ h1 ++ h2) cfg.sigKp.sec, .ok sm⟩,
       ⟨.box (Spec.m3 t cfg.sigKp.pub (sm.take 64)) (Spec.nonce 2) k, .ok c3⟩,
       ⟨.write (ml ++ [Spec.encrypted false c3]) false, .ok ()⟩]
      (.ok (), { s0 with chan := some c4 }) := by
    intro ml t s0 e1 e2
    subst e1 e2
    unfold m3Tail
    simp only [hsig, if_true, Exec_op_cons, hsm]
    rw [show nonceBytes (App.init (encInit k .server)).enc.writeNonce
      (App.init (encInit k .server)).enc.sessionNonce = .ok (Spec.nonce 2) from hnb]
    exact .op _ _ _ _ _ (.op _ _ _ _ _ (.ret _))
  refine ⟨s4, (Exec_py_bind_err ..).2 (.inr ⟨[], kp, s, _, rfl, hv s, (Exec_py_bind_err ..).2 (.inr
    ⟨[⟨.read, .ok raw1⟩, ⟨.report (leNat (field raw1 6 4)), .ok ()⟩, ⟨.hash raw1, .ok h1⟩], none, s1, _,
      (by simp only [serverHead, List.append_assoc]; rfl), d1, ?_⟩)⟩)⟩
  refine (Exec_py_bind_err ..).2 (.inr ⟨[], kp, s1, _, rfl, hv s1, ?_⟩)
  cases hb : cfg.bufferM2 with
  | true =>
    let u1 : ServerSt := { s1 with m2 := some ⟨Spec.m2 false false t0 kp.pub, none⟩ }
    let u2 : ServerSt := { u1 with sessionKey := k, chan := some (App.init (encInit k .server)) }
    have b2 : Exec (Server.doM2 cfg kp s1) [⟨.firstTime, .ok t0⟩] (.ok (), u1) := by
      rw [s_doM2_run]
      simp only [Exec_op_cons, hpub, hb, if_true, Exec_ret, u1, and_self]
    have b3 : Exec (Server.createEncryptedChannel kp u1) [⟨.beforenm (field raw1 10 32) kp.sec, .ok k⟩]
        (.ok (), u2) := by
      rw [s_create_run kp u1 raw1 m1 hm1 rfl]
      simp only [hsec, if_true, Exec_op_cons, hk, Exec_ret, u2, and_self]
    have b4 : Exec (Server.doM3 cfg u2) [⟨.firstTime, .ok t2⟩,
         ⟨.hash (Spec.m2 false false t2 kp.pub), .ok h2⟩,
         ⟨.sign (scSig01 ++ h1 ++ h2) cfg.sigKp.sec, .ok sm⟩,
         ⟨.box (Spec.m3 t2 cfg.sigKp.pub (sm.take 64)) (Spec.nonce 2) k, .ok c3⟩,
         ⟨.write [Spec.m2 false false t2 kp.pub, Spec.encrypted false c3] false, .ok ()⟩] (.ok (), s3) := by
      rw [s_doM3_run cfg u2 t0 kp.pub (App.init (encInit k .server)) rfl rfl,
        s_doM3Head_run cfg u2 t0 kp.pub rfl, if_pos hb]
      refine .op _ _ _ _ _ (.op _ _ _ _ _ ?_)
      exact tail [Spec.m2 false false t2 kp.pub] t2 { u2 with
        m2 := some ⟨Spec.m2 false false t2 kp.pub, none⟩
        m2Hash := h2 } rfl rfl
    refine (Exec_py_bind_err ..).2 (.inr ⟨[⟨.firstTime, .ok t0⟩], (), u1, _, rfl, b2, ?_⟩)
    refine (Exec_py_bind_err ..).2 (.inr ⟨[⟨.beforenm (field raw1 10 32) kp.sec, .ok k⟩], (), u2, _, rfl, b3, ?_⟩)
    refine (Exec_py_bind_err ..).2 (.inr ⟨[⟨.firstTime, .ok t2⟩,
         ⟨.hash (Spec.m2 false false t2 kp.pub), .ok h2⟩,
         ⟨.sign (scSig01 ++ h1 ++ h2) cfg.sigKp.sec, .ok sm⟩,
         ⟨.box (Spec.m3 t2 cfg.sigKp.pub (sm.take 64)) (Spec.nonce 2) k, .ok c3⟩,
         ⟨.write [Spec.m2 false false t2 kp.pub, Spec.encrypted false c3] false, .ok ()⟩], (), s3, _, rfl, b4, ?_⟩)
    exact (Exec_py_bind_err ..).2 (.inl d5)
  | false =>
    let u2 : ServerSt := { s2 with sessionKey := k, chan := some (App.init (encInit k .server)) }
    have b2 : Exec (Server.doM2 cfg kp s1) [⟨.firstTime, .ok t2⟩,
        ⟨.write [Spec.m2 false false t2 kp.pub] false, .ok ()⟩,
        ⟨.hash (Spec.m2 false false t2 kp.pub), .ok h2⟩] (.ok (), s2) := by
      rw [s_doM2_run]
      refine .op _ _ _ _ _ ?_
      simp only [hpub, hb, if_true, Bool.false_eq_true, if_false]
      exact .op _ _ _ _ _ (.op _ _ _ _ _ (.ret _))
    have b3 : Exec (Server.createEncryptedChannel kp s2) [⟨.beforenm (field raw1 10 32) kp.sec, .ok k⟩]
        (.ok (), u2) := by
      rw [s_create_run kp s2 raw1 m1 hm1 rfl]
      simp only [hsec, if_true, Exec_op_cons, hk, Exec_ret, u2, and_self]
    have b4 : Exec (Server.doM3 cfg u2) [⟨.time, .ok t3⟩,
         ⟨.sign (scSig01 ++ h1 ++ h2) cfg.sigKp.sec, .ok sm⟩,
         ⟨.box (Spec.m3 t3 cfg.sigKp.pub (sm.take 64)) (Spec.nonce 2) k, .ok c3⟩,
         ⟨.write [Spec.encrypted false c3] false, .ok ()⟩] (.ok (), s3) := by
      rw [s_doM3_run cfg u2 t2 kp.pub (App.init (encInit k .server)) rfl rfl,
        s_doM3Head_run cfg u2 t2 kp.pub rfl, if_neg (by simp [hb])]
      refine .op _ _ _ _ _ ?_
      exact tail [] t3 u2 rfl rfl
    refine (Exec_py_bind_err ..).2 (.inr ⟨[⟨.firstTime, .ok t2⟩,
        ⟨.write [Spec.m2 false false t2 kp.pub] false, .ok ()⟩,
        ⟨.hash (Spec.m2 false false t2 kp.pub), .ok h2⟩], (), s2, _, rfl, b2, ?_⟩)
    refine (Exec_py_bind_err ..).2 (.inr ⟨[⟨.beforenm (field raw1 10 32) kp.sec, .ok k⟩], (), u2, _, rfl, b3, ?_⟩)
    refine (Exec_py_bind_err ..).2 (.inr ⟨[⟨.time, .ok t3⟩,
         ⟨.sign (scSig01 ++ h1 ++ h2) cfg.sigKp.sec, .ok sm⟩,
         ⟨.box (Spec.m3 t3 cfg.sigKp.pub (sm.take 64)) (Spec.nonce 2) k, .ok c3⟩,
         ⟨.write [Spec.encrypted false c3] false, .ok ()⟩], (), s3, _, rfl, b4, ?_⟩)
    exact (Exec_py_bind_err ..).2 (.inl d5)

/-- The answers of a good handshake, up to the second message of the peer. -/
example (s : ClientSt) : ∃ p s', Call (Client.handshake (exClient false)) s
    ((clientPre exEnc p).take 7 ++ [⟨.read, .ok p.p3⟩, ⟨.boxOpen (p.p3.drop 2) (Spec.nonce 2) p.k, .ok [3, 0]⟩])
    (.error .assertionError) s' :=
  ⟨exCP, C59_client_assertion (exClient_good false) s [3, 0] (by decide)⟩

example (s : ServerSt) : ∃ s', Call (Server.handshake (exServer true)) s [⟨.read, .ok [0x53, 0x44]⟩]
    (.error .valueError) s' :=
  C59_server_value (kp := exEnc) rfl s (by decide) (by decide)

example (b : Bool) (s : ServerSt) : ∃ tr s', Call (Server.handshake (exServer b)) s
    (tr ++ [⟨.read, .ok []⟩]) (.error .attributeError) s' :=
  ⟨_, C59_server_empty (exServer_good b) s⟩

end Salt.Props
