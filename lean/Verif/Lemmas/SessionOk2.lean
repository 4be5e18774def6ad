import Verif.Lemmas.SessionOk

/-!
# Successful handshakes: the exact trace (server)
-/

set_option linter.unusedSimpArgs false

namespace Salt

open Spec

theorem s_doM1_ok {cfg : ServerCfg} {s s' : ServerSt} {tr : List (Ev env)} {o : Option Bytes}
    (h : Exec (Server.doM1 cfg s) tr (.ok o, s')) :
    (∃ raw m1 h1, o = none ∧ M1.ctor raw = .ok m1 ∧
      ¬ (leNat (field raw 5 1) % 2 = 1 ∧ field raw 42 32 ≠ cfg.sigKp.pub) ∧
      tr = [⟨.read, .ok raw⟩, ⟨.report (leNat (field raw 6 4)), .ok ()⟩, ⟨.hash raw, .ok h1⟩] ∧
      s' = { s with m1 := some m1, m1Hash := h1 }) ∨
    (∃ raw e, o = some raw ∧ M1.ctor raw = .error e ∧ tr = [⟨.read, .ok raw⟩] ∧
      s' = { s with m1 := none }) := by
  rw [s_doM1_run, Exec_op] at h
  obtain ⟨r, tr, rfl, h⟩ := h
  cases r with
  | error e => simp at h
  | ok raw =>
    simp only [] at h
    cases hm : M1.ctor raw with
    | error e =>
      rw [hm] at h
      simp only [Exec_ret, Prod.mk.injEq, Except.ok.injEq] at h
      obtain ⟨rfl, rfl, rfl⟩ := h
      exact .inr ⟨raw, e, rfl, hm, rfl, rfl⟩
    | ok m1 =>
      rw [hm] at h
      simp only [Exec_op] at h
      obtain ⟨r, tr, rfl, h⟩ := h
      cases r with
      | error e => simp at h
      | ok _ =>
        simp only [Exec_op] at h
        obtain ⟨r, tr, rfl, h⟩ := h
        cases r with
        | error e => simp at h
        | ok h1 =>
          simp only [] at h
          split at h
          · simp only [Exec_op] at h
            obtain ⟨r, tr, rfl, h⟩ := h
            cases r with
            | error e => simp at h
            | ok t =>
              simp only [Exec_op] at h
              obtain ⟨r, tr, rfl, h⟩ := h
              cases r <;> simp at h
          · rename_i hz
            simp only [Exec_ret, Prod.mk.injEq, Except.ok.injEq] at h
            obtain ⟨rfl, rfl, rfl⟩ := h
            exact .inl ⟨raw, m1, h1, rfl, hm, hz, rfl, rfl⟩

theorem s_doA2_ok {cfg : ServerCfg} {raw : Bytes} {s s' : ServerSt} {tr : List (Ev env)} {u : Unit}
    (h : Exec (Server.doA2 cfg raw s) tr (.ok u, s')) :
    ∃ a1, A1.ctor raw = .ok a1 ∧
      tr = [⟨.write [(cfg.a2.getD (A2.ofCase .default)).toBytes] true, .ok ()⟩] ∧ s' = s := by
  rw [s_doA2_run] at h
  cases hm : A1.ctor raw with
  | error e => rw [hm] at h; simp at h
  | ok a1 =>
    rw [hm] at h
    simp only [Exec_op, Exec_ret, Prod.mk.injEq] at h
    obtain ⟨r, tr, rfl, rfl, rfl, rfl⟩ := h
    exact ⟨a1, rfl, rfl, rfl⟩

theorem s_doM2_ok {cfg : ServerCfg} {kp : KeyPair} {s s' : ServerSt} {tr : List (Ev env)} {u : Unit}
    (h : Exec (Server.doM2 cfg kp s) tr (.ok u, s')) :
    ∃ t, kp.pub.length = 32 ∧
      let m2 := Spec.m2 false false t kp.pub
      ((cfg.bufferM2 = true ∧ tr = [⟨.firstTime, .ok t⟩] ∧ s' = { s with m2 := some ⟨m2, none⟩ }) ∨
       (cfg.bufferM2 = false ∧ ∃ h2, tr = [⟨.firstTime, .ok t⟩, ⟨.write [m2] false, .ok ()⟩,
          ⟨.hash m2, .ok h2⟩] ∧ s' = { s with m2 := some ⟨m2, none⟩, m2Hash := h2 })) := by
  rw [s_doM2_run, Exec_op] at h
  obtain ⟨r, tr, rfl, h⟩ := h
  cases r with
  | error e => simp at h
  | ok t =>
    simp only [] at h
    split at h
    · rename_i hk
      refine ⟨t, hk, ?_⟩
      split at h
      · rename_i hb
        simp only [Exec_ret, Prod.mk.injEq] at h
        obtain ⟨rfl, -, rfl⟩ := h
        exact .inl ⟨hb, rfl, rfl⟩
      · rename_i hb
        simp only [Exec_op] at h
        obtain ⟨r, tr, rfl, h⟩ := h
        cases r with
        | error e => simp at h
        | ok _ =>
          simp only [Exec_op] at h
          obtain ⟨r, tr, rfl, h⟩ := h
          cases r with
          | error e => simp at h
          | ok h2 =>
            simp only [Exec_ret, Prod.mk.injEq] at h
            obtain ⟨rfl, -, rfl⟩ := h
            exact .inr ⟨by simpa using hb, h2, rfl, rfl⟩
    · simp at h

theorem s_create_ok {kp : KeyPair} {s s' : ServerSt} {raw : Bytes} {m1 : Packet}
    (hm : M1.ctor raw = .ok m1) (hs : s.m1 = some m1) {tr : List (Ev env)} {u : Unit}
    (h : Exec (Server.createEncryptedChannel kp s) tr (.ok u, s')) :
    ∃ k, kp.sec.length = 32 ∧ k.length = 32 ∧
      tr = [⟨.beforenm (field raw 10 32) kp.sec, .ok k⟩] ∧
      s' = { s with sessionKey := k, chan := some (App.init (encInit k .server)) } := by
  rw [s_create_run kp s raw m1 hm hs] at h
  split at h
  · rename_i hsec
    rw [Exec_op] at h
    obtain ⟨r, tr, rfl, h⟩ := h
    cases r with
    | error e => simp at h
    | ok k =>
      simp only [] at h
      split at h
      · rename_i hk
        simp only [Exec_ret, Prod.mk.injEq] at h
        obtain ⟨rfl, -, rfl⟩ := h
        exact ⟨k, hsec, hk, rfl, rfl⟩
      · simp at h
  · simp at h

theorem m3Tail_ok {cfg : ServerCfg} {ml : List Bytes} {t : Nat} {c : AppSt} {s s' : ServerSt}
    (hs : c.enc.sessionNonce = zeros 8) (hn : c.enc.writeNonce < 2 ^ 64) {tr : List (Ev env)} {u : Unit}
    (h : Exec (m3Tail cfg ml t c s) tr (.ok u, s')) :
    ∃ sm x, cfg.sigKp.pub.length = 32 ∧ 64 ≤ sm.length ∧
      tr = [⟨.sign (scSig01 ++ s.m1Hash ++ s.m2Hash) cfg.sigKp.sec, .ok sm⟩,
        ⟨.box (Spec.m3 t cfg.sigKp.pub (sm.take 64)) (Spec.nonce c.enc.writeNonce) c.enc.key, .ok x⟩,
        ⟨.write (ml ++ [Spec.encrypted false x]) false, .ok ()⟩] ∧
      s' = { s with chan := some { c with enc := { c.enc with
        writeNonce := c.enc.writeNonce + 2 } } } := by
  have hb : nonceBytes c.enc.writeNonce c.enc.sessionNonce = .ok (Spec.nonce c.enc.writeNonce) := by
    rw [hs, nonceBytes_eq, if_pos hn]
  unfold m3Tail at h
  rw [hb] at h
  split at h
  · rename_i hk
    rw [Exec_op] at h
    obtain ⟨r, tr, rfl, h⟩ := h
    cases r with
    | error e => simp at h
    | ok sm =>
      simp only [] at h
      split at h
      · rename_i hl
        rw [Exec_op] at h
        obtain ⟨r, tr, rfl, h⟩ := h
        cases r with
        | error e => simp at h
        | ok x =>
          simp only [Exec_op, Exec_ret, Prod.mk.injEq] at h
          obtain ⟨r, tr, rfl, rfl, rfl, rfl⟩ := h
          exact ⟨sm, x, hk, hl, rfl, rfl⟩
      · simp at h
  · simp at h

theorem s_doM4_ok {s s' : ServerSt} {c : AppSt} (hc : s.chan = some c) (hp : c.enc.pushback = [])
    (hs : c.enc.sessionNonce = zeros 8) (hn : c.enc.readNonce < 2 ^ 64) {tr : List (Ev env)} {u : Unit}
    (h : Exec (Server.doM4 s) tr (.ok u, s')) :
    ∃ p chunk m4, 18 ≤ p.length ∧ p.head? = some 6 ∧ M34.ctor .m4 chunk = .ok m4 ∧
      tr = [⟨.read, .ok p⟩, ⟨.boxOpen (p.drop 2) (Spec.nonce c.enc.readNonce) c.enc.key, .ok chunk⟩,
        ⟨.check (leNat (field chunk 2 4)), .ok ()⟩] ∧
      s' = { s with
        m4 := some m4
        clientSigKey := some (field chunk 6 32)
        chan := some { c with enc := { c.enc with
          lastFlag := 128 ≤ (p.getD 1 0).toNat, readNonce := c.enc.readNonce + 2 } } } := by
  rw [s_doM4_run s c hc, Exec_bind] at h
  obtain ⟨tr1, ⟨r, e⟩, tr2, rfl, h1, h2⟩ := h
  cases r with
  | error x => simp at h2
  | ok chunk =>
    obtain ⟨p, hp1, hp2, rfl, rfl⟩ := Enc_read_ok hp hs hn h1
    simp only [] at h2
    cases hm : M34.ctor .m4 chunk with
    | error e => rw [hm] at h2; simp at h2
    | ok m4 =>
      rw [hm] at h2
      simp only [Exec_op] at h2
      obtain ⟨r, tr, rfl, h2⟩ := h2
      cases r with
      | error e => simp at h2
      | ok _ =>
        simp only [Exec_ret, Prod.mk.injEq] at h2
        obtain ⟨rfl, -, rfl⟩ := h2
        exact ⟨p, chunk, m4, hp1, hp2, hm, rfl, rfl⟩

theorem s_validate_ok {s s' : ServerSt} {chunk : Bytes} {m4 : Packet} (hm : M34.ctor .m4 chunk = .ok m4)
    (hs : s.m4 = some m4) {tr : List (Ev env)} {u : Unit}
    (h : Exec (Server.validateSignature2 s) tr (.ok u, s')) :
    ∃ x, tr = [⟨.signOpen (field chunk 38 64 ++ scSig02 ++ s.m1Hash ++ s.m2Hash) (field chunk 6 32),
        .ok x⟩] ∧ s' = s := by
  rw [s_validate_run s chunk m4 hm hs, Exec_op] at h
  obtain ⟨r, tr, rfl, h⟩ := h
  cases r with
  | error e => simp at h
  | ok x =>
    simp only [Exec_ret, Prod.mk.injEq] at h
    obtain ⟨rfl, -, rfl⟩ := h
    exact ⟨x, rfl, rfl⟩

/-- The part of a server handshake between M1 and M4: what is done to send M2 and M3, ending with
the two transcript hashes `h1` and `h2`; `m2` is the M2 that was sent. -/
inductive ServerSent (cfg : ServerCfg) (kp : KeyPair) (raw1 h1 h2 k m2 : Bytes) : List (Ev env) → Prop
  | plain (t2 t3 : Nat) (sm x : Bytes) (hb : cfg.bufferM2 = false) (hl : 64 ≤ sm.length)
      (hm : m2 = Spec.m2 false false t2 kp.pub) : ServerSent cfg kp raw1 h1 h2 k m2
      [⟨.firstTime, .ok t2⟩, ⟨.write [m2] false, .ok ()⟩, ⟨.hash m2, .ok h2⟩,
       ⟨.beforenm (field raw1 10 32) kp.sec, .ok k⟩, ⟨.time, .ok t3⟩,
       ⟨.sign (scSig01 ++ h1 ++ h2) cfg.sigKp.sec, .ok sm⟩,
       ⟨.box (Spec.m3 t3 cfg.sigKp.pub (sm.take 64)) (Spec.nonce 2) k, .ok x⟩,
       ⟨.write [Spec.encrypted false x] false, .ok ()⟩]
  | buffered (t0 t2 : Nat) (sm x : Bytes) (hb : cfg.bufferM2 = true) (hl : 64 ≤ sm.length)
      (hm : m2 = Spec.m2 false false t2 kp.pub) : ServerSent cfg kp raw1 h1 h2 k m2
      [⟨.firstTime, .ok t0⟩, ⟨.beforenm (field raw1 10 32) kp.sec, .ok k⟩, ⟨.firstTime, .ok t2⟩,
       ⟨.hash m2, .ok h2⟩, ⟨.sign (scSig01 ++ h1 ++ h2) cfg.sigKp.sec, .ok sm⟩,
       ⟨.box (Spec.m3 t2 cfg.sigKp.pub (sm.take 64)) (Spec.nonce 2) k, .ok x⟩,
       ⟨.write [m2, Spec.encrypted false x] false, .ok ()⟩]

/-- Everything that happened in a server handshake that returned normally: either the A1 path or a
completed handshake. -/
structure ServerOk (cfg : ServerCfg) (s : ServerSt) (tr : List (Ev env)) (s' : ServerSt) : Prop where
  ex : (∃ raw e a1, M1.ctor raw = .error e ∧ A1.ctor raw = .ok a1 ∧
      tr = [⟨.read, .ok raw⟩, ⟨.write [(cfg.a2.getD (A2.ofCase .default)).toBytes] true, .ok ()⟩] ∧
      s' = { s with m1 := none, isDone := true }) ∨
    (∃ kp raw1 m1 h1 m2 h2 k mid p4 m4 m4p x,
      cfg.encKp = some kp ∧ kp.pub.length = 32 ∧ kp.sec.length = 32 ∧ cfg.sigKp.pub.length = 32 ∧
      M1.ctor raw1 = .ok m1 ∧ ¬ (leNat (field raw1 5 1) % 2 = 1 ∧ field raw1 42 32 ≠ cfg.sigKp.pub) ∧
      k.length = 32 ∧ ServerSent cfg kp raw1 h1 h2 k m2 mid ∧
      18 ≤ p4.length ∧ p4.head? = some 6 ∧ M34.ctor .m4 m4 = .ok m4p ∧
      tr = [⟨.read, .ok raw1⟩, ⟨.report (leNat (field raw1 6 4)), .ok ()⟩, ⟨.hash raw1, .ok h1⟩] ++ mid ++
        [⟨.read, .ok p4⟩, ⟨.boxOpen (p4.drop 2) (Spec.nonce 1) k, .ok m4⟩,
         ⟨.check (leNat (field m4 2 4)), .ok ()⟩,
         ⟨.signOpen (field m4 38 64 ++ scSig02 ++ h1 ++ h2) (field m4 6 32), .ok x⟩] ∧
      s' = ⟨k, some m1, h1, some ⟨m2, none⟩, h2, some m4p, some (field m4 6 32), s.isDone,
        some ⟨⟨k, zeros 8, 3, 4, [], 128 ≤ (p4.getD 1 0).toNat⟩, none, []⟩⟩)

theorem server_ok {cfg : ServerCfg} {s s' : ServerSt} {tr : List (Ev env)}
    (h : Call (Server.handshake cfg) s tr (.ok ()) s') : ServerOk cfg s tr s' := by
  unfold Call Server.handshake at h
  rw [Exec_py_bind_ok] at h
  obtain ⟨tr0, kp, s0, tr, rfl, h0, h⟩ := h
  unfold Server.validate at h0
  cases hkp : cfg.encKp with
  | none => rw [hkp] at h0; simp at h0
  | some kp0 =>
  rw [hkp] at h0
  simp only [Py.pure_run, Exec_ret, Prod.mk.injEq, Except.ok.injEq] at h0
  obtain ⟨rfl, rfl, rfl⟩ := h0
  rw [Exec_py_bind_ok] at h
  obtain ⟨tr1, o, s1, tr, rfl, h1, h⟩ := h
  rcases s_doM1_ok h1 with ⟨raw1, m1, hh1, rfl, hm1, hz, rfl, rfl⟩ | ⟨raw, e, rfl, hm1, rfl, rfl⟩
  · simp only [] at h
    rw [Exec_py_bind_ok] at h
    obtain ⟨tr0, kp1, s0, tr, rfl, h0, h⟩ := h
    unfold Server.validate at h0
    rw [hkp] at h0
    simp only [Py.pure_run, Exec_ret, Prod.mk.injEq, Except.ok.injEq] at h0
    obtain ⟨rfl, rfl, rfl⟩ := h0
    rw [Exec_py_bind_ok] at h
    obtain ⟨tr2, _, s2, tr, rfl, h2, h⟩ := h
    obtain ⟨t2, hpub, h2⟩ := s_doM2_ok h2
    rcases h2 with ⟨hb, rfl, rfl⟩ | ⟨hb, hh2, rfl, rfl⟩
    · rw [Exec_py_bind_ok] at h
      obtain ⟨tr3, _, s3, tr, rfl, h3, h⟩ := h
      obtain ⟨k, hsec, hk, rfl, rfl⟩ := s_create_ok hm1 rfl h3
      rw [Exec_py_bind_ok] at h
      obtain ⟨tr4, _, s4, tr, rfl, h4, h⟩ := h
      rw [s_doM3_run cfg _ t2 kp0.pub (App.init (encInit k .server)) rfl rfl,
        s_doM3Head_run cfg _ t2 kp0.pub rfl, if_pos hb, IT.op_bind, Exec_op] at h4
      obtain ⟨r, tr4, rfl, h4⟩ := h4
      cases r with
      | error e => simp at h4
      | ok t3 =>
      simp only [IT.op_bind, Exec_op] at h4
      obtain ⟨r, tr4, rfl, h4⟩ := h4
      cases r with
      | error e => simp at h4
      | ok hh2 =>
      simp only [IT.ret_bind] at h4
      obtain ⟨sm, x3, hsp, hsl, rfl, rfl⟩ := m3Tail_ok (c := App.init (encInit k .server)) rfl
        (show (2:Nat) < 2 ^ 64 by decide) h4
      rw [Exec_py_bind_ok] at h
      obtain ⟨tr5, _, s5, tr, rfl, h5, h⟩ := h
      obtain ⟨p4, m4, m4p, hp1, hp2, hm4, rfl, rfl⟩ := s_doM4_ok (c := { App.init (encInit k .server) with
        enc := { encInit k .server with writeNonce := 2 + 2 } }) rfl rfl rfl
        (show (1:Nat) < 2 ^ 64 by decide) h5
      obtain ⟨x, rfl, rfl⟩ := s_validate_ok hm4 rfl h
      exact ⟨.inr ⟨kp0, raw1, m1, hh1, _, hh2, k, _, p4, m4, m4p, x, hkp, hpub, hsec, hsp, hm1, hz, hk,
        .buffered t2 t3 sm x3 hb hsl rfl, hp1, hp2, hm4, rfl, rfl⟩⟩
    · rw [Exec_py_bind_ok] at h
      obtain ⟨tr3, _, s3, tr, rfl, h3, h⟩ := h
      obtain ⟨k, hsec, hk, rfl, rfl⟩ := s_create_ok hm1 rfl h3
      rw [Exec_py_bind_ok] at h
      obtain ⟨tr4, _, s4, tr, rfl, h4, h⟩ := h
      rw [s_doM3_run cfg _ t2 kp0.pub (App.init (encInit k .server)) rfl rfl,
        s_doM3Head_run cfg _ t2 kp0.pub rfl, if_neg (by simp [hb]), IT.op_bind, Exec_op] at h4
      obtain ⟨r, tr4, rfl, h4⟩ := h4
      cases r with
      | error e => simp at h4
      | ok t3 =>
      simp only [IT.ret_bind] at h4
      obtain ⟨sm, x3, hsp, hsl, rfl, rfl⟩ := m3Tail_ok (c := App.init (encInit k .server)) rfl
        (show (2:Nat) < 2 ^ 64 by decide) h4
      rw [Exec_py_bind_ok] at h
      obtain ⟨tr5, _, s5, tr, rfl, h5, h⟩ := h
      obtain ⟨p4, m4, m4p, hp1, hp2, hm4, rfl, rfl⟩ := s_doM4_ok (c := { App.init (encInit k .server) with
        enc := { encInit k .server with writeNonce := 2 + 2 } }) rfl rfl rfl
        (show (1:Nat) < 2 ^ 64 by decide) h5
      obtain ⟨x, rfl, rfl⟩ := s_validate_ok hm4 rfl h
      exact ⟨.inr ⟨kp0, raw1, m1, hh1, _, hh2, k, _, p4, m4, m4p, x, hkp, hpub, hsec, hsp, hm1, hz, hk,
        .plain t2 t3 sm x3 hb hsl rfl, hp1, hp2, hm4, rfl, rfl⟩⟩
  · simp only [] at h
    rw [Exec_py_bind_ok] at h
    obtain ⟨tr2, _, s2, tr, rfl, h2, h⟩ := h
    obtain ⟨a1, ha, rfl, rfl⟩ := s_doA2_ok h2
    simp only [Py.modifySt_run, Exec_ret, Prod.mk.injEq] at h
    obtain ⟨rfl, -, rfl⟩ := h
    exact ⟨.inl ⟨raw, e, a1, hm1, ha, rfl, rfl⟩⟩

end Salt
