import Verif.Lemmas.Session
import Verif.Props.EncChannel

/-!
# Successful handshakes: the exact trace
-/

set_option linter.unusedSimpArgs false

namespace Salt

open Spec

theorem Exec_py_bind_ok {S : Sig} {σ α β : Type} (m : Py S σ α) (f : α → Py S σ β) (s : σ)
    (tr : List (Ev S)) (b : β) (s' : σ) :
    Exec ((m >>= f) s) tr (.ok b, s') ↔
      ∃ tr1 a s1 tr2, tr = tr1 ++ tr2 ∧ Exec (m s) tr1 (.ok a, s1) ∧ Exec (f a s1) tr2 (.ok b, s') := by
  rw [Py.bind_run, Exec_bind]
  constructor
  · rintro ⟨tr1, ⟨r, s1⟩, tr2, rfl, h1, h2⟩
    cases r with
    | error e => simp at h2
    | ok a => exact ⟨tr1, a, s1, tr2, rfl, h1, h2⟩
  · rintro ⟨tr1, a, s1, tr2, rfl, h1, h2⟩
    exact ⟨tr1, (.ok a, s1), tr2, rfl, h1, h2⟩

theorem Enc_read_ok {s s' : EncSt} {tr : List (Ev env)} {m : Bytes} (hp : s.pushback = [])
    (hs : s.sessionNonce = zeros 8) (hn : s.readNonce < 2 ^ 64)
    (h : Exec (Enc.read s) tr (.ok m, s')) :
    ∃ raw, 18 ≤ raw.length ∧ raw.head? = some 6 ∧
      tr = [⟨.read, .ok raw⟩, ⟨.boxOpen (raw.drop 2) (Spec.nonce s.readNonce) s.key, .ok m⟩] ∧
      s' = { s with lastFlag := 128 ≤ (raw.getD 1 0).toNat, readNonce := s.readNonce + 2 } := by
  rw [Enc_read_run, if_neg (by simp [hp]), Exec_op] at h
  obtain ⟨r, tr, rfl, h⟩ := h
  cases r with
  | error e => simp at h
  | ok raw =>
    unfold openPkt at h
    have hb : nonceBytes s.readNonce s.sessionNonce = .ok (Spec.nonce s.readNonce) := by
      rw [hs, nonceBytes_eq, if_pos hn]
    simp only [] at h
    split at h
    · simp at h
    · split at h
      · rename_i hc
        rw [hb] at h
        simp only [Exec_op] at h
        obtain ⟨r, tr, rfl, h⟩ := h
        cases r with
        | error e => simp at h
        | ok m' =>
          simp only [Exec_ret, Prod.mk.injEq, Except.ok.injEq] at h
          obtain ⟨rfl, rfl, rfl⟩ := h
          exact ⟨raw, hc.1, hc.2, rfl, rfl⟩
      · simp at h

theorem c_doM1_ok {kp : KeyPair} {s s' : ClientSt} {tr : List (Ev env)} {u : Unit}
    (h : Exec (Client.doM1 kp s) tr (.ok u, s')) :
    ∃ t h1, kp.pub.length = 32 ∧
      tr = [⟨.firstTime, .ok t⟩, ⟨.hash (Spec.m1 t kp.pub none), .ok h1⟩,
        ⟨.write [Spec.m1 t kp.pub none] false, .ok ()⟩] ∧
      s' = { s with m1 := some ⟨Spec.m1 t kp.pub none, some []⟩, m1Hash := h1 } := by
  rw [c_doM1_run, Exec_op] at h
  obtain ⟨r, tr, rfl, h⟩ := h
  cases r with
  | error e => simp at h
  | ok t =>
    simp only [] at h
    split at h
    · rename_i hk
      rw [Exec_op] at h
      obtain ⟨r, tr, rfl, h⟩ := h
      cases r with
      | error e => simp at h
      | ok h1 =>
        simp only [Exec_op, Exec_ret, Prod.mk.injEq] at h
        obtain ⟨r, tr, rfl, rfl, rfl, rfl⟩ := h
        exact ⟨t, h1, hk, rfl, rfl⟩
    · simp at h

theorem c_doM2_ok {s s' : ClientSt} {tr : List (Ev env)} {b : Bool}
    (h : Exec (Client.doM2 s) tr (.ok b, s')) :
    ∃ raw m2 h2, M2.ctor raw = .ok m2 ∧ leNat (field raw 1 1) % 2 = 0 ∧ b = true ∧
      tr = [⟨.read, .ok raw⟩, ⟨.report (leNat (field raw 2 4)), .ok ()⟩, ⟨.hash raw, .ok h2⟩] ∧
      s' = { s with m2 := some m2, m2Hash := h2 } := by
  rw [c_doM2_run, Exec_op] at h
  obtain ⟨r, tr, rfl, h⟩ := h
  cases r with
  | error e => simp at h
  | ok raw =>
    simp only [] at h
    cases hm : M2.ctor raw with
    | error e => rw [hm] at h; simp at h
    | ok m2 =>
      rw [hm] at h
      simp only [Exec_op] at h
      obtain ⟨r, tr, rfl, h⟩ := h
      cases r with
      | error e => simp at h
      | ok _ =>
        simp only [Exec_op] at h
        obtain ⟨r, tr, rfl, h⟩ := h
        cases r with
        | error e => simp at h
        | ok h2 =>
          simp only [] at h
          split at h
          · rename_i hz
            simp only [Exec_ret, Prod.mk.injEq, Except.ok.injEq] at h
            obtain ⟨rfl, rfl, rfl⟩ := h
            exact ⟨raw, m2, h2, hm, hz, rfl, rfl, rfl⟩
          · simp at h

theorem c_create_ok {kp : KeyPair} {s s' : ClientSt} {raw : Bytes} {m2 : Packet}
    (hm : M2.ctor raw = .ok m2) (hs : s.m2 = some m2) {tr : List (Ev env)} {u : Unit}
    (h : Exec (Client.createEncryptedChannel kp s) tr (.ok u, s')) :
    ∃ k, kp.sec.length = 32 ∧ k.length = 32 ∧
      tr = [⟨.beforenm (field raw 6 32) kp.sec, .ok k⟩] ∧
      s' = { s with sessionKey := k, chan := some (App.init (encInit k .client)) } := by
  rw [c_create_run kp s raw m2 hm hs] at h
  split at h
  · rename_i hsec
    rw [Exec_op] at h
    obtain ⟨r, tr, rfl, h⟩ := h
    cases r with
    | error e => simp at h
    | ok k =>
      simp only [] at h
      split at h
      · rename_i hk
        simp only [Exec_ret, Prod.mk.injEq] at h
        obtain ⟨rfl, -, rfl⟩ := h
        exact ⟨k, hsec, hk, rfl, rfl⟩
      · simp at h
  · simp at h

theorem c_doM3_ok {s s' : ClientSt} {c : AppSt} (hc : s.chan = some c) (hp : c.enc.pushback = [])
    (hs : c.enc.sessionNonce = zeros 8) (hn : c.enc.readNonce < 2 ^ 64) {tr : List (Ev env)} {u : Unit}
    (h : Exec (Client.doM3 s) tr (.ok u, s')) :
    ∃ p chunk m3, 18 ≤ p.length ∧ p.head? = some 6 ∧ chunk.length = 102 ∧
      M34.ctor .m3 chunk = .ok m3 ∧
      tr = [⟨.read, .ok p⟩, ⟨.boxOpen (p.drop 2) (Spec.nonce c.enc.readNonce) c.enc.key, .ok chunk⟩,
        ⟨.check (leNat (field chunk 2 4)), .ok ()⟩] ∧
      s' = { s with m3 := some m3, chan := some { c with enc := { c.enc with
        lastFlag := 128 ≤ (p.getD 1 0).toNat, readNonce := c.enc.readNonce + 2 } } } := by
  rw [c_doM3_run s c hc, Exec_bind] at h
  obtain ⟨tr1, ⟨r, e⟩, tr2, rfl, h1, h2⟩ := h
  cases r with
  | error x => simp at h2
  | ok chunk =>
    obtain ⟨p, hp1, hp2, rfl, rfl⟩ := Enc_read_ok hp hs hn h1
    simp only [] at h2
    split at h2
    · rename_i hl
      cases hm : M34.ctor .m3 chunk with
      | error e => rw [hm] at h2; simp at h2
      | ok m3 =>
        rw [hm] at h2
        simp only [Exec_op] at h2
        obtain ⟨r, tr, rfl, h2⟩ := h2
        cases r with
        | error e => simp at h2
        | ok _ =>
          simp only [Exec_ret, Prod.mk.injEq] at h2
          obtain ⟨rfl, -, rfl⟩ := h2
          exact ⟨p, chunk, m3, hp1, hp2, hl, hm, rfl, rfl⟩
    · simp at h2

theorem c_validate_ok {s s' : ClientSt} {chunk : Bytes} {m3 : Packet} (hm : M34.ctor .m3 chunk = .ok m3)
    (hs : s.m3 = some m3) {tr : List (Ev env)} {u : Unit}
    (h : Exec (Client.validateSignature1 s) tr (.ok u, s')) :
    ∃ x, tr = [⟨.signOpen (field chunk 38 64 ++ scSig01 ++ s.m1Hash ++ s.m2Hash) (field chunk 6 32),
        .ok x⟩] ∧ s' = s := by
  rw [c_validate_run s chunk m3 hm hs, Exec_op] at h
  obtain ⟨r, tr, rfl, h⟩ := h
  cases r with
  | error e => simp at h
  | ok x =>
    simp only [Exec_ret, Prod.mk.injEq] at h
    obtain ⟨rfl, -, rfl⟩ := h
    exact ⟨x, rfl, rfl⟩

theorem Enc_write1_ok {s s' : EncSt} {m : Bytes} {l : Bool} {tr : List (Ev env)} {u : Unit}
    (hs : s.sessionNonce = zeros 8) (hn : s.writeNonce < 2 ^ 64)
    (h : Exec (Enc.write [m] l s) tr (.ok u, s')) :
    ∃ c, tr = [⟨.box m (Spec.nonce s.writeNonce) s.key, .ok c⟩,
        ⟨.write [Spec.encrypted l c] l, .ok ()⟩] ∧
      s' = { s with writeNonce := s.writeNonce + 2 } := by
  have hb : nonceBytes s.writeNonce s.sessionNonce = .ok (Spec.nonce s.writeNonce) := by
    rw [hs, nonceBytes_eq, if_pos hn]
  rw [Enc_write_run, encryptAll_cons_run, hb] at h
  simp only [IT.op_bind, Exec_op] at h
  obtain ⟨r, tr, rfl, h⟩ := h
  cases r with
  | error e => simp at h
  | ok c =>
    simp only [encryptAll_nil_run, IT.ret_bind, Exec_op, List.isEmpty_nil, Bool.and_true] at h
    obtain ⟨r, tr, rfl, h⟩ := h
    simp only [Exec_ret, Prod.mk.injEq] at h
    obtain ⟨rfl, rfl, rfl⟩ := h
    exact ⟨c, rfl, rfl⟩

theorem c_doM4_ok {cfg : ClientCfg} {s s' : ClientSt} {c : AppSt} (hc : s.chan = some c)
    (hs : c.enc.sessionNonce = zeros 8) (hn : c.enc.writeNonce < 2 ^ 64) {tr : List (Ev env)} {u : Unit}
    (h : Exec (Client.doM4 cfg s) tr (.ok u, s')) :
    ∃ t sm, cfg.sigKp.pub.length = 32 ∧ 64 ≤ sm.length ∧
      let m4 := Spec.m4 t cfg.sigKp.pub (sm.take 64)
      let hd : List (Ev env) := [⟨.time, .ok t⟩,
        ⟨.sign (scSig02 ++ s.m1Hash ++ s.m2Hash) cfg.sigKp.sec, .ok sm⟩]
      (cfg.bufferM4 = true ∧ tr = hd ∧
        s' = { s with m4 := some ⟨m4, none⟩, chan := some { c with bufferedM4 := some ⟨m4, none⟩ } }) ∨
      (cfg.bufferM4 = false ∧ ∃ x, tr = hd ++ [⟨.box m4 (Spec.nonce c.enc.writeNonce) c.enc.key, .ok x⟩,
          ⟨.write [Spec.encrypted false x] false, .ok ()⟩] ∧
        s' = { s with m4 := some ⟨m4, none⟩, chan := some { c with enc := { c.enc with
          writeNonce := c.enc.writeNonce + 2 } } }) := by
  rw [c_doM4_run cfg s c hc, Exec_op] at h
  obtain ⟨r, tr, rfl, h⟩ := h
  cases r with
  | error e => simp at h
  | ok t =>
    simp only [] at h
    split at h
    · rename_i hk
      rw [Exec_op] at h
      obtain ⟨r, tr, rfl, h⟩ := h
      cases r with
      | error e => simp at h
      | ok sm =>
        simp only [] at h
        split at h
        · rename_i hl
          refine ⟨t, sm, hk, hl, ?_⟩
          split at h
          · rename_i hb
            simp only [Exec_ret, Prod.mk.injEq] at h
            obtain ⟨rfl, -, rfl⟩ := h
            exact .inl ⟨hb, rfl, rfl⟩
          · rename_i hb
            rw [Exec_bind] at h
            obtain ⟨tr1, ⟨r, e⟩, tr2, rfl, h1, h2⟩ := h
            simp only [Exec_ret, Prod.mk.injEq] at h2
            obtain ⟨rfl, rfl, rfl⟩ := h2
            obtain ⟨x, rfl, rfl⟩ := Enc_write1_ok hs hn h1
            exact .inr ⟨by simpa using hb, x, rfl, rfl⟩
        · simp at h
    · simp at h

/-- Everything that happened in a client handshake that returned normally. -/
structure ClientOk (cfg : ClientCfg) (tr : List (Ev env)) (s' : ClientSt) : Prop where
  ex : ∃ kp t1 h1 raw2 m2 h2 k p3 m3 m3p x t4 sm tail,
    cfg.encKp = some kp ∧ kp.pub.length = 32 ∧ kp.sec.length = 32 ∧
    M2.ctor raw2 = .ok m2 ∧ leNat (field raw2 1 1) % 2 = 0 ∧ k.length = 32 ∧
    18 ≤ p3.length ∧ p3.head? = some 6 ∧ m3.length = 102 ∧ M34.ctor .m3 m3 = .ok m3p ∧
    cfg.sigKp.pub.length = 32 ∧ 64 ≤ sm.length ∧
    tr = [⟨.firstTime, .ok t1⟩, ⟨.hash (Spec.m1 t1 kp.pub none), .ok h1⟩,
      ⟨.write [Spec.m1 t1 kp.pub none] false, .ok ()⟩,
      ⟨.read, .ok raw2⟩, ⟨.report (leNat (field raw2 2 4)), .ok ()⟩, ⟨.hash raw2, .ok h2⟩,
      ⟨.beforenm (field raw2 6 32) kp.sec, .ok k⟩,
      ⟨.read, .ok p3⟩, ⟨.boxOpen (p3.drop 2) (Spec.nonce 2) k, .ok m3⟩,
      ⟨.check (leNat (field m3 2 4)), .ok ()⟩,
      ⟨.signOpen (field m3 38 64 ++ scSig01 ++ h1 ++ h2) (field m3 6 32), .ok x⟩,
      ⟨.time, .ok t4⟩, ⟨.sign (scSig02 ++ h1 ++ h2) cfg.sigKp.sec, .ok sm⟩] ++ tail ∧
    s'.sessionKey = k ∧ s'.m1 = some ⟨Spec.m1 t1 kp.pub none, some []⟩ ∧ s'.m1Hash = h1 ∧
    s'.m2 = some m2 ∧ s'.m2Hash = h2 ∧ s'.m3 = some m3p ∧
    s'.m4 = some ⟨Spec.m4 t4 cfg.sigKp.pub (sm.take 64), none⟩ ∧
    ((cfg.bufferM4 = true ∧ tail = [] ∧
      s'.chan = some ⟨{ encInit k .client with readNonce := 4, lastFlag := 128 ≤ (p3.getD 1 0).toNat },
        some ⟨Spec.m4 t4 cfg.sigKp.pub (sm.take 64), none⟩, []⟩) ∨
     (cfg.bufferM4 = false ∧
      s'.chan = some ⟨{ encInit k .client with
        readNonce := 4, writeNonce := 3, lastFlag := 128 ≤ (p3.getD 1 0).toNat }, none, []⟩ ∧
      ∃ c4, tail = [⟨.box (Spec.m4 t4 cfg.sigKp.pub (sm.take 64)) (Spec.nonce 1) k, .ok c4⟩,
        ⟨.write [Spec.encrypted false c4] false, .ok ()⟩]))

theorem client_ok {cfg : ClientCfg} {s s' : ClientSt} {tr : List (Ev env)}
    (h : Call (Client.handshake cfg) s tr (.ok ()) s') : ClientOk cfg tr s' := by
  unfold Call Client.handshake at h
  rw [Exec_py_bind_ok] at h
  obtain ⟨tr0, kp, s0, tr, rfl, h0, h⟩ := h
  unfold Client.validate at h0
  cases hkp : cfg.encKp with
  | none => rw [hkp] at h0; simp at h0
  | some kp0 =>
  rw [hkp] at h0
  simp only [Py.pure_run, Exec_ret, Prod.mk.injEq, Except.ok.injEq] at h0
  obtain ⟨rfl, rfl, rfl⟩ := h0
  rw [Exec_py_bind_ok] at h
  obtain ⟨tr1, _, s1, tr, rfl, h1, h⟩ := h
  obtain ⟨t1, hh1, hpub, rfl, rfl⟩ := c_doM1_ok h1
  rw [Exec_py_bind_ok] at h
  obtain ⟨tr1, _, s1, tr, rfl, h1, h⟩ := h
  obtain ⟨raw2, m2, hh2, hm2, hz, rfl, rfl, rfl⟩ := c_doM2_ok h1
  simp only [not_true_eq_false, if_false] at h
  rw [Exec_py_bind_ok] at h
  obtain ⟨tr1, _, s1, tr, rfl, h1, h⟩ := h
  obtain ⟨k, hsec, hk, rfl, rfl⟩ := c_create_ok hm2 rfl h1
  rw [Exec_py_bind_ok] at h
  obtain ⟨tr1, _, s1, tr, rfl, h1, h⟩ := h
  obtain ⟨p3, m3, m3p, hp1, hp2, hl3, hm3, rfl, rfl⟩ := c_doM3_ok (c := App.init (encInit k .client)) rfl
    rfl rfl (show (2:Nat) < 2 ^ 64 by decide) h1
  rw [Exec_py_bind_ok] at h
  obtain ⟨tr1, _, s1, tr, rfl, h1, h⟩ := h
  obtain ⟨x, rfl, rfl⟩ := c_validate_ok hm3 rfl h1
  obtain ⟨t4, sm, hsp, hsl, h⟩ := c_doM4_ok (c := { App.init (encInit k .client) with enc :=
    { encInit k .client with lastFlag := 128 ≤ (p3.getD 1 0).toNat, readNonce := 2 + 2 } })
    rfl rfl (show (1:Nat) < 2 ^ 64 by decide) h
  rcases h with ⟨hb, rfl, rfl⟩ | ⟨hb, c4, rfl, rfl⟩
  · exact ⟨kp0, t1, hh1, raw2, m2, hh2, k, p3, m3, m3p, x, t4, sm, _, hkp, hpub, hsec, hm2, hz, hk, hp1, hp2, hl3,
      hm3, hsp, hsl, rfl, rfl, rfl, rfl, rfl, rfl, rfl, rfl, .inl ⟨hb, rfl, rfl⟩⟩
  · exact ⟨kp0, t1, hh1, raw2, m2, hh2, k, p3, m3, m3p, x, t4, sm, _, hkp, hpub, hsec, hm2, hz, hk, hp1, hp2, hl3,
      hm3, hsp, hsl, rfl, rfl, rfl, rfl, rfl, rfl, rfl, rfl, .inr ⟨hb, rfl, c4, rfl⟩⟩

end Salt
