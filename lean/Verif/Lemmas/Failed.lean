import Verif.Lemmas.Again

/-!
# What a handshake that raises leaves behind
-/

set_option linter.unusedSimpArgs false

namespace Salt

open Spec

/-! ### The server -/

theorem s_validate_keeps {τ : Type} (f : ServerSt → τ) (cfg : ServerCfg) : Keeps f (Server.validate cfg) := by
  unfold Server.validate; keeps

theorem s_doM1_keepsKey (cfg : ServerCfg) : Keeps ServerSt.clientSigKey (Server.doM1 cfg) := by
  unfold Server.doM1; keeps

theorem s_doA2_keepsKey (cfg : ServerCfg) (raw : Bytes) : Keeps ServerSt.clientSigKey (Server.doA2 cfg raw) := by
  unfold Server.doA2; keeps

theorem s_doM2_keepsKey (cfg : ServerCfg) (kp : KeyPair) : Keeps ServerSt.clientSigKey (Server.doM2 cfg kp) := by
  unfold Server.doM2; keeps

theorem s_create_keepsKey (kp : KeyPair) : Keeps ServerSt.clientSigKey (Server.createEncryptedChannel kp) := by
  unfold Server.createEncryptedChannel computeSharedKey; keeps

theorem s_doM3_keepsKey (cfg : ServerCfg) : Keeps ServerSt.clientSigKey (Server.doM3 cfg) := by
  unfold Server.doM3 Server.doM3Head Server.onEnc; keeps

theorem s_doM1_keepsChan (cfg : ServerCfg) : Keeps ServerSt.chan (Server.doM1 cfg) := by
  unfold Server.doM1; keeps

theorem s_doA2_keepsChan (cfg : ServerCfg) (raw : Bytes) : Keeps ServerSt.chan (Server.doA2 cfg raw) := by
  unfold Server.doA2; keeps

theorem s_doM2_keepsChan (cfg : ServerCfg) (kp : KeyPair) : Keeps ServerSt.chan (Server.doM2 cfg kp) := by
  unfold Server.doM2; keeps

theorem s_late_keepsSession (cfg : ServerCfg) : Keeps ServerSt.sessionKey (do
    Server.doM3 cfg
    Server.doM4
    Server.validateSignature2) := by
  unfold Server.doM3 Server.doM4 Server.validateSignature2 Server.doM3Head Server.onEnc
  keeps

/-- `do_m4` that raises leaves `client_sig_key`. -/
theorem s_doM4_raises {s s' : ServerSt} {tr : List (Ev env)} {e : Err} (h : Exec (Server.doM4 s) tr (.error e, s')) :
    s'.clientSigKey = s.clientSigKey := by
  unfold Server.doM4 at h
  rw [Exec_py_bind_err] at h
  rcases h with h | ⟨t1, a1, s1, u1, rfl, h1, h⟩
  · exact Keeps.call_eq (f := ServerSt.clientSigKey) (by unfold Server.onEnc; keeps) h
  have e1 := Keeps.call_eq (f := ServerSt.clientSigKey) (by unfold Server.onEnc; keeps) h1
  rw [Exec_py_bind_err] at h
  rcases h with h | ⟨t2, a2, s2, u2, rfl, h2, h⟩
  · exact (Keeps.call_eq (f := ServerSt.clientSigKey) (Keeps.lift _) h).trans e1
  have e2 := (Keeps.call_eq (f := ServerSt.clientSigKey) (Keeps.lift _) h2).trans e1
  rw [Exec_py_bind_err] at h
  rcases h with h | ⟨t3, a3, s3, u3, rfl, h3, h⟩
  · simp at h
  have e3 := (Keeps.call_eq (f := ServerSt.clientSigKey) (Keeps.modifySt _ fun _ => rfl) h3).trans e2
  rw [Exec_py_bind_err] at h
  rcases h with h | ⟨t4, a4, s4, u4, rfl, h4, h⟩
  · exact (Keeps.call_eq (f := ServerSt.clientSigKey) (by keeps) h).trans e3
  · simp at h

/-- `do_m4` that returns normally sets both. -/
theorem s_doM4_sets {s s' : ServerSt} {tr : List (Ev env)} {u : Unit} (h : Exec (Server.doM4 s) tr (.ok u, s')) :
    ∃ m4, s'.m4 = some m4 ∧ s'.clientSigKey = some (M34.sigKey m4) := by
  unfold Server.doM4 at h
  rw [Exec_py_bind_ok] at h
  obtain ⟨t1, a1, s1, u1, rfl, h1, h⟩ := h
  rw [Exec_py_bind_ok] at h
  obtain ⟨t2, m4, s2, u2, rfl, h2, h⟩ := h
  rw [Exec_py_bind_ok] at h
  obtain ⟨t3, a3, s3, u3, rfl, h3, h⟩ := h
  rw [Exec_py_bind_ok] at h
  obtain ⟨t4, a4, s4, u4, rfl, h4, h⟩ := h
  have e4 := Keeps.call_eq (f := ServerSt.m4) (by keeps) h4
  simp only [Py.modifySt_run, Exec_ret, Prod.mk.injEq] at h h3
  obtain ⟨-, -, rfl⟩ := h3
  obtain ⟨-, -, rfl⟩ := h
  exact ⟨m4, e4, rfl⟩

/-- A server handshake that raises and has set `client_sig_key` is one that would have succeeded, had the signature been
accepted. -/
theorem server_unforged {cfg : ServerCfg} {s s' : ServerSt} {tr : List (Ev env)} {e : Err} {pk : Bytes}
    (hs : s.clientSigKey = none) (h : Call (Server.handshake cfg) s tr (.error e) s') (hk : s'.clientSigKey = some pk) :
    ∃ tr0 sm e', tr = tr0 ++ [⟨.signOpen sm pk, .error e'⟩] ∧
      ∀ x, Call (Server.handshake cfg) s (tr0 ++ [⟨.signOpen sm pk, .ok x⟩]) (.ok ()) s' := by
  have no : ∀ {t : ServerSt}, t.clientSigKey = none → s'.clientSigKey = t.clientSigKey → False := by
    intro t h1 h2
    rw [hk, h1] at h2
    cases h2
  unfold Call Server.handshake at h ⊢
  rw [Exec_py_bind_err] at h
  rcases h with h | ⟨t0, kp, s0, u0, rfl, h0, h⟩
  · exact (no hs ((s_validate_keeps _ cfg).call_eq h)).elim
  replace hs := ((s_validate_keeps ServerSt.clientSigKey cfg).call_eq h0).trans hs
  rw [Exec_py_bind_err] at h
  rcases h with h | ⟨t1, o, s1, u1, rfl, h1, h⟩
  · exact (no hs ((s_doM1_keepsKey cfg).call_eq h)).elim
  replace hs := ((s_doM1_keepsKey cfg).call_eq h1).trans hs
  cases o with
  | some chunk =>
    exfalso
    simp only [] at h
    rw [Exec_py_bind_err] at h
    rcases h with h | ⟨t2, _, s2, u2, e2, h2, h⟩
    · exact (no hs ((s_doA2_keepsKey cfg chunk).call_eq h)).elim
    · simp at h
  | none =>
    simp only [] at h
    rw [Exec_py_bind_err] at h
    rcases h with h | ⟨t2, k2, s2, u2, rfl, h2, h⟩
    · exact (no hs ((s_validate_keeps _ cfg).call_eq h)).elim
    replace hs := ((s_validate_keeps ServerSt.clientSigKey cfg).call_eq h2).trans hs
    rw [Exec_py_bind_err] at h
    rcases h with h | ⟨t3, k3, s3, u3, rfl, h3, h⟩
    · exact (no hs ((s_doM2_keepsKey cfg kp).call_eq h)).elim
    replace hs := ((s_doM2_keepsKey cfg kp).call_eq h3).trans hs
    rw [Exec_py_bind_err] at h
    rcases h with h | ⟨t4, k4, s4, u4, rfl, h4, h⟩
    · exact (no hs ((s_create_keepsKey kp).call_eq h)).elim
    replace hs := ((s_create_keepsKey kp).call_eq h4).trans hs
    rw [Exec_py_bind_err] at h
    rcases h with h | ⟨t5, k5, s5, u5, rfl, h5, h⟩
    · exact (no hs ((s_doM3_keepsKey cfg).call_eq h)).elim
    replace hs := ((s_doM3_keepsKey cfg).call_eq h5).trans hs
    rw [Exec_py_bind_err] at h
    rcases h with h | ⟨t6, k6, s6, u6, rfl, h6, h⟩
    · exact (no hs (s_doM4_raises h)).elim
    obtain ⟨m4, hm4, hkey⟩ := s_doM4_sets h6
    have hv : ∃ sm e', u6 = [⟨.signOpen sm pk, .error e'⟩] ∧
        ∀ x, Exec (Server.validateSignature2 s6) [⟨.signOpen sm pk, .ok x⟩] (.ok (), s') := by
      simp only [Server.validateSignature2, Py.bind_run, Py.getSt_run, IT.ret_bind] at h ⊢
      simp only [hm4, Py.onError, Py.bind_run, Py.env, Py.call_run, IT.op_bind, IT.ret_bind, Exec_op] at h ⊢
      obtain ⟨r, v, rfl, h⟩ := h
      cases r with
      | ok y => simp at h
      | error e' =>
        have hv : v = [] ∧ s' = s6 := by
          simp only [IT.ret_bind] at h
          split at h <;> simp at h <;> exact ⟨h.1, h.2.2.symm⟩
        obtain ⟨rfl, rfl⟩ := hv
        rw [hkey] at hk
        cases hk
        exact ⟨_, e', rfl, fun x => ⟨.ok x, [], rfl, by simp⟩⟩
    obtain ⟨sm, e', rfl, hv⟩ := hv
    refine ⟨t0 ++ (t1 ++ (t2 ++ (t3 ++ (t4 ++ (t5 ++ t6))))), sm, e', by simp only [List.append_assoc], fun x => ?_⟩
    rw [Exec_py_bind_ok]
    refine ⟨t0, kp, s0, t1 ++ (t2 ++ (t3 ++ (t4 ++ (t5 ++ (t6 ++ [⟨.signOpen sm pk, .ok x⟩]))))),
      by simp only [List.append_assoc], h0, ?_⟩
    rw [Exec_py_bind_ok]
    refine ⟨t1, none, s1, _, rfl, h1, ?_⟩
    simp only []
    rw [Exec_py_bind_ok]
    refine ⟨t2, k2, s2, _, rfl, h2, ?_⟩
    rw [Exec_py_bind_ok]
    refine ⟨t3, k3, s3, _, rfl, h3, ?_⟩
    rw [Exec_py_bind_ok]
    refine ⟨t4, k4, s4, _, rfl, h4, ?_⟩
    rw [Exec_py_bind_ok]
    refine ⟨t5, k5, s5, _, rfl, h5, ?_⟩
    rw [Exec_py_bind_ok]
    exact ⟨t6, k6, s6, _, rfl, h6, hv x⟩

/-! ### Channels -/

/-- A computation that raises or returns in two steps. -/
theorem Exec_py_bind_any {S : Sig} {σ α β : Type} {m : Py S σ α} {f : α → Py S σ β} {s s' : σ} {tr : List (Ev S)}
    {r : Except Err β} (h : Exec ((m >>= f) s) tr (r, s')) :
    (∃ e, r = .error e ∧ Exec (m s) tr (.error e, s')) ∨
      ∃ tr1 a s1 tr2, tr = tr1 ++ tr2 ∧ Exec (m s) tr1 (.ok a, s1) ∧ Exec (f a s1) tr2 (r, s') := by
  cases r with
  | ok b =>
    rw [Exec_py_bind_ok] at h
    exact .inr h
  | error e =>
    rw [Exec_py_bind_err] at h
    exact h.imp (fun h => ⟨e, rfl, h⟩) id

theorem s_create_chan {kp : KeyPair} {s s' : ServerSt} {tr : List (Ev env)} {r : Except Err Unit}
    (h : Exec (Server.createEncryptedChannel kp s) tr (r, s')) :
    (∃ e, r = .error e ∧ s'.chan = s.chan) ∨
      ∃ m1, s.m1 = some m1 ∧ ⟨.beforenm (M1.clientEncKey m1) kp.sec, .ok s'.sessionKey⟩ ∈ tr := by
  unfold Server.createEncryptedChannel at h
  rw [Py.bind_run, Py.getSt_run, IT.ret_bind] at h
  simp only [] at h
  cases hm : s.m1 with
  | none =>
    simp only [hm, Py.raise_run, Exec_ret, Prod.mk.injEq] at h
    exact .inl ⟨_, h.2.1.symm, by rw [h.2.2]⟩
  | some m1 =>
    simp only [hm] at h
    replace h := Exec_py_bind_any h
    rcases h with ⟨e, rfl, h⟩ | ⟨t1, k, s1, t2, rfl, h1, h⟩
    · exact .inl ⟨e, rfl, Keeps.call_eq (f := ServerSt.chan) (by unfold computeSharedKey; keeps) h⟩
    have hc := Keeps.call_eq (f := ServerSt.chan) (by unfold computeSharedKey; keeps) h1
    have hb : ⟨.beforenm (M1.clientEncKey m1) kp.sec, .ok k⟩ ∈ t1 := by
      unfold computeSharedKey at h1
      split at h1
      · simp at h1
      split at h1
      · simp at h1
      simp only [Py.env, Py.call_run, Exec_op] at h1
      obtain ⟨r', v, rfl, h1⟩ := h1
      simp only [Exec_ret, Prod.mk.injEq] at h1
      rw [h1.2.1]
      exact List.mem_cons_self
    replace h := Exec_py_bind_any h
    rcases h with ⟨e, rfl, h⟩ | ⟨t3, _, s2, t4, rfl, h2, h⟩
    · simp at h
    simp only [Py.modifySt_run, Exec_ret, Prod.mk.injEq] at h2
    obtain ⟨rfl, -, rfl⟩ := h2
    replace h := Exec_py_bind_any h
    rcases h with ⟨e, rfl, h⟩ | ⟨t5, _, s3, t6, rfl, h3, h⟩
    · exact .inl ⟨e, rfl, (Keeps.call_eq (f := ServerSt.chan) (Keeps.lift _) h).trans hc⟩
    have hk := Keeps.call_eq (f := ServerSt.sessionKey) (Keeps.lift _) h3
    simp only [Py.modifySt_run, Exec_ret, Prod.mk.injEq] at h
    obtain ⟨rfl, -, rfl⟩ := h
    refine .inr ⟨m1, rfl, ?_⟩
    simp only [hk]
    exact List.mem_append_left _ hb

/-- The channel of a server session is there only if a session key was computed from the client's M1. -/
theorem server_chan_from {cfg : ServerCfg} {s s' : ServerSt} {tr : List (Ev env)} {r : Except Err Unit}
    (hs : s.chan = none) (h : Call (Server.handshake cfg) s tr r s') (hc : s'.chan ≠ none) :
    ∃ kp raw m1, cfg.encKp = some kp ∧ (readsOf tr).head? = some raw ∧ M1.ctor raw = .ok m1 ∧
      ⟨.beforenm (field raw 10 32) kp.sec, .ok s'.sessionKey⟩ ∈ tr := by
  have no : ∀ {t : ServerSt}, t.chan = none → s'.chan = t.chan → False := fun h1 h2 => hc (h2.trans h1)
  unfold Call Server.handshake at h
  replace h := Exec_py_bind_any h
  rcases h with ⟨e, rfl, h⟩ | ⟨t0, kp, s0, u0, rfl, h0, h⟩
  · exact (no hs ((s_validate_keeps _ cfg).call_eq h)).elim
  have hkp : cfg.encKp = some kp ∧ t0 = [] ∧ s0 = s := by
    unfold Server.validate at h0
    cases hk : cfg.encKp with
    | none => simp [hk] at h0
    | some k =>
      simp only [hk, Py.pure_run, Exec_ret, Prod.mk.injEq, Except.ok.injEq] at h0
      obtain ⟨rfl, rfl, rfl⟩ := h0
      exact ⟨rfl, rfl, rfl⟩
  obtain ⟨hkp, rfl, rfl⟩ := hkp
  replace h := Exec_py_bind_any h
  rcases h with ⟨e, rfl, h⟩ | ⟨t1, o, s1, u1, rfl, h1, h⟩
  · exact (no hs ((s_doM1_keepsChan cfg).call_eq h)).elim
  replace hs := ((s_doM1_keepsChan cfg).call_eq h1).trans hs
  rcases s_doM1_ok h1 with ⟨raw1, m1, hh1, rfl, hm1, hz, rfl, rfl⟩ | ⟨raw, e, rfl, hm1, rfl, rfl⟩
  · simp only [] at h
    replace h := Exec_py_bind_any h
    rcases h with ⟨e, rfl, h⟩ | ⟨t2, k2, s2, u2, rfl, h2, h⟩
    · exact (no hs ((s_validate_keeps _ cfg).call_eq h)).elim
    have hs1 := (s_validate_keeps ServerSt.m1 cfg).call_eq h2
    replace hs := ((s_validate_keeps ServerSt.chan cfg).call_eq h2).trans hs
    replace h := Exec_py_bind_any h
    rcases h with ⟨e, rfl, h⟩ | ⟨t3, k3, s3, u3, rfl, h3, h⟩
    · exact (no hs ((s_doM2_keepsChan cfg kp).call_eq h)).elim
    have hs2 := (Keeps.call_eq (f := ServerSt.m1) (by unfold Server.doM2; keeps) h3).trans hs1
    replace hs := ((s_doM2_keepsChan cfg kp).call_eq h3).trans hs
    have fin : ∀ (v : List (Ev env)) (k : Bytes) (m : Packet), s3.m1 = some m → s'.sessionKey = k →
        ⟨.beforenm (M1.clientEncKey m) kp.sec, .ok k⟩ ∈ v → ∃ kp raw m1, cfg.encKp = some kp ∧
          (readsOf ([] ++ ([⟨.read, .ok raw1⟩, ⟨.report (leNat (field raw1 6 4)), .ok ()⟩, ⟨.hash raw1, .ok hh1⟩] ++
            (t2 ++ (t3 ++ v))))).head? = some raw ∧ M1.ctor raw = .ok m1 ∧
          ⟨.beforenm (field raw 10 32) kp.sec, .ok s'.sessionKey⟩ ∈ ([] ++ ([⟨.read, .ok raw1⟩,
            ⟨.report (leNat (field raw1 6 4)), .ok ()⟩, ⟨.hash raw1, .ok hh1⟩] ++ (t2 ++ (t3 ++ v))) : List (Ev env)) := by
      intro v k m hm hk hv
      rw [hs2] at hm
      cases hm
      subst hk
      refine ⟨kp, raw1, m1, hkp, by simp [readsOf], hm1, ?_⟩
      rw [(m1_fields hm1).2.2.1] at hv
      simp [hv]
    replace h := Exec_py_bind_any h
    rcases h with ⟨e, rfl, h⟩ | ⟨t4, k4, s4, u4, rfl, h4, h⟩
    · rcases s_create_chan h with ⟨_, -, h⟩ | ⟨m, hm, h⟩
      · exact (no hs h).elim
      · exact fin _ _ m hm rfl h
    · rcases s_create_chan h4 with ⟨_, h, -⟩ | ⟨m, hm, h'⟩
      · cases h
      · exact fin _ _ m hm ((s_late_keepsSession cfg).call_eq h) (List.mem_append_left _ h')
  · exfalso
    simp only [] at h
    replace h := Exec_py_bind_any h
    rcases h with ⟨e, rfl, h⟩ | ⟨t2, _, s2, u2, rfl, h2, h⟩
    · exact no hs ((s_doA2_keepsChan cfg raw).call_eq h)
    · replace hs := ((s_doA2_keepsChan cfg raw).call_eq h2).trans hs
      exact no hs (Keeps.call_eq (f := ServerSt.chan) (m := Py.modifySt fun s => { s with isDone := true }) (by keeps) h)

/-! ### The client -/

theorem c_validate_keeps {τ : Type} (f : ClientSt → τ) (cfg : ClientCfg) : Keeps f (Client.validate cfg) := by
  unfold Client.validate; keeps

theorem c_doM1_keepsChan (kp : KeyPair) : Keeps ClientSt.chan (Client.doM1 kp) := by
  unfold Client.doM1; keeps

theorem c_doM2_keepsChan : Keeps ClientSt.chan Client.doM2 := by
  unfold Client.doM2; keeps

theorem c_late_keepsSession (cfg : ClientCfg) : Keeps ClientSt.sessionKey (do
    Client.doM3
    Client.validateSignature1
    Client.doM4 cfg) := by
  unfold Client.doM3 Client.doM4 Client.validateSignature1 Client.onEnc
  keeps

/-- The channel of a client session is there only if a session key was computed from the server's M2. -/
theorem client_chan_from {cfg : ClientCfg} {s s' : ClientSt} {tr : List (Ev env)} {r : Except Err Unit}
    (hs : s.chan = none) (h : Call (Client.handshake cfg) s tr r s') (hc : s'.chan ≠ none) :
    ∃ kp raw m2, cfg.encKp = some kp ∧ (readsOf tr).head? = some raw ∧ M2.ctor raw = .ok m2 ∧
      ⟨.beforenm (field raw 6 32) kp.sec, .ok s'.sessionKey⟩ ∈ tr := by
  have no : ∀ {t : ClientSt}, t.chan = none → s'.chan = t.chan → False := fun h1 h2 => hc (h2.trans h1)
  unfold Call Client.handshake at h
  replace h := Exec_py_bind_any h
  rcases h with ⟨e, rfl, h⟩ | ⟨t0, kp, s0, u0, rfl, h0, h⟩
  · exact (no hs ((c_validate_keeps _ cfg).call_eq h)).elim
  have hkp : cfg.encKp = some kp ∧ t0 = [] ∧ s0 = s := by
    unfold Client.validate at h0
    cases hk : cfg.encKp with
    | none => simp [hk] at h0
    | some k =>
      simp only [hk, Py.pure_run, Exec_ret, Prod.mk.injEq, Except.ok.injEq] at h0
      obtain ⟨rfl, rfl, rfl⟩ := h0
      exact ⟨rfl, rfl, rfl⟩
  obtain ⟨hkp, rfl, rfl⟩ := hkp
  replace h := Exec_py_bind_any h
  rcases h with ⟨e, rfl, h⟩ | ⟨t1, _, s1, u1, rfl, h1, h⟩
  · exact (no hs ((c_doM1_keepsChan kp).call_eq h)).elim
  replace hs := ((c_doM1_keepsChan kp).call_eq h1).trans hs
  obtain ⟨t, hh1, -, rfl, -⟩ := c_doM1_ok h1
  replace h := Exec_py_bind_any h
  rcases h with ⟨e, rfl, h⟩ | ⟨t2, b, s2, u2, rfl, h2, h⟩
  · exact (no hs (c_doM2_keepsChan.call_eq h)).elim
  replace hs := (c_doM2_keepsChan.call_eq h2).trans hs
  obtain ⟨raw, m2, hh2, hm2, -, rfl, rfl, rfl⟩ := c_doM2_ok h2
  simp only [not_true_eq_false, if_false] at h
  replace h := Exec_py_bind_any h
  rcases h with ⟨e, rfl, h⟩ | ⟨t3, _, s3, u3, rfl, h3, h⟩
  · rw [c_create_run kp _ raw m2 hm2 rfl] at h
    split at h
    · rw [Exec_op] at h
      obtain ⟨r, tr, rfl, h⟩ := h
      cases r with
      | error e =>
        simp only [Exec_ret, Prod.mk.injEq] at h
        exact (no hs (by rw [← h.2.2])).elim
      | ok k =>
        simp only [] at h
        split at h
        · simp at h
        · simp only [Exec_ret, Prod.mk.injEq] at h
          exact (no hs (by rw [← h.2.2])).elim
    · simp only [Exec_ret, Prod.mk.injEq] at h
      exact (no hs (by rw [← h.2.2])).elim
  · obtain ⟨k, -, -, e3, rfl⟩ := c_create_ok hm2 rfl h3
    have hk := (c_late_keepsSession cfg).call_eq h
    subst e3
    rw [hk]
    exact ⟨kp, raw, m2, hkp, by simp [readsOf], hm2, by simp⟩

/-- Had the signature of M3 been rejected in a client handshake that completed, then the handshake had raised `BadPeer`, and
left a channel. -/
theorem client_forged {cfg : ClientCfg} {s s' : ClientSt} {tr : List (Ev env)}
    (h : Call (Client.handshake cfg) s tr (.ok ()) s') :
    ∃ tr1 tr2 sm pk x s1 f, tr = tr1 ++ ⟨.signOpen sm pk, .ok x⟩ :: tr2 ∧
      Call (Client.handshake cfg) s (tr1 ++ [⟨.signOpen sm pk, .error .badSignature⟩]) (.error .badPeer) s1 ∧
      s1.sessionKey = s'.sessionKey ∧ s1.chan = some ⟨⟨s'.sessionKey, zeros 8, 4, 1, [], f⟩, none, []⟩ := by
  unfold Call Client.handshake at h ⊢
  rw [Exec_py_bind_ok] at h
  obtain ⟨t0, kp, s0, u0, rfl, h0, h⟩ := h
  rw [Exec_py_bind_ok] at h
  obtain ⟨t1, _, s1, u1, rfl, h1, h⟩ := h
  rw [Exec_py_bind_ok] at h
  obtain ⟨t2, b, s2, u2, rfl, h2, h⟩ := h
  obtain ⟨raw, m2, hh2, hm2, -, rfl, -, rfl⟩ := c_doM2_ok h2
  simp only [not_true_eq_false, if_false] at h
  rw [Exec_py_bind_ok] at h
  obtain ⟨t3, _, s3, u3, rfl, h3, h⟩ := h
  obtain ⟨k, -, hk, -, rfl⟩ := c_create_ok hm2 rfl h3
  rw [Exec_py_bind_ok] at h
  obtain ⟨t4, _, s4, u4, rfl, h4, h⟩ := h
  obtain ⟨p, chunk, m3, -, -, -, hm3, -, rfl⟩ := c_doM3_ok (c := App.init (encInit k .client)) rfl rfl rfl
    (show (2:Nat) < 2 ^ 64 by decide) h4
  rw [Exec_py_bind_ok] at h
  obtain ⟨t5, _, s5, u5, rfl, h5, h⟩ := h
  have hsk := Keeps.call_eq (f := ClientSt.sessionKey) (m := Client.doM4 cfg)
    (by unfold Client.doM4 Client.onEnc; keeps) h
  obtain ⟨x, rfl, rfl⟩ := c_validate_ok hm3 rfl h5
  refine ⟨t0 ++ (t1 ++ (t2 ++ (t3 ++ t4))), u5, _, _, x, _, _, by simp only [List.append_assoc, List.cons_append, List.nil_append],
    ?_, hsk.symm, by rw [hsk]; rfl⟩
  rw [Exec_py_bind_err]
  refine .inr ⟨t0, kp, s0, (t1 ++ (t2 ++ (t3 ++ t4))) ++ [_], List.append_assoc _ _ _, h0, ?_⟩
  rw [Exec_py_bind_err]
  refine .inr ⟨t1, _, s1, (t2 ++ (t3 ++ t4)) ++ [_], List.append_assoc _ _ _, h1, ?_⟩
  rw [Exec_py_bind_err]
  refine .inr ⟨t2, true, _, (t3 ++ t4) ++ [_], List.append_assoc _ _ _, h2, ?_⟩
  simp only [not_true_eq_false, if_false]
  rw [Exec_py_bind_err]
  refine .inr ⟨t3, _, _, t4 ++ [_], List.append_assoc _ _ _, h3, ?_⟩
  rw [Exec_py_bind_err]
  refine .inr ⟨t4, _, _, _, rfl, h4, ?_⟩
  rw [Exec_py_bind_err]
  refine .inl ?_
  rw [c_validate_run _ chunk m3 hm3 rfl]
  exact .op _ _ _ _ _ (.ret _)

end Salt
