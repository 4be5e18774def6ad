import Verif.Lemmas.SessionCut

/-!
# Which exceptions a handshake can raise
-/

set_option linter.unusedSimpArgs false

namespace Salt

open Spec

theorem readsOf_cons_ok (m : Bytes) (tr : List (Ev env)) :
    readsOf (⟨EnvOp.read, .ok m⟩ :: tr) = m :: readsOf tr := rfl

theorem readsOf_append (a b : List (Ev env)) : readsOf (a ++ b) = readsOf a ++ readsOf b := by
  induction a with
  | nil => rfl
  | cons x a ih =>
    obtain ⟨op, r⟩ := x
    cases op <;> first
      | exact ih
      | (cases r with
         | error e => exact ih
         | ok m => simp only [List.cons_append, readsOf, ih])

theorem Spec.MayRaise.append {kp : KeyPair} {pk : Bytes} {tr : List (Ev env)} {e : Err}
    (h : MayRaise kp pk tr e) (pre : List (Ev env)) : MayRaise kp pk (pre ++ tr) e := by
  cases h with
  | raised h =>
    obtain ⟨ev, h1, h2⟩ := h
    exact .raised ⟨ev, by simp [h1], h2⟩
  | badPeer => exact .badPeer
  | empty h => exact .empty (by simp [readsOf_append, h])
  | length h =>
    refine .length (h.imp_right (Or.imp_right (Or.imp ?_ ?_)))
    · rintro ⟨a, b, k, h, hk⟩; exact ⟨a, b, k, by simp [h], hk⟩
    · rintro ⟨a, b, k, h, hk⟩; exact ⟨a, b, k, by simp [h], hk⟩
  | secret h => exact .secret h

theorem Spec.MayRaise.append_right {kp : KeyPair} {pk : Bytes} {tr : List (Ev env)} {e : Err}
    (h : MayRaise kp pk tr e) (post : List (Ev env)) : MayRaise kp pk (tr ++ post) e := by
  cases h with
  | raised h =>
    obtain ⟨ev, h1, h2⟩ := h
    exact .raised ⟨ev, by simp [h1], h2⟩
  | badPeer => exact .badPeer
  | empty h => exact .empty (by simp [readsOf_append, h])
  | length h =>
    refine .length (h.imp_right (Or.imp_right (Or.imp ?_ ?_)))
    · rintro ⟨a, b, k, h, hk⟩; exact ⟨a, b, k, by simp [h], hk⟩
    · rintro ⟨a, b, k, h, hk⟩; exact ⟨a, b, k, by simp [h], hk⟩
  | secret h => exact .secret h

/-- The last event raised. -/
theorem Spec.MayRaise.here {kp : KeyPair} {pk : Bytes} (pre : List (Ev env)) (op : EnvOp) (e : Err) :
    MayRaise kp pk (pre ++ [⟨op, .error e⟩]) e :=
  .raised ⟨⟨op, .error e⟩, by simp, rfl⟩

theorem Spec.MayRaise.first {kp : KeyPair} {pk : Bytes} (op : EnvOp) (e : Err) (tr : List (Ev env)) :
    MayRaise kp pk (⟨op, .error e⟩ :: tr) e :=
  .raised ⟨⟨op, .error e⟩, by simp, rfl⟩

theorem Spec.MayRaise.cons {kp : KeyPair} {pk : Bytes} {tr : List (Ev env)} {e : Err}
    (h : MayRaise kp pk tr e) (ev : Ev env) : MayRaise kp pk (ev :: tr) e := h.append [ev]

variable {kp : KeyPair} {pk : Bytes}

theorem step_raise {σ α : Type} {op : EnvOp} {k : Except Err (env.Resp op) → IT env (Except Err α × σ)}
    {tr : List (Ev env)} {e : Err} {s' : σ} (h : Exec (.op (S := env) op k) tr (.error e, s'))
    (hk : ∀ e', ∃ s1, k (.error e') = .ret (.error e', s1)) : MayRaise kp pk tr e ∨
      ∃ a tr', tr = ⟨op, .ok a⟩ :: tr' ∧ Exec (k (.ok a)) tr' (.error e, s') := by
  rw [Exec_op] at h
  obtain ⟨r, tr, rfl, h⟩ := h
  rcases r with e' | a
  · obtain ⟨s1, hs⟩ := hk e'
    rw [hs] at h
    simp only [Exec_ret, Prod.mk.injEq, Except.error.injEq] at h
    obtain ⟨rfl, rfl, -⟩ := h
    exact .inl (.first ..)
  · exact .inr ⟨a, tr, rfl, h⟩

/-- Unfold one operation of the tree in `h`. -/
macro "step " h:ident : tactic => `(tactic| (
  rcases step_raise $h (fun _ => ⟨_, rfl⟩) with hr | ⟨_, _, htr, $h:ident⟩
  · first | exact hr | exact hr.cons _ | exact (hr.cons _).cons _ | exact ((hr.cons _).cons _).cons _
  rw [htr]
  simp only [] at $h:ident))

theorem c_doM1_raise {s s' : ClientSt} {tr : List (Ev env)} {e : Err}
    (h : Exec (Client.doM1 kp s) tr (.error e, s')) : MayRaise kp pk tr e := by
  rw [c_doM1_run] at h
  step h
  split at h
  · step h
    step h
    simp at h
  · rename_i hl
    simp only [Exec_ret, Prod.mk.injEq, Except.error.injEq] at h
    obtain ⟨-, rfl, -⟩ := h
    exact .length (.inl hl)

theorem c_doM2_raise {s s' : ClientSt} {tr : List (Ev env)} {e : Err}
    (h : Exec (Client.doM2 s) tr (.error e, s')) : MayRaise kp pk tr e ∨
      e = .noSuchServer ∧ ∃ raw m h2, M2.ctor raw = .ok m ∧ leNat (field raw 1 1) % 2 = 1 ∧
        tr = [⟨.read, .ok raw⟩, ⟨.report (leNat (field raw 2 4)), .ok ()⟩, ⟨.hash raw, .ok h2⟩] := by
  rw [c_doM2_run, Exec_op] at h
  obtain ⟨r, tr, rfl, h⟩ := h
  rcases r with e | raw
  · simp only [Exec_ret, Prod.mk.injEq, Except.error.injEq] at h
    obtain ⟨rfl, rfl, -⟩ := h
    exact .inl (.first ..)
  simp only [] at h
  cases hm : M2.ctor raw with
  | error e =>
    rw [hm] at h
    simp only [Exec_ret, Prod.mk.injEq, Except.error.injEq] at h
    obtain ⟨-, rfl, -⟩ := h
    have := (Props.C12_exceptions (fun _ => false) raw e).2.1 hm
    subst this
    exact .inl .badPeer
  | ok m =>
    rw [hm] at h
    simp only [Exec_op] at h
    obtain ⟨r, tr, rfl, h⟩ := h
    rcases r with e | _
    · simp only [Exec_ret, Prod.mk.injEq, Except.error.injEq] at h
      obtain ⟨rfl, rfl, -⟩ := h
      exact .inl ((MayRaise.first ..).cons _)
    simp only [Exec_op] at h
    obtain ⟨r, tr, rfl, h⟩ := h
    rcases r with e | h2
    · simp only [Exec_ret, Prod.mk.injEq, Except.error.injEq] at h
      obtain ⟨rfl, rfl, -⟩ := h
      exact .inl (((MayRaise.first ..).cons _).cons _)
    simp only [] at h
    split at h
    · simp at h
    · rename_i hb
      simp only [Exec_ret, Prod.mk.injEq, Except.error.injEq] at h
      obtain ⟨rfl, rfl, -⟩ := h
      exact .inr ⟨rfl, raw, m, h2, hm, by omega, rfl⟩

theorem c_create_raise {s s' : ClientSt} {raw : Bytes} {m2 : Packet}
    (hm : M2.ctor raw = .ok m2) (hs : s.m2 = some m2) {tr : List (Ev env)} {e : Err}
    (h : Exec (Client.createEncryptedChannel kp s) tr (.error e, s')) : MayRaise kp pk tr e := by
  rw [c_create_run kp s raw m2 hm hs] at h
  split at h
  · step h
    split at h
    · simp at h
    · rename_i k hk
      simp only [Exec_ret, Prod.mk.injEq, Except.error.injEq] at h
      obtain ⟨rfl, rfl, -⟩ := h
      exact .length (.inr (.inr (.inl ⟨_, _, _, List.mem_cons_self, hk⟩)))
  · rename_i hk
    simp only [Exec_ret, Prod.mk.injEq, Except.error.injEq] at h
    obtain ⟨rfl, rfl, -⟩ := h
    exact .secret hk

theorem Enc_read_raise {s s' : EncSt} {tr : List (Ev env)} {e : Err} (hp : s.pushback = [])
    (hs : s.sessionNonce = zeros 8) (hn : s.readNonce < 2 ^ 64)
    (h : Exec (Enc.read s) tr (.error e, s')) : MayRaise kp pk tr e := by
  rw [Enc_read_run, if_neg (by simp [hp])] at h
  step h
  rename_i raw
  unfold openPkt at h
  have hb : nonceBytes s.readNonce s.sessionNonce = .ok (Spec.nonce s.readNonce) := by
    rw [hs, nonceBytes_eq, if_pos hn]
  split at h
  · rename_i h0
    simp only [Exec_ret, Prod.mk.injEq, Except.error.injEq] at h
    obtain ⟨rfl, rfl, -⟩ := h
    subst h0
    exact .empty (by simp [readsOf])
  · split at h
    · rw [hb] at h
      simp only [Exec_op] at h
      obtain ⟨r, tr, rfl, h⟩ := h
      rcases r with e | m
      · simp only [Exec_ret, Prod.mk.injEq, Except.error.injEq] at h
        obtain ⟨rfl, rfl, -⟩ := h
        split
        · exact .badPeer
        · exact (MayRaise.first ..).cons _
      · simp at h
    · simp only [Exec_ret, Prod.mk.injEq, Except.error.injEq] at h
      obtain ⟨rfl, rfl, -⟩ := h
      exact .badPeer

theorem c_doM3_raise {s s' : ClientSt} {c : AppSt} (hc : s.chan = some c) (hp : c.enc.pushback = [])
    (hs : c.enc.sessionNonce = zeros 8) (hn : c.enc.readNonce < 2 ^ 64) {tr : List (Ev env)} {e : Err}
    (h : Exec (Client.doM3 s) tr (.error e, s')) : MayRaise kp pk tr e ∨
      e = .assertionError ∧ ∃ x n k m, OpenedIn x n k m tr ∧ m.length ≠ 102 := by
  rw [c_doM3_run s c hc, Exec_bind] at h
  obtain ⟨tr1, ⟨r, st⟩, tr2, rfl, h1, h2⟩ := h
  cases r with
  | error x =>
    simp only [Exec_ret, Prod.mk.injEq, Except.error.injEq] at h2
    obtain ⟨rfl, rfl, -⟩ := h2
    exact .inl (by simpa using Enc_read_raise hp hs hn h1)
  | ok chunk =>
    obtain ⟨p, -, -, rfl, rfl⟩ := Enc_read_ok hp hs hn h1
    simp only [] at h2
    split at h2
    · cases hm : M34.ctor .m3 chunk with
      | error e =>
        rw [hm] at h2
        simp only [Exec_ret, Prod.mk.injEq, Except.error.injEq] at h2
        obtain ⟨rfl, rfl, -⟩ := h2
        have := (Props.C12_exceptions (fun _ => false) chunk e).2.2.1 hm
        subst this
        exact .inl .badPeer
      | ok m3 =>
        rw [hm] at h2
        refine .inl (MayRaise.append ?_ _)
        simp only [] at h2
        step h2
        simp at h2
    · rename_i hl
      simp only [Exec_ret, Prod.mk.injEq, Except.error.injEq] at h2
      obtain ⟨rfl, rfl, -⟩ := h2
      exact .inr ⟨rfl, _, _, _, chunk, by simp [OpenedIn]; exact ⟨rfl, rfl, rfl⟩, hl⟩

theorem sigErr_raise {op : EnvOp} {e : Err} : MayRaise kp pk [⟨op, .error e⟩] (sigErr e) := by
  unfold sigErr
  split
  · exact .badPeer
  · exact .first ..

theorem Enc_write1_raise {s s' : EncSt} {m : Bytes} {l : Bool} {tr : List (Ev env)} {e : Err}
    (hs : s.sessionNonce = zeros 8) (hn : s.writeNonce < 2 ^ 64)
    (h : Exec (Enc.write [m] l s) tr (.error e, s')) : MayRaise kp pk tr e := by
  have hb : nonceBytes s.writeNonce s.sessionNonce = .ok (Spec.nonce s.writeNonce) := by
    rw [hs, nonceBytes_eq, if_pos hn]
  rw [Enc_write_run, encryptAll_cons_run, hb] at h
  simp only [IT.op_bind, Exec_op] at h
  obtain ⟨r, tr, rfl, h⟩ := h
  rcases r with e | c
  · simp only [IT.ret_bind, Exec_ret, Prod.mk.injEq, Except.error.injEq] at h
    obtain ⟨rfl, rfl, -⟩ := h
    exact .first ..
  · simp only [encryptAll_nil_run, IT.ret_bind, Exec_op, List.isEmpty_nil, Bool.and_true] at h
    obtain ⟨r, tr, rfl, h⟩ := h
    simp only [Exec_ret, Prod.mk.injEq] at h
    obtain ⟨rfl, rfl, rfl⟩ := h
    exact (MayRaise.first ..).cons _

theorem c_doM4_raise {cfg : ClientCfg} {s s' : ClientSt} {c : AppSt} (hc : s.chan = some c)
    (hs : c.enc.sessionNonce = zeros 8) (hn : c.enc.writeNonce < 2 ^ 64) {tr : List (Ev env)} {e : Err}
    (h : Exec (Client.doM4 cfg s) tr (.error e, s')) : MayRaise kp cfg.sigKp.pub tr e := by
  rw [c_doM4_run cfg s c hc] at h
  step h
  split at h
  · step h
    split at h
    · split at h
      · simp at h
      · rw [Exec_bind] at h
        obtain ⟨tr1, ⟨r, st⟩, tr2, rfl, h1, h2⟩ := h
        simp only [Exec_ret, Prod.mk.injEq] at h2
        obtain ⟨rfl, rfl, rfl⟩ := h2
        exact (((Enc_write1_raise hs hn h1).append_right _).cons _).cons _
    · rename_i hl
      simp only [Exec_ret, Prod.mk.injEq, Except.error.injEq] at h
      obtain ⟨rfl, rfl, -⟩ := h
      exact .length (.inr (.inr (.inr ⟨_, _, _, List.mem_cons_of_mem _ List.mem_cons_self, by omega⟩)))
  · rename_i hl
    simp only [Exec_ret, Prod.mk.injEq, Except.error.injEq] at h
    obtain ⟨rfl, rfl, -⟩ := h
    exact .length (.inr (.inl hl))

/-- Why a client handshake raises. -/
theorem client_raises {cfg : ClientCfg} (hkp : cfg.encKp = some kp) {s s' : ClientSt}
    {tr : List (Ev env)} {e : Err} (h : Call (Client.handshake cfg) s tr (.error e) s') :
    MayRaise kp cfg.sigKp.pub tr e ∨
    (e = .assertionError ∧ ∃ x n k m, OpenedIn x n k m tr ∧ m.length ≠ 102) ∨
    (e = .noSuchServer ∧ ∃ t1 h1 raw m h2, M2.ctor raw = .ok m ∧ leNat (field raw 1 1) % 2 = 1 ∧
      tr = [⟨.firstTime, .ok t1⟩, ⟨.hash (Spec.m1 t1 kp.pub none), .ok h1⟩,
        ⟨.write [Spec.m1 t1 kp.pub none] false, .ok ()⟩,
        ⟨.read, .ok raw⟩, ⟨.report (leNat (field raw 2 4)), .ok ()⟩, ⟨.hash raw, .ok h2⟩]) := by
  unfold Call Client.handshake at h
  rw [Exec_py_bind_err] at h
  rcases h with h0 | ⟨tr0, kp0, s0, tr, rfl, h0, h⟩
  · unfold Client.validate at h0
    rw [hkp] at h0
    simp at h0
  unfold Client.validate at h0
  rw [hkp] at h0
  simp only [Py.pure_run, Exec_ret, Prod.mk.injEq, Except.ok.injEq] at h0
  obtain ⟨rfl, rfl, rfl⟩ := h0
  rw [Exec_py_bind_err] at h
  rcases h with h | ⟨tr1, _, s1, tr, rfl, h1, h⟩
  · exact .inl ((c_doM1_raise h).append _)
  obtain ⟨t1, hh1, hpub, rfl, rfl⟩ := c_doM1_ok h1
  rw [Exec_py_bind_err] at h
  rcases h with h | ⟨tr1, _, s1, tr, rfl, h1, h⟩
  · rcases c_doM2_raise h with h | ⟨rfl, raw, m, h2, hm, hb, rfl⟩
    · exact .inl ((h.append _).append _)
    · exact .inr (.inr ⟨rfl, t1, hh1, raw, m, h2, hm, hb, rfl⟩)
  obtain ⟨raw2, m2, hh2, hm2, hz, rfl, rfl, rfl⟩ := c_doM2_ok h1
  simp only [not_true_eq_false, if_false] at h
  rw [Exec_py_bind_err] at h
  rcases h with h | ⟨tr1, _, s1, tr, rfl, h1, h⟩
  · exact .inl ((((c_create_raise hm2 rfl h).append _).append _).append _)
  obtain ⟨k, hsec, hk, rfl, rfl⟩ := c_create_ok hm2 rfl h1
  rw [Exec_py_bind_err] at h
  rcases h with h | ⟨tr1, _, s1, tr, rfl, h1, h⟩
  · rcases c_doM3_raise (c := App.init (encInit k .client)) rfl
        rfl rfl (show (2:Nat) < 2 ^ 64 by decide) h with h | ⟨rfl, x, n, k, m, ho, hl⟩
    · exact .inl ((((h.append _).append _).append _).append _)
    · exact .inr (.inl ⟨rfl, x, n, k, m, by simp only [OpenedIn] at ho ⊢; simp [ho], hl⟩)
  obtain ⟨p3, m3, m3p, hp1, hp2, hl3, hm3, rfl, rfl⟩ := c_doM3_ok (c := App.init (encInit k .client)) rfl
    rfl rfl (show (2:Nat) < 2 ^ 64 by decide) h1
  rw [Exec_py_bind_err] at h
  rcases h with h | ⟨tr1, _, s1, tr, rfl, h1, h⟩
  · obtain ⟨e', rfl, -, rfl⟩ := c_validate_err hm3 rfl h
    exact .inl ((((((sigErr_raise).append _).append _).append _).append _).append _)
  obtain ⟨x, rfl, rfl⟩ := c_validate_ok hm3 rfl h1
  refine .inl (MayRaise.append (MayRaise.append (MayRaise.append (MayRaise.append (MayRaise.append
    (MayRaise.append ?_ _) _) _) _) _) _)
  exact c_doM4_raise (c := { App.init (encInit k .client) with enc :=
      { encInit k .client with lastFlag := 128 ≤ (p3.getD 1 0).toNat, readNonce := 2 + 2 } })
      rfl rfl (show (1:Nat) < 2 ^ 64 by decide) h

/-! ### The server -/

theorem s_doM1_raise {cfg : ServerCfg} {s s' : ServerSt} {tr : List (Ev env)} {e : Err}
    (h : Exec (Server.doM1 cfg s) tr (.error e, s')) : MayRaise kp pk tr e ∨
      e = .noSuchServer ∧ ∃ raw m h1 t, M1.ctor raw = .ok m ∧ leNat (field raw 5 1) % 2 = 1 ∧
        field raw 42 32 ≠ cfg.sigKp.pub ∧
        tr = [⟨.read, .ok raw⟩, ⟨.report (leNat (field raw 6 4)), .ok ()⟩, ⟨.hash raw, .ok h1⟩,
       ⟨.firstTime, .ok t⟩, ⟨.write [Spec.m2 true true t (zeros 32)] true, .ok ()⟩] := by
  rw [s_doM1_run] at h
  rcases step_raise (kp := kp) (pk := pk) h (fun _ => ⟨_, rfl⟩) with hr | ⟨raw, tr, rfl, g1⟩
  · exact .inl hr
  simp only [] at g1
  cases hm : M1.ctor raw with
  | error e => rw [hm] at g1; simp at g1
  | ok m1 =>
    rw [hm] at g1
    rcases step_raise (kp := kp) (pk := pk) g1 (fun _ => ⟨_, rfl⟩) with hr | ⟨_, tr, rfl, g2⟩
    · exact .inl (hr.cons _)
    rcases step_raise (kp := kp) (pk := pk) g2 (fun _ => ⟨_, rfl⟩) with hr | ⟨h1, tr, rfl, g3⟩
    · exact .inl ((hr.cons _).cons _)
    simp only [] at g3
    split at g3
    · rename_i hc
      rcases step_raise (kp := kp) (pk := pk) g3 (fun _ => ⟨_, rfl⟩) with hr | ⟨t, tr, rfl, g4⟩
      · exact .inl (((hr.cons _).cons _).cons _)
      rcases step_raise (kp := kp) (pk := pk) g4 (fun _ => ⟨_, rfl⟩) with hr | ⟨_, tr, rfl, g5⟩
      · exact .inl ((((hr.cons _).cons _).cons _).cons _)
      simp only [Exec_ret, Prod.mk.injEq, Except.error.injEq] at g5
      obtain ⟨rfl, rfl, -⟩ := g5
      exact .inr ⟨rfl, raw, m1, h1, t, hm, hc.1, hc.2, rfl⟩
    · simp at g3

theorem s_doM2_raise {cfg : ServerCfg} {s s' : ServerSt} {tr : List (Ev env)} {e : Err}
    (h : Exec (Server.doM2 cfg kp s) tr (.error e, s')) : MayRaise kp pk tr e := by
  rw [s_doM2_run] at h
  step h
  split at h
  · cases hb : cfg.bufferM2 with
    | true => simp [hb] at h
    | false =>
      simp only [hb, Bool.false_eq_true, if_false] at h
      step h
      step h
      simp at h
  · rename_i hl
    simp only [Exec_ret, Prod.mk.injEq, Except.error.injEq] at h
    obtain ⟨-, rfl, -⟩ := h
    exact .length (.inl hl)

theorem s_create_raise {s s' : ServerSt} {raw : Bytes} {m1 : Packet}
    (hm : M1.ctor raw = .ok m1) (hs : s.m1 = some m1) {tr : List (Ev env)} {e : Err}
    (h : Exec (Server.createEncryptedChannel kp s) tr (.error e, s')) : MayRaise kp pk tr e := by
  rw [s_create_run kp s raw m1 hm hs] at h
  split at h
  · step h
    split at h
    · simp at h
    · rename_i k hk
      simp only [Exec_ret, Prod.mk.injEq, Except.error.injEq] at h
      obtain ⟨rfl, rfl, -⟩ := h
      exact .length (.inr (.inr (.inl ⟨_, _, _, List.mem_cons_self, hk⟩)))
  · rename_i hk
    simp only [Exec_ret, Prod.mk.injEq, Except.error.injEq] at h
    obtain ⟨rfl, rfl, -⟩ := h
    exact .secret hk

theorem m3Tail_raise {cfg : ServerCfg} {ml : List Bytes} {t : Nat} {c : AppSt} {s s' : ServerSt}
    (hs : c.enc.sessionNonce = zeros 8) (hn : c.enc.writeNonce < 2 ^ 64) {tr : List (Ev env)} {e : Err}
    (h : Exec (m3Tail cfg ml t c s) tr (.error e, s')) : MayRaise kp cfg.sigKp.pub tr e := by
  have hb : nonceBytes c.enc.writeNonce c.enc.sessionNonce = .ok (Spec.nonce c.enc.writeNonce) := by
    rw [hs, nonceBytes_eq, if_pos hn]
  unfold m3Tail at h
  rw [hb] at h
  split at h
  · step h
    split at h
    · step h
      rw [Exec_op] at h
      obtain ⟨r, tr, rfl, h⟩ := h
      simp only [Exec_ret, Prod.mk.injEq] at h
      obtain ⟨rfl, rfl, rfl⟩ := h
      exact ((MayRaise.first ..).cons _).cons _
    · rename_i hl
      simp only [Exec_ret, Prod.mk.injEq, Except.error.injEq] at h
      obtain ⟨rfl, rfl, -⟩ := h
      exact .length (.inr (.inr (.inr ⟨_, _, _, List.mem_cons_self, by omega⟩)))
  · rename_i hl
    simp only [Exec_ret, Prod.mk.injEq, Except.error.injEq] at h
    obtain ⟨rfl, rfl, -⟩ := h
    exact .length (.inr (.inl hl))

theorem s_doM3_raise {cfg : ServerCfg} {s s' : ServerSt} {t0 : Nat} {key : Bytes} {c : AppSt}
    (hm : s.m2 = some ⟨Spec.m2 false false t0 key, none⟩) (hc : s.chan = some c)
    (hs : c.enc.sessionNonce = zeros 8) (hn : c.enc.writeNonce < 2 ^ 64) {tr : List (Ev env)} {e : Err}
    (h : Exec (Server.doM3 cfg s) tr (.error e, s')) : MayRaise kp cfg.sigKp.pub tr e := by
  rw [s_doM3_run cfg s t0 key c hm hc, s_doM3Head_run cfg s t0 key hm] at h
  cases hb : cfg.bufferM2 with
  | true =>
    simp only [hb, if_true, IT.op_bind] at h
    step h
    simp only [IT.op_bind] at h
    step h
    simp only [IT.ret_bind] at h
    exact ((m3Tail_raise hs hn h).cons _).cons _
  | false =>
    simp only [hb, Bool.false_eq_true, if_false, IT.op_bind] at h
    step h
    simp only [IT.ret_bind] at h
    exact (m3Tail_raise hs hn h).cons _

theorem s_doM4_raise {s s' : ServerSt} {c : AppSt} (hc : s.chan = some c) (hp : c.enc.pushback = [])
    (hs : c.enc.sessionNonce = zeros 8) (hn : c.enc.readNonce < 2 ^ 64) {tr : List (Ev env)} {e : Err}
    (h : Exec (Server.doM4 s) tr (.error e, s')) : MayRaise kp pk tr e := by
  rw [s_doM4_run s c hc, Exec_bind] at h
  obtain ⟨tr1, ⟨r, st⟩, tr2, rfl, h1, h2⟩ := h
  cases r with
  | error x =>
    simp only [Exec_ret, Prod.mk.injEq, Except.error.injEq] at h2
    obtain ⟨rfl, rfl, -⟩ := h2
    simpa using Enc_read_raise hp hs hn h1
  | ok chunk =>
    simp only [] at h2
    cases hm : M34.ctor .m4 chunk with
    | error e =>
      rw [hm] at h2
      simp only [Exec_ret, Prod.mk.injEq, Except.error.injEq] at h2
      obtain ⟨rfl, rfl, -⟩ := h2
      have := (Props.C12_exceptions (fun _ => false) chunk e).2.2.2.1 hm
      subst this
      exact .badPeer
    | ok m3 =>
      rw [hm] at h2
      refine MayRaise.append ?_ _
      simp only [] at h2
      step h2
      simp at h2

/-- Why a server handshake raises. -/
theorem server_raises {cfg : ServerCfg} (hkp : cfg.encKp = some kp) {s s' : ServerSt}
    {tr : List (Ev env)} {e : Err} (h : Call (Server.handshake cfg) s tr (.error e) s') :
    MayRaise kp cfg.sigKp.pub tr e ∨
    (e = .noSuchServer ∧ ∃ raw m h1 t, M1.ctor raw = .ok m ∧ leNat (field raw 5 1) % 2 = 1 ∧
        field raw 42 32 ≠ cfg.sigKp.pub ∧
        tr = [⟨.read, .ok raw⟩, ⟨.report (leNat (field raw 6 4)), .ok ()⟩, ⟨.hash raw, .ok h1⟩,
       ⟨.firstTime, .ok t⟩, ⟨.write [Spec.m2 true true t (zeros 32)] true, .ok ()⟩]) ∨
    (e = .valueError ∧ ∃ raw x, M1.ctor raw = .error x ∧ raw.length < 5 ∧ tr = [⟨.read, .ok raw⟩]) := by
  unfold Call Server.handshake at h
  rw [Exec_py_bind_err] at h
  rcases h with h0 | ⟨tr0, kp0, s0, tr, rfl, h0, h⟩
  · unfold Server.validate at h0
    rw [hkp] at h0
    simp at h0
  unfold Server.validate at h0
  rw [hkp] at h0
  simp only [Py.pure_run, Exec_ret, Prod.mk.injEq, Except.ok.injEq] at h0
  obtain ⟨rfl, rfl, rfl⟩ := h0
  rw [Exec_py_bind_err] at h
  rcases h with h | ⟨tr1, o, s1, tr, rfl, h1, h⟩
  · rcases s_doM1_raise h with h | h
    · exact .inl (h.append _)
    · exact .inr (.inl h)
  rcases s_doM1_ok h1 with ⟨raw1, m1, hh1, rfl, hm1, hz, rfl, rfl⟩ | ⟨raw, x, rfl, hm1, rfl, rfl⟩
  · refine .inl (MayRaise.append (MayRaise.append ?_ _) _)
    simp only [] at h
    rw [Exec_py_bind_err] at h
    rcases h with h0 | ⟨tr0, kp1, s0, tr, rfl, h0, h⟩
    · unfold Server.validate at h0
      rw [hkp] at h0
      simp at h0
    unfold Server.validate at h0
    rw [hkp] at h0
    simp only [Py.pure_run, Exec_ret, Prod.mk.injEq, Except.ok.injEq] at h0
    obtain ⟨rfl, rfl, rfl⟩ := h0
    rw [Exec_py_bind_err] at h
    rcases h with h | ⟨tr1, _, s1, tr, rfl, h1, h⟩
    · exact (s_doM2_raise h).append _
    obtain ⟨t2, hpub, h2⟩ := s_doM2_ok h1
    refine MayRaise.append (MayRaise.append ?_ _) _
    have key : s1.m1 = some m1 ∧ s1.m2 = some ⟨Spec.m2 false false t2 kp.pub, none⟩ := by
      rcases h2 with ⟨hb, rfl, rfl⟩ | ⟨hb, hh2, rfl, rfl⟩ <;> exact ⟨rfl, rfl⟩
    clear h2
    rw [Exec_py_bind_err] at h
    rcases h with h | ⟨tr3, _, s3, tr, rfl, h3, h⟩
    · exact s_create_raise hm1 key.1 h
    obtain ⟨k, hsec, hk, rfl, rfl⟩ := s_create_ok hm1 key.1 h3
    refine MayRaise.append ?_ _
    rw [Exec_py_bind_err] at h
    rcases h with h4 | ⟨tr4, _, s4, tr, rfl, h4, h⟩
    · exact s_doM3_raise (c := App.init (encInit k .server))
        (s := { s1 with sessionKey := k, chan := some (App.init (encInit k .server)) }) key.2 rfl rfl
        (show (2:Nat) < 2 ^ 64 by decide) h4
    refine MayRaise.append ?_ _
    have key4 : s4.chan = some { App.init (encInit k .server) with
          enc := { encInit k .server with writeNonce := 2 + 2 } } := by
      rw [s_doM3_run cfg { s1 with sessionKey := k, chan := some (App.init (encInit k .server)) }
        t2 kp.pub (App.init (encInit k .server)) key.2 rfl, Exec_bind] at h4
      obtain ⟨tr5, ⟨r, st⟩, tr6, rfl, h5, h6⟩ := h4
      rcases r with e | ⟨ml, t⟩
      · simp at h6
      · obtain ⟨sm, x3, hsp, hsl, rfl, rfl⟩ := m3Tail_ok (c := App.init (encInit k .server)) rfl
          (show (2:Nat) < 2 ^ 64 by decide) h6
        rfl
    rw [Exec_py_bind_err] at h
    rcases h with h5 | ⟨tr5, _, s5, tr, rfl, h5, h⟩
    · exact s_doM4_raise key4 rfl rfl (show (1:Nat) < 2 ^ 64 by decide) h5
    obtain ⟨p4, m4, m4p, hp1, hp2, hm4, rfl, rfl⟩ := s_doM4_ok key4 rfl rfl
        (show (1:Nat) < 2 ^ 64 by decide) h5
    obtain ⟨e', rfl, -, rfl⟩ := s_validate_err hm4 rfl h
    exact sigErr_raise.append _
  · simp only [] at h
    rw [Exec_py_bind_err] at h
    rcases h with h | ⟨tr2, _, s2, tr, rfl, h2, h⟩
    · rw [s_doA2_run] at h
      cases ha : A1.ctor raw with
      | error y =>
        rw [ha] at h
        simp only [Exec_ret, Prod.mk.injEq, Except.error.injEq] at h
        obtain ⟨rfl, rfl, rfl⟩ := h
        rcases (Props.C12_exceptions (fun _ => false) raw y).2.2.2.2.2.2.2.1 ha with rfl | ⟨rfl, hl⟩
        · exact .inl .badPeer
        · exact .inr (.inr ⟨rfl, raw, x, hm1, hl, rfl⟩)
      | ok a =>
        rw [ha] at h
        simp only [Exec_op, Exec_ret, Prod.mk.injEq] at h
        obtain ⟨r, tr, rfl, rfl, rfl, rfl⟩ := h
        exact .inl (((MayRaise.first ..).append _).append _)
    · simp at h

end Salt
