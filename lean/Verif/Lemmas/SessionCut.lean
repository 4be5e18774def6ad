import Verif.Lemmas.SessionOk2

/-!
# All handshakes: where a failing run stops

`Cut full tr`: the run `tr` followed the script `full` and stopped, either between two operations or
because an operation raised.
-/

set_option linter.unusedSimpArgs false

namespace Salt

open Spec

/-- `tr` follows `full`, up to a point where it ends, possibly with an operation that raised. -/
inductive Cut {S : Sig} : List (Ev S) → List (Ev S) → Prop
  | stop (full : List (Ev S)) : Cut full []
  | raised (op : S.Op) (r : Except Err (S.Resp op)) (e : Err) (full : List (Ev S)) :
      Cut (⟨op, r⟩ :: full) [⟨op, .error e⟩]
  | next (ev : Ev S) {full tr : List (Ev S)} : Cut full tr → Cut (ev :: full) (ev :: tr)

namespace Cut

variable {S : Sig} {f g tr : List (Ev S)}

theorem append (h : Cut f tr) (g : List (Ev S)) : Cut (f ++ g) tr := by
  induction h with
  | stop _ => exact .stop _
  | raised op r e full => exact .raised op r e _
  | next ev _ ih => exact .next ev ih

theorem after (f : List (Ev S)) (h : Cut g tr) : Cut (f ++ g) (f ++ tr) := by
  induction f with
  | nil => exact h
  | cons a f ih => exact .next a ih

theorem refl (f : List (Ev S)) : Cut f f := by
  induction f with
  | nil => exact .stop _
  | cons a f ih => exact .next a ih

theorem of_prefix (h : tr <+: f) : Cut f tr := by
  obtain ⟨g, rfl⟩ := h
  exact (refl tr).append g

/-- Every operation performed is one of the script. -/
theorem mem_op (h : Cut f tr) {ev : Ev S} (he : ev ∈ tr) : ∃ ev' ∈ f, ev'.op = ev.op := by
  induction h with
  | stop _ => simp at he
  | raised op r e full =>
    simp only [List.mem_singleton] at he
    subst he
    exact ⟨_, List.mem_cons_self .., rfl⟩
  | next ev0 _ ih =>
    rcases List.mem_cons.1 he with rfl | he
    · exact ⟨_, List.mem_cons_self .., rfl⟩
    · obtain ⟨ev', h1, h2⟩ := ih he
      exact ⟨ev', List.mem_cons_of_mem _ h1, h2⟩

/-- Every operation that returned did so as in the script. -/
theorem mem_ok (h : Cut f tr) {op : S.Op} {a : S.Resp op} (he : (⟨op, .ok a⟩ : Ev S) ∈ tr) :
    (⟨op, .ok a⟩ : Ev S) ∈ f := by
  induction h with
  | stop _ => simp at he
  | raised op r e full =>
    simp only [List.mem_singleton] at he
    injection he with h1 h2
    subst h1
    simp at h2
  | next ev0 _ ih =>
    rcases List.mem_cons.1 he with rfl | he
    · exact List.mem_cons_self ..
    · exact List.mem_cons_of_mem _ (ih he)

/-- Inversion for scripts that have begun. -/
theorem cons_inv {ev : Ev S} (h : Cut (ev :: f) tr) :
    tr = [] ∨ (∃ e, tr = [⟨ev.op, .error e⟩]) ∨ ∃ tr', tr = ev :: tr' ∧ Cut f tr' := by
  cases h with
  | stop _ => exact .inl rfl
  | raised op r e _ => exact .inr (.inl ⟨e, rfl⟩)
  | next _ h => exact .inr (.inr ⟨_, rfl, h⟩)

theorem nil_inv (h : Cut ([] : List (Ev S)) tr) : tr = [] := by cases h; rfl

end Cut

/-- Closes goals `Cut [a, b, c, …] [a, b, …]`. -/
macro "cut" : tactic =>
  `(tactic| repeat' first | exact Cut.stop _ | exact Cut.raised _ _ _ _ | refine Cut.next _ ?_)

theorem Exec_py_bind_err {S : Sig} {σ α β : Type} (m : Py S σ α) (f : α → Py S σ β) (s : σ)
    (tr : List (Ev S)) (e : Err) (s' : σ) :
    Exec ((m >>= f) s) tr (.error e, s') ↔
      Exec (m s) tr (.error e, s') ∨
      ∃ tr1 a s1 tr2, tr = tr1 ++ tr2 ∧ Exec (m s) tr1 (.ok a, s1) ∧
        Exec (f a s1) tr2 (.error e, s') := by
  rw [Py.bind_run, Exec_bind]
  constructor
  · rintro ⟨tr1, ⟨r, s1⟩, tr2, rfl, h1, h2⟩
    cases r with
    | error e =>
      simp only [Exec_ret, Prod.mk.injEq, Except.error.injEq] at h2
      obtain ⟨rfl, rfl, rfl⟩ := h2
      exact .inl (by simpa using h1)
    | ok a => exact .inr ⟨tr1, a, s1, tr2, rfl, h1, h2⟩
  · rintro (h | ⟨tr1, a, s1, tr2, rfl, h1, h2⟩)
    · exact ⟨tr, (.error e, s'), [], by simp, h, by simp⟩
    · exact ⟨tr1, (.ok a, s1), tr2, rfl, h1, h2⟩

theorem c_doM1_err {kp : KeyPair} {s s' : ClientSt} {tr : List (Ev env)} {e : Err}
    (h : Exec (Client.doM1 kp s) tr (.error e, s')) :
    ∃ t h1, Cut (S := env) [⟨.firstTime, .ok t⟩, ⟨.hash (Spec.m1 t kp.pub none), .ok h1⟩,
        ⟨.write [Spec.m1 t kp.pub none] false, .ok ()⟩] tr := by
  rw [c_doM1_run, Exec_op] at h
  obtain ⟨r, tr, rfl, h⟩ := h
  cases r with
  | error e =>
    simp only [Exec_ret] at h
    obtain ⟨rfl, -⟩ := h
    exact ⟨0, [], by cut⟩
  | ok t =>
    simp only [] at h
    split at h
    · rw [Exec_op] at h
      obtain ⟨r, tr, rfl, h⟩ := h
      cases r with
      | error e =>
        simp only [Exec_ret] at h
        obtain ⟨rfl, -⟩ := h
        exact ⟨t, [], by cut⟩
      | ok h1 =>
        simp only [Exec_op, Exec_ret, Prod.mk.injEq] at h
        obtain ⟨r, tr, rfl, rfl, rfl, rfl⟩ := h
        exact ⟨t, h1, by cut⟩
    · simp only [Exec_ret] at h
      obtain ⟨rfl, -⟩ := h
      exact ⟨t, [], by cut⟩

theorem c_doM2_err {s s' : ClientSt} {tr : List (Ev env)} {e : Err}
    (h : Exec (Client.doM2 s) tr (.error e, s')) :
    ∃ raw h2, Cut (S := env) [⟨.read, .ok raw⟩, ⟨.report (leNat (field raw 2 4)), .ok ()⟩,
      ⟨.hash raw, .ok h2⟩] tr := by
  rw [c_doM2_run, Exec_op] at h
  obtain ⟨r, tr, rfl, h⟩ := h
  cases r with
  | error e =>
    simp only [Exec_ret] at h
    obtain ⟨rfl, -⟩ := h
    exact ⟨[], [], by cut⟩
  | ok raw =>
    simp only [] at h
    cases hm : M2.ctor raw with
    | error e =>
      rw [hm] at h
      simp only [Exec_ret] at h
      obtain ⟨rfl, -⟩ := h
      exact ⟨raw, [], by cut⟩
    | ok m2 =>
      rw [hm] at h
      simp only [Exec_op] at h
      obtain ⟨r, tr, rfl, h⟩ := h
      cases r with
      | error e =>
        simp only [Exec_ret] at h
        obtain ⟨rfl, -⟩ := h
        exact ⟨raw, [], by cut⟩
      | ok _ =>
        simp only [Exec_op] at h
        obtain ⟨r, tr, rfl, h⟩ := h
        cases r with
        | error e =>
          simp only [Exec_ret] at h
          obtain ⟨rfl, -⟩ := h
          exact ⟨raw, [], by cut⟩
        | ok h2 =>
          simp only [] at h
          split at h
          · simp at h
          · simp only [Exec_ret] at h
            obtain ⟨rfl, -⟩ := h
            exact ⟨raw, h2, by cut⟩

theorem c_create_err {kp : KeyPair} {s s' : ClientSt} {raw : Bytes} {m2 : Packet}
    (hm : M2.ctor raw = .ok m2) (hs : s.m2 = some m2) {tr : List (Ev env)} {e : Err}
    (h : Exec (Client.createEncryptedChannel kp s) tr (.error e, s')) :
    ∃ k, Cut (S := env) [⟨.beforenm (field raw 6 32) kp.sec, .ok k⟩] tr := by
  rw [c_create_run kp s raw m2 hm hs] at h
  split at h
  · rw [Exec_op] at h
    obtain ⟨r, tr, rfl, h⟩ := h
    cases r with
    | error e =>
      simp only [Exec_ret] at h
      obtain ⟨rfl, -⟩ := h
      exact ⟨[], by cut⟩
    | ok k =>
      simp only [] at h
      split at h
      · simp at h
      · simp only [Exec_ret] at h
        obtain ⟨rfl, -⟩ := h
        exact ⟨k, by cut⟩
  · simp only [Exec_ret] at h
    obtain ⟨rfl, -⟩ := h
    exact ⟨[], by cut⟩

theorem Enc_read_err {s s' : EncSt} {tr : List (Ev env)} {e : Err} (hp : s.pushback = [])
    (hs : s.sessionNonce = zeros 8) (hn : s.readNonce < 2 ^ 64)
    (h : Exec (Enc.read s) tr (.error e, s')) :
    ∃ raw m, Cut (S := env) [⟨.read, .ok raw⟩,
      ⟨.boxOpen (raw.drop 2) (Spec.nonce s.readNonce) s.key, .ok m⟩] tr := by
  rw [Enc_read_run, if_neg (by simp [hp]), Exec_op] at h
  obtain ⟨r, tr, rfl, h⟩ := h
  cases r with
  | error e =>
    simp only [Exec_ret] at h
    obtain ⟨rfl, -⟩ := h
    exact ⟨[], [], by cut⟩
  | ok raw =>
    unfold openPkt at h
    have hb : nonceBytes s.readNonce s.sessionNonce = .ok (Spec.nonce s.readNonce) := by
      rw [hs, nonceBytes_eq, if_pos hn]
    simp only [] at h
    split at h
    · simp only [Exec_ret] at h
      obtain ⟨rfl, -⟩ := h
      exact ⟨raw, [], by cut⟩
    · split at h
      · rw [hb] at h
        simp only [Exec_op] at h
        obtain ⟨r, tr, rfl, h⟩ := h
        cases r with
        | error e =>
          simp only [Exec_ret] at h
          obtain ⟨rfl, -⟩ := h
          exact ⟨raw, [], by cut⟩
        | ok m' => simp at h
      · simp only [Exec_ret] at h
        obtain ⟨rfl, -⟩ := h
        exact ⟨raw, [], by cut⟩

theorem c_doM3_err {s s' : ClientSt} {c : AppSt} (hc : s.chan = some c) (hp : c.enc.pushback = [])
    (hs : c.enc.sessionNonce = zeros 8) (hn : c.enc.readNonce < 2 ^ 64) {tr : List (Ev env)} {e : Err}
    (h : Exec (Client.doM3 s) tr (.error e, s')) :
    ∃ p chunk, Cut (S := env) [⟨.read, .ok p⟩,
        ⟨.boxOpen (p.drop 2) (Spec.nonce c.enc.readNonce) c.enc.key, .ok chunk⟩,
        ⟨.check (leNat (field chunk 2 4)), .ok ()⟩] tr := by
  rw [c_doM3_run s c hc, Exec_bind] at h
  obtain ⟨tr1, ⟨r, st⟩, tr2, rfl, h1, h2⟩ := h
  cases r with
  | error x =>
    obtain ⟨p, m, hcut⟩ := Enc_read_err hp hs hn h1
    simp only [Exec_ret] at h2
    obtain ⟨rfl, -⟩ := h2
    exact ⟨p, m, by simpa using hcut.append _⟩
  | ok chunk =>
    obtain ⟨p, -, -, rfl, rfl⟩ := Enc_read_ok hp hs hn h1
    simp only [] at h2
    refine ⟨p, chunk, ?_⟩
    split at h2
    · cases hm : M34.ctor .m3 chunk with
      | error e =>
        rw [hm] at h2
        simp only [Exec_ret] at h2
        obtain ⟨rfl, -⟩ := h2
        cut
      | ok m3 =>
        rw [hm] at h2
        simp only [Exec_op] at h2
        obtain ⟨r, tr, rfl, h2⟩ := h2
        cases r with
        | error e =>
          simp only [Exec_ret] at h2
          obtain ⟨rfl, -⟩ := h2
          cut
        | ok _ => simp at h2
    · simp only [Exec_ret] at h2
      obtain ⟨rfl, -⟩ := h2
      cut

theorem c_validate_err {s s' : ClientSt} {chunk : Bytes} {m3 : Packet} (hm : M34.ctor .m3 chunk = .ok m3)
    (hs : s.m3 = some m3) {tr : List (Ev env)} {e : Err}
    (h : Exec (Client.validateSignature1 s) tr (.error e, s')) :
    ∃ e', e = sigErr e' ∧ s' = s ∧
      tr = [⟨.signOpen (field chunk 38 64 ++ scSig01 ++ s.m1Hash ++ s.m2Hash) (field chunk 6 32),
        .error e'⟩] := by
  rw [c_validate_run s chunk m3 hm hs, Exec_op] at h
  obtain ⟨r, tr, rfl, h⟩ := h
  cases r with
  | error e' =>
    simp only [Exec_ret, Prod.mk.injEq, Except.error.injEq] at h
    obtain ⟨rfl, rfl, rfl⟩ := h
    exact ⟨e', rfl, rfl, rfl⟩
  | ok x => simp at h

theorem Enc_write1_err {s s' : EncSt} {m : Bytes} {l : Bool} {tr : List (Ev env)} {e : Err}
    (hs : s.sessionNonce = zeros 8) (hn : s.writeNonce < 2 ^ 64)
    (h : Exec (Enc.write [m] l s) tr (.error e, s')) :
    ∃ c, Cut (S := env) [⟨.box m (Spec.nonce s.writeNonce) s.key, .ok c⟩,
        ⟨.write [Spec.encrypted l c] l, .ok ()⟩] tr := by
  have hb : nonceBytes s.writeNonce s.sessionNonce = .ok (Spec.nonce s.writeNonce) := by
    rw [hs, nonceBytes_eq, if_pos hn]
  rw [Enc_write_run, encryptAll_cons_run, hb] at h
  simp only [IT.op_bind, Exec_op] at h
  obtain ⟨r, tr, rfl, h⟩ := h
  cases r with
  | error e =>
    simp only [IT.ret_bind, Exec_ret] at h
    obtain ⟨rfl, -⟩ := h
    exact ⟨[], by cut⟩
  | ok c =>
    simp only [encryptAll_nil_run, IT.ret_bind, Exec_op, List.isEmpty_nil, Bool.and_true] at h
    obtain ⟨r, tr, rfl, h⟩ := h
    simp only [Exec_ret, Prod.mk.injEq] at h
    obtain ⟨rfl, rfl, rfl⟩ := h
    exact ⟨c, by cut⟩

theorem c_doM4_err {cfg : ClientCfg} {s s' : ClientSt} {c : AppSt} (hc : s.chan = some c)
    (hs : c.enc.sessionNonce = zeros 8) (hn : c.enc.writeNonce < 2 ^ 64) {tr : List (Ev env)} {e : Err}
    (h : Exec (Client.doM4 cfg s) tr (.error e, s')) :
    ∃ t sm x, Cut (S := env) [⟨.time, .ok t⟩, ⟨.sign (scSig02 ++ s.m1Hash ++ s.m2Hash) cfg.sigKp.sec, .ok sm⟩,
      ⟨.box (Spec.m4 t cfg.sigKp.pub (sm.take 64)) (Spec.nonce c.enc.writeNonce) c.enc.key, .ok x⟩,
      ⟨.write [Spec.encrypted false x] false, .ok ()⟩] tr := by
  rw [c_doM4_run cfg s c hc, Exec_op] at h
  obtain ⟨r, tr, rfl, h⟩ := h
  cases r with
  | error e =>
    simp only [Exec_ret] at h
    obtain ⟨rfl, -⟩ := h
    exact ⟨0, [], [], by cut⟩
  | ok t =>
    simp only [] at h
    split at h
    · rw [Exec_op] at h
      obtain ⟨r, tr, rfl, h⟩ := h
      cases r with
      | error e =>
        simp only [Exec_ret] at h
        obtain ⟨rfl, -⟩ := h
        exact ⟨t, [], [], by cut⟩
      | ok sm =>
        simp only [] at h
        split at h
        · split at h
          · simp at h
          · rw [Exec_bind] at h
            obtain ⟨tr1, ⟨r, st⟩, tr2, rfl, h1, h2⟩ := h
            simp only [Exec_ret, Prod.mk.injEq] at h2
            obtain ⟨rfl, rfl, rfl⟩ := h2
            obtain ⟨x, hcut⟩ := Enc_write1_err hs hn h1
            exact ⟨t, sm, x, by simpa using Cut.next _ (Cut.next _ hcut)⟩
        · simp only [Exec_ret] at h
          obtain ⟨rfl, -⟩ := h
          exact ⟨t, sm, [], by cut⟩
    · simp only [Exec_ret] at h
      obtain ⟨rfl, -⟩ := h
      exact ⟨t, [], [], by cut⟩

/-- What the environment answers along a client handshake. -/
structure CP where
  t1 : Nat := 0
  h1 : Bytes := []
  raw2 : Bytes := []
  h2 : Bytes := []
  k : Bytes := []
  p3 : Bytes := []
  m3 : Bytes := []
  x : Bytes := []
  t4 : Nat := 0
  sm : Bytes := []
  c4 : Bytes := []

/-- The script of the client before Signature1 has been verified. -/
def clientPre (kp : KeyPair) (p : CP) : List (Ev env) :=
  [⟨.firstTime, .ok p.t1⟩, ⟨.hash (Spec.m1 p.t1 kp.pub none), .ok p.h1⟩,
   ⟨.write [Spec.m1 p.t1 kp.pub none] false, .ok ()⟩,
   ⟨.read, .ok p.raw2⟩, ⟨.report (leNat (field p.raw2 2 4)), .ok ()⟩, ⟨.hash p.raw2, .ok p.h2⟩,
   ⟨.beforenm (field p.raw2 6 32) kp.sec, .ok p.k⟩,
   ⟨.read, .ok p.p3⟩, ⟨.boxOpen (p.p3.drop 2) (Spec.nonce 2) p.k, .ok p.m3⟩,
   ⟨.check (leNat (field p.m3 2 4)), .ok ()⟩,
   ⟨.signOpen (field p.m3 38 64 ++ scSig01 ++ p.h1 ++ p.h2) (field p.m3 6 32), .ok p.x⟩]

/-- The rest of the script. -/
def clientPost (cfg : ClientCfg) (p : CP) : List (Ev env) :=
  [⟨.time, .ok p.t4⟩, ⟨.sign (scSig02 ++ p.h1 ++ p.h2) cfg.sigKp.sec, .ok p.sm⟩,
   ⟨.box (Spec.m4 p.t4 cfg.sigKp.pub (p.sm.take 64)) (Spec.nonce 1) p.k, .ok p.c4⟩,
   ⟨.write [Spec.encrypted false p.c4] false, .ok ()⟩]

/-- Skips the common beginning of the script. -/
macro "cutat " h:term : tactic =>
  `(tactic| (simp only [clientPre, clientPost, List.cons_append, List.nil_append]
             repeat refine Cut.next _ ?_
             exact $h))

/-- Every client handshake follows the script and stops somewhere. -/
theorem client_cut {cfg : ClientCfg} {kp : KeyPair} (hkp : cfg.encKp = some kp) {s s' : ClientSt}
    {tr : List (Ev env)} {r : Except Err Unit} (h : Call (Client.handshake cfg) s tr r s') :
    ∃ p, Cut (clientPre kp p ++ clientPost cfg p) tr := by
  cases r with
  | ok u =>
    obtain ⟨kp', t1, h1, raw2, m2, h2, k, p3, m3, m3p, x, t4, sm, tail, hkp', -, -, -, -, -, -, -, -, -,
      -, -, rfl, -, -, -, -, -, -, -, hend⟩ := (client_ok h).ex
    rw [hkp, Option.some.injEq] at hkp'
    subst hkp'
    rcases hend with ⟨-, rfl, -⟩ | ⟨-, -, c4, rfl⟩
    · refine ⟨⟨t1, h1, raw2, h2, k, p3, m3, x, t4, sm, []⟩, ?_⟩
      simp only [clientPre, clientPost, List.cons_append, List.nil_append]
      cut
    · refine ⟨⟨t1, h1, raw2, h2, k, p3, m3, x, t4, sm, c4⟩, ?_⟩
      simp only [clientPre, clientPost, List.cons_append, List.nil_append]
      cut
  | error e =>
    unfold Call Client.handshake at h
    rw [Exec_py_bind_err] at h
    rcases h with h0 | ⟨tr0, kp0, s0, tr, rfl, h0, h⟩
    · unfold Client.validate at h0
      rw [hkp] at h0
      simp at h0
    unfold Client.validate at h0
    rw [hkp] at h0
    simp only [Py.pure_run, Exec_ret, Prod.mk.injEq, Except.ok.injEq] at h0
    obtain ⟨rfl, rfl, rfl⟩ := h0
    rw [Exec_py_bind_err] at h
    rcases h with h | ⟨tr1, _, s1, tr, rfl, h1, h⟩
    · obtain ⟨t1, h1, hc⟩ := c_doM1_err h
      exact ⟨{ t1 := t1, h1 := h1 }, hc.append _⟩
    obtain ⟨t1, hh1, hpub, rfl, rfl⟩ := c_doM1_ok h1
    rw [Exec_py_bind_err] at h
    rcases h with h | ⟨tr1, _, s1, tr, rfl, h1, h⟩
    · obtain ⟨raw, h2, hc⟩ := c_doM2_err h
      exact ⟨{ t1 := t1, h1 := hh1, raw2 := raw, h2 := h2 }, by cutat (hc.append _)⟩
    obtain ⟨raw2, m2, hh2, hm2, hz, rfl, rfl, rfl⟩ := c_doM2_ok h1
    simp only [not_true_eq_false, if_false] at h
    rw [Exec_py_bind_err] at h
    rcases h with h | ⟨tr1, _, s1, tr, rfl, h1, h⟩
    · obtain ⟨k, hc⟩ := c_create_err hm2 rfl h
      exact ⟨{ t1 := t1, h1 := hh1, raw2 := raw2, h2 := hh2, k := k },
        by cutat (hc.append _)⟩
    obtain ⟨k, hsec, hk, rfl, rfl⟩ := c_create_ok hm2 rfl h1
    rw [Exec_py_bind_err] at h
    rcases h with h | ⟨tr1, _, s1, tr, rfl, h1, h⟩
    · obtain ⟨p3, m3, hc⟩ := c_doM3_err (c := App.init (encInit k .client)) rfl
        rfl rfl (show (2:Nat) < 2 ^ 64 by decide) h
      exact ⟨{ t1 := t1, h1 := hh1, raw2 := raw2, h2 := hh2, k := k, p3 := p3, m3 := m3 },
        by cutat (hc.append _)⟩
    obtain ⟨p3, m3, m3p, hp1, hp2, hl3, hm3, rfl, rfl⟩ := c_doM3_ok (c := App.init (encInit k .client)) rfl
      rfl rfl (show (2:Nat) < 2 ^ 64 by decide) h1
    rw [Exec_py_bind_err] at h
    rcases h with h | ⟨tr1, _, s1, tr, rfl, h1, h⟩
    · obtain ⟨e', -, -, rfl⟩ := c_validate_err hm3 rfl h
      refine ⟨{ t1 := t1, h1 := hh1, raw2 := raw2, h2 := hh2, k := k, p3 := p3, m3 := m3 }, ?_⟩
      simp only [clientPre, clientPost, List.cons_append, List.nil_append]
      cut
    obtain ⟨x, rfl, rfl⟩ := c_validate_ok hm3 rfl h1
    obtain ⟨t4, sm, c4, hc⟩ := c_doM4_err (c := { App.init (encInit k .client) with enc :=
      { encInit k .client with lastFlag := 128 ≤ (p3.getD 1 0).toNat, readNonce := 2 + 2 } })
      rfl rfl (show (1:Nat) < 2 ^ 64 by decide) h
    exact ⟨⟨t1, hh1, raw2, hh2, k, p3, m3, x, t4, sm, c4⟩,
      by cutat hc⟩

/-! ### The server -/

theorem s_doM1_err {cfg : ServerCfg} {s s' : ServerSt} {tr : List (Ev env)} {e : Err}
    (h : Exec (Server.doM1 cfg s) tr (.error e, s')) :
    (tr = [⟨.read, .error e⟩]) ∨
    (∃ raw h1 m tr', M1.ctor raw = .ok m ∧ tr = ⟨.read, .ok raw⟩ :: tr' ∧ tr'.length ≤ 2 ∧
      Cut (S := env) [⟨.report (leNat (field raw 6 4)), .ok ()⟩, ⟨.hash raw, .ok h1⟩] tr') ∨
    (∃ raw m1 h1 t, M1.ctor raw = .ok m1 ∧ leNat (field raw 5 1) % 2 = 1 ∧
      field raw 42 32 ≠ cfg.sigKp.pub ∧ Cut (S := env)
      [⟨.read, .ok raw⟩, ⟨.report (leNat (field raw 6 4)), .ok ()⟩, ⟨.hash raw, .ok h1⟩,
       ⟨.firstTime, .ok t⟩, ⟨.write [Spec.m2 true true t (zeros 32)] true, .ok ()⟩] tr ∧
       ∀ w, ⟨.write w true, .ok ()⟩ ∈ tr → e = .noSuchServer) := by
  rw [s_doM1_run, Exec_op] at h
  obtain ⟨r, tr, rfl, h⟩ := h
  cases r with
  | error e =>
    simp only [Exec_ret, Prod.mk.injEq, Except.error.injEq] at h
    obtain ⟨rfl, rfl, -⟩ := h
    exact .inl rfl
  | ok raw =>
    simp only [] at h
    cases hm : M1.ctor raw with
    | error e => rw [hm] at h; simp at h
    | ok m1 =>
      rw [hm] at h
      simp only [Exec_op] at h
      obtain ⟨r, tr, rfl, h⟩ := h
      cases r with
      | error e =>
        simp only [Exec_ret] at h
        obtain ⟨rfl, -⟩ := h
        exact .inr (.inl ⟨raw, [], m1, _, hm, rfl, by simp, by cut⟩)
      | ok _ =>
        simp only [Exec_op] at h
        obtain ⟨r, tr, rfl, h⟩ := h
        cases r with
        | error e =>
          simp only [Exec_ret] at h
          obtain ⟨rfl, -⟩ := h
          exact .inr (.inl ⟨raw, [], m1, _, hm, rfl, by simp, by cut⟩)
        | ok h1 =>
          simp only [] at h
          split at h
          · rename_i hc
            simp only [Exec_op] at h
            obtain ⟨r, tr, rfl, h⟩ := h
            cases r with
            | error e =>
              simp only [Exec_ret] at h
              obtain ⟨rfl, -⟩ := h
              exact .inr (.inr ⟨raw, m1, h1, 0, hm, hc.1, hc.2, by cut, by simp⟩)
            | ok t =>
              simp only [Exec_op] at h
              obtain ⟨r, tr, rfl, h⟩ := h
              cases r with
              | error e =>
                simp only [Exec_ret] at h
                obtain ⟨rfl, -⟩ := h
                refine .inr (.inr ⟨raw, m1, h1, t, hm, hc.1, hc.2, by cut, ?_⟩)
                intro w hw
                simp only [List.mem_cons, List.not_mem_nil, or_false, reduceCtorEq, false_or,
                  Ev.mk.injEq, false_and] at hw
                obtain ⟨hw, h2⟩ := hw
                injection hw with hw
                subst hw
                simp at h2
              | ok _ =>
                simp only [Exec_ret, Prod.mk.injEq, Except.error.injEq] at h
                obtain ⟨rfl, rfl, -⟩ := h
                exact .inr (.inr ⟨raw, m1, h1, t, hm, hc.1, hc.2, by cut, fun _ _ => rfl⟩)
          · simp at h

theorem s_doM2_err {cfg : ServerCfg} {kp : KeyPair} {s s' : ServerSt} {tr : List (Ev env)} {e : Err}
    (h : Exec (Server.doM2 cfg kp s) tr (.error e, s')) :
    (cfg.bufferM2 = true ∧ ∃ t, Cut (S := env) [⟨.firstTime, .ok t⟩] tr) ∨
    (cfg.bufferM2 = false ∧ ∃ t h2, Cut (S := env) [⟨.firstTime, .ok t⟩,
      ⟨.write [Spec.m2 false false t kp.pub] false, .ok ()⟩,
      ⟨.hash (Spec.m2 false false t kp.pub), .ok h2⟩] tr) := by
  rw [s_doM2_run, Exec_op] at h
  obtain ⟨r, tr, rfl, h⟩ := h
  cases hb : cfg.bufferM2 with
  | true =>
    refine .inl ⟨rfl, ?_⟩
    cases r with
    | error e =>
      simp only [Exec_ret] at h
      obtain ⟨rfl, -⟩ := h
      exact ⟨0, by cut⟩
    | ok t =>
      simp only [hb, if_true] at h
      split at h
      · simp at h
      · simp only [Exec_ret] at h
        obtain ⟨rfl, -⟩ := h
        exact ⟨t, by cut⟩
  | false =>
    refine .inr ⟨rfl, ?_⟩
    cases r with
    | error e =>
      simp only [Exec_ret] at h
      obtain ⟨rfl, -⟩ := h
      exact ⟨0, [], by cut⟩
    | ok t =>
      simp only [hb, Bool.false_eq_true, if_false] at h
      split at h
      · simp only [Exec_op] at h
        obtain ⟨r, tr, rfl, h⟩ := h
        cases r with
        | error e =>
          simp only [Exec_ret] at h
          obtain ⟨rfl, -⟩ := h
          exact ⟨t, [], by cut⟩
        | ok _ =>
          simp only [Exec_op] at h
          obtain ⟨r, tr, rfl, h⟩ := h
          cases r with
          | error e =>
            simp only [Exec_ret] at h
            obtain ⟨rfl, -⟩ := h
            exact ⟨t, [], by cut⟩
          | ok h2 => simp at h
      · simp only [Exec_ret] at h
        obtain ⟨rfl, -⟩ := h
        exact ⟨t, [], by cut⟩

theorem s_create_err {kp : KeyPair} {s s' : ServerSt} {raw : Bytes} {m1 : Packet}
    (hm : M1.ctor raw = .ok m1) (hs : s.m1 = some m1) {tr : List (Ev env)} {e : Err}
    (h : Exec (Server.createEncryptedChannel kp s) tr (.error e, s')) :
    ∃ k, Cut (S := env) [⟨.beforenm (field raw 10 32) kp.sec, .ok k⟩] tr := by
  rw [s_create_run kp s raw m1 hm hs] at h
  split at h
  · rw [Exec_op] at h
    obtain ⟨r, tr, rfl, h⟩ := h
    cases r with
    | error e =>
      simp only [Exec_ret] at h
      obtain ⟨rfl, -⟩ := h
      exact ⟨[], by cut⟩
    | ok k =>
      simp only [] at h
      split at h
      · simp at h
      · simp only [Exec_ret] at h
        obtain ⟨rfl, -⟩ := h
        exact ⟨k, by cut⟩
  · simp only [Exec_ret] at h
    obtain ⟨rfl, -⟩ := h
    exact ⟨[], by cut⟩

theorem m3Tail_err {cfg : ServerCfg} {ml : List Bytes} {t : Nat} {c : AppSt} {s s' : ServerSt}
    (hs : c.enc.sessionNonce = zeros 8) (hn : c.enc.writeNonce < 2 ^ 64) {tr : List (Ev env)} {e : Err}
    (h : Exec (m3Tail cfg ml t c s) tr (.error e, s')) :
    ∃ sm x, Cut (S := env)
       [⟨.sign (scSig01 ++ s.m1Hash ++ s.m2Hash) cfg.sigKp.sec, .ok sm⟩,
        ⟨.box (Spec.m3 t cfg.sigKp.pub (sm.take 64)) (Spec.nonce c.enc.writeNonce) c.enc.key, .ok x⟩,
        ⟨.write (ml ++ [Spec.encrypted false x]) false, .ok ()⟩] tr := by
  have hb : nonceBytes c.enc.writeNonce c.enc.sessionNonce = .ok (Spec.nonce c.enc.writeNonce) := by
    rw [hs, nonceBytes_eq, if_pos hn]
  unfold m3Tail at h
  rw [hb] at h
  split at h
  · rw [Exec_op] at h
    obtain ⟨r, tr, rfl, h⟩ := h
    cases r with
    | error e =>
      simp only [Exec_ret] at h
      obtain ⟨rfl, -⟩ := h
      exact ⟨[], [], by cut⟩
    | ok sm =>
      simp only [] at h
      split at h
      · rw [Exec_op] at h
        obtain ⟨r, tr, rfl, h⟩ := h
        cases r with
        | error e =>
          simp only [Exec_ret] at h
          obtain ⟨rfl, -⟩ := h
          exact ⟨sm, [], by cut⟩
        | ok x =>
          simp only [Exec_op, Exec_ret, Prod.mk.injEq] at h
          obtain ⟨r, tr, rfl, rfl, rfl, rfl⟩ := h
          exact ⟨sm, x, by cut⟩
      · simp only [Exec_ret] at h
        obtain ⟨rfl, -⟩ := h
        exact ⟨sm, [], by cut⟩
  · simp only [Exec_ret] at h
    obtain ⟨rfl, -⟩ := h
    exact ⟨[], [], by cut⟩

theorem s_doM4_err {s s' : ServerSt} {c : AppSt} (hc : s.chan = some c) (hp : c.enc.pushback = [])
    (hs : c.enc.sessionNonce = zeros 8) (hn : c.enc.readNonce < 2 ^ 64) {tr : List (Ev env)} {e : Err}
    (h : Exec (Server.doM4 s) tr (.error e, s')) :
    ∃ p chunk, Cut (S := env) [⟨.read, .ok p⟩,
        ⟨.boxOpen (p.drop 2) (Spec.nonce c.enc.readNonce) c.enc.key, .ok chunk⟩,
        ⟨.check (leNat (field chunk 2 4)), .ok ()⟩] tr := by
  rw [s_doM4_run s c hc, Exec_bind] at h
  obtain ⟨tr1, ⟨r, st⟩, tr2, rfl, h1, h2⟩ := h
  cases r with
  | error x =>
    obtain ⟨p, m, hcut⟩ := Enc_read_err hp hs hn h1
    simp only [Exec_ret] at h2
    obtain ⟨rfl, -⟩ := h2
    exact ⟨p, m, by simpa using hcut.append _⟩
  | ok chunk =>
    obtain ⟨p, -, -, rfl, rfl⟩ := Enc_read_ok hp hs hn h1
    simp only [] at h2
    refine ⟨p, chunk, ?_⟩
    cases hm : M34.ctor .m4 chunk with
    | error e =>
      rw [hm] at h2
      simp only [Exec_ret] at h2
      obtain ⟨rfl, -⟩ := h2
      cut
    | ok m3 =>
      rw [hm] at h2
      simp only [Exec_op] at h2
      obtain ⟨r, tr, rfl, h2⟩ := h2
      cases r with
      | error e =>
        simp only [Exec_ret] at h2
        obtain ⟨rfl, -⟩ := h2
        cut
      | ok _ => simp at h2

theorem s_validate_err {s s' : ServerSt} {chunk : Bytes} {m4 : Packet} (hm : M34.ctor .m4 chunk = .ok m4)
    (hs : s.m4 = some m4) {tr : List (Ev env)} {e : Err}
    (h : Exec (Server.validateSignature2 s) tr (.error e, s')) :
    ∃ e', e = sigErr e' ∧ s' = s ∧
      tr = [⟨.signOpen (field chunk 38 64 ++ scSig02 ++ s.m1Hash ++ s.m2Hash) (field chunk 6 32),
        .error e'⟩] := by
  rw [s_validate_run s chunk m4 hm hs, Exec_op] at h
  obtain ⟨r, tr, rfl, h⟩ := h
  cases r with
  | error e' =>
    simp only [Exec_ret, Prod.mk.injEq, Except.error.injEq] at h
    obtain ⟨rfl, rfl, rfl⟩ := h
    exact ⟨e', rfl, rfl, rfl⟩
  | ok x => simp at h

/-- What the environment answers along a server handshake. -/
structure SP where
  raw1 : Bytes := []
  h1 : Bytes := []
  t0 : Nat := 0
  t2 : Nat := 0
  t3 : Nat := 0
  h2 : Bytes := []
  k : Bytes := []
  sm : Bytes := []
  c3 : Bytes := []
  p4 : Bytes := []
  m4 : Bytes := []
  x : Bytes := []

/-- The server reads M1. -/
def serverHead (p : SP) : List (Ev env) :=
  [⟨.read, .ok p.raw1⟩, ⟨.report (leNat (field p.raw1 6 4)), .ok ()⟩, ⟨.hash p.raw1, .ok p.h1⟩]

/-- The server sends M2, then M3. -/
def serverPlain (cfg : ServerCfg) (kp : KeyPair) (p : SP) : List (Ev env) :=
  [⟨.firstTime, .ok p.t2⟩, ⟨.write [Spec.m2 false false p.t2 kp.pub] false, .ok ()⟩,
   ⟨.hash (Spec.m2 false false p.t2 kp.pub), .ok p.h2⟩,
   ⟨.beforenm (field p.raw1 10 32) kp.sec, .ok p.k⟩, ⟨.time, .ok p.t3⟩,
   ⟨.sign (scSig01 ++ p.h1 ++ p.h2) cfg.sigKp.sec, .ok p.sm⟩,
   ⟨.box (Spec.m3 p.t3 cfg.sigKp.pub (p.sm.take 64)) (Spec.nonce 2) p.k, .ok p.c3⟩,
   ⟨.write [Spec.encrypted false p.c3] false, .ok ()⟩]

/-- The server sends M2 and M3 together. -/
def serverBuffered (cfg : ServerCfg) (kp : KeyPair) (p : SP) : List (Ev env) :=
  [⟨.firstTime, .ok p.t0⟩, ⟨.beforenm (field p.raw1 10 32) kp.sec, .ok p.k⟩, ⟨.firstTime, .ok p.t2⟩,
   ⟨.hash (Spec.m2 false false p.t2 kp.pub), .ok p.h2⟩,
   ⟨.sign (scSig01 ++ p.h1 ++ p.h2) cfg.sigKp.sec, .ok p.sm⟩,
   ⟨.box (Spec.m3 p.t2 cfg.sigKp.pub (p.sm.take 64)) (Spec.nonce 2) p.k, .ok p.c3⟩,
   ⟨.write [Spec.m2 false false p.t2 kp.pub, Spec.encrypted false p.c3] false, .ok ()⟩]

/-- The server reads M4. -/
def serverTail (p : SP) : List (Ev env) :=
  [⟨.read, .ok p.p4⟩, ⟨.boxOpen (p.p4.drop 2) (Spec.nonce 1) p.k, .ok p.m4⟩,
   ⟨.check (leNat (field p.m4 2 4)), .ok ()⟩,
   ⟨.signOpen (field p.m4 38 64 ++ scSig02 ++ p.h1 ++ p.h2) (field p.m4 6 32), .ok p.x⟩]

/-- The script of the server. -/
def serverFull (cfg : ServerCfg) (kp : KeyPair) (p : SP) : List (Ev env) :=
  serverHead p ++ (if cfg.bufferM2 then serverBuffered cfg kp p else serverPlain cfg kp p)
    ++ serverTail p

/-- The server refuses an M1 meant for another server. -/
def serverRefuse (p : SP) : List (Ev env) :=
  serverHead p ++ [⟨.firstTime, .ok p.t2⟩, ⟨.write [Spec.m2 true true p.t2 (zeros 32)] true, .ok ()⟩]

/-- The server answers an A1. -/
def serverA1 (cfg : ServerCfg) (raw : Bytes) : List (Ev env) :=
  [⟨.read, .ok raw⟩, ⟨.write [(cfg.a2.getD (A2.ofCase .default)).toBytes] true, .ok ()⟩]

/-- Which script a server handshake follows. -/
inductive ServerCase (cfg : ServerCfg) (kp : KeyPair) (s : ServerSt) :
    List (Ev env) → Except Err Unit → ServerSt → Prop
  /-- a handshake -/
  | shake {tr r s'} (p : SP) (h : Cut (serverFull cfg kp p) tr)
      (hd : s'.isDone = s.isDone)
      (hm : (∃ e, tr = [⟨.read, .error e⟩] ∧ r = .error e) ∨
        (∃ m tr', M1.ctor p.raw1 = .ok m ∧ tr = ⟨.read, .ok p.raw1⟩ :: tr' ∧
          (3 ≤ tr'.length →
            ¬ (leNat (field p.raw1 5 1) % 2 = 1 ∧ field p.raw1 42 32 ≠ cfg.sigKp.pub)))) :
      ServerCase cfg kp s tr r s'
  /-- a refused handshake -/
  | refuse {tr s'} (p : SP) (e : Err) (m : Packet) (hm : M1.ctor p.raw1 = .ok m)
      (hf : leNat (field p.raw1 5 1) % 2 = 1) (hk : field p.raw1 42 32 ≠ cfg.sigKp.pub)
      (h : Cut (serverRefuse p) tr) (hd : s'.isDone = s.isDone)
      (he : ∀ w, ⟨.write w true, .ok ()⟩ ∈ tr → e = .noSuchServer) :
      ServerCase cfg kp s tr (.error e) s'
  /-- not an M1, not an A1 -/
  | bad {s'} (raw : Bytes) (e : Err) (x : Err) (hm : M1.ctor raw = .error x) (ha : A1.ctor raw = .error e)
      (hd : s'.isDone = s.isDone) :
      ServerCase cfg kp s [⟨.read, .ok raw⟩] (.error e) s'
  /-- an A1 -/
  | a1 {s'} (raw : Bytes) (x : Err) (a : Packet) (hm : M1.ctor raw = .error x) (ha : A1.ctor raw = .ok a)
      (r : Except Err Unit) (hd : s'.isDone = (if r = .ok () then true else s.isDone)) :
      ServerCase cfg kp s [⟨.read, .ok raw⟩,
        ⟨.write [(cfg.a2.getD (A2.ofCase .default)).toBytes] true, r⟩] r s'

/-- Skips the common beginning of the script. -/
macro "scutat " h:term : tactic =>
  `(tactic| (simp only [serverFull, serverHead, serverPlain, serverBuffered, serverTail,
               List.cons_append, List.nil_append, if_true, if_false, Bool.false_eq_true]
             repeat refine Cut.next _ ?_
             exact $h))

/-! ### Attributes a method does not touch -/

/-- `m` leaves the attribute `f` as it was, whether it returns or raises. -/
def Keeps {S : Sig} {σ τ α : Type} (f : σ → τ) (m : Py S σ α) : Prop :=
  ∀ s, wp (m s) fun _ b => f b.2 = f s

namespace Keeps

variable {S : Sig} {σ τ υ α β : Type} {f : σ → τ}

theorem bind {m : Py S σ α} {g : α → Py S σ β} (h1 : Keeps f m) (h2 : ∀ a, Keeps f (g a)) :
    Keeps f (m >>= g) := by
  intro s
  rw [Py.bind_run, wp_bind]
  refine wp_mono _ (h1 s) ?_
  rintro tr ⟨r, s'⟩ h
  cases r with
  | error e => simpa using h
  | ok a => exact wp_mono _ (h2 a s') fun _ _ h' => h'.trans h

theorem ret (a : α) : Keeps f (pure a : Py S σ α) := fun s => by simp
theorem raise (e : Err) : Keeps f (Py.raise e : Py S σ α) := fun s => by simp
theorem lift (x : Except Err α) : Keeps f (Py.lift x : Py S σ α) := fun s => by simp
theorem getSt : Keeps f (Py.getSt : Py S σ σ) := fun s => by simp
theorem modifySt (g : σ → σ) (h : ∀ s, f (g s) = f s) : Keeps f (Py.modifySt g : Py S σ Unit) :=
  fun s => by simpa using h s
theorem call (e : S.Op) : Keeps f (Py.call e : Py S σ (S.Resp e)) := fun s => by simp

theorem zoom (get : σ → Option υ) (set : υ → σ → σ) (m : Py S υ α) (h : ∀ c s, f (set c s) = f s) :
    Keeps f (Py.zoom get set m) := by
  intro s
  rw [Py.zoom_run]
  cases get s with
  | none => simp
  | some t =>
    simp only [wp_bind, wp_ret]
    exact fun tr b _ => h _ _

theorem onError {m : Py S σ α} {g : Err → Py S σ α} (h1 : Keeps f m) (h2 : ∀ a, Keeps f (g a)) :
    Keeps f (Py.onError m g) := by
  intro s
  unfold Py.onError
  rw [wp_bind]
  refine wp_mono _ (h1 s) ?_
  rintro tr ⟨r, s'⟩ h
  cases r with
  | ok a => simpa using h
  | error e => exact wp_mono _ (h2 e s') fun _ _ h' => h'.trans h

end Keeps

/-- Closes goals `Keeps f m` by following the structure of `m`. -/
macro "keeps" : tactic => `(tactic| repeat' (first
  | with_reducible exact Keeps.ret _ | with_reducible exact Keeps.raise _
  | with_reducible exact Keeps.lift _ | with_reducible exact Keeps.getSt
  | with_reducible exact Keeps.call _ | with_reducible exact Keeps.modifySt _ (fun _ => rfl)
  | with_reducible exact Keeps.zoom _ _ _ (fun _ _ => rfl)
  | with_reducible refine Keeps.bind ?_ (fun _ => ?_)
  | with_reducible refine Keeps.onError ?_ (fun _ => ?_)
  | split
  | (dsimp only; split)))

theorem Keeps.call_eq {S : Sig} {σ τ α : Type} {f : σ → τ} {m : Py S σ α} (h : Keeps f m) {s s' : σ}
    {tr : List (Ev S)} {r : Except Err α} (hx : Exec (m s) tr (r, s')) : f s' = f s := h s tr _ hx

theorem s_doM1_keeps (cfg : ServerCfg) : Keeps ServerSt.isDone (Server.doM1 cfg) := by
  unfold Server.doM1; keeps

theorem s_doA2_keeps (cfg : ServerCfg) (raw : Bytes) : Keeps ServerSt.isDone (Server.doA2 cfg raw) := by
  unfold Server.doA2; keeps

theorem s_rest_keeps (cfg : ServerCfg) (kp : KeyPair) : Keeps ServerSt.isDone (do
    let _ ← Server.validate cfg
    Server.doM2 cfg kp
    Server.createEncryptedChannel kp
    Server.doM3 cfg
    Server.doM4
    Server.validateSignature2) := by
  unfold Server.validate Server.doM2 Server.createEncryptedChannel Server.doM3 Server.doM4
    Server.validateSignature2 Server.doM3Head computeSharedKey Server.onEnc
  keeps

/-- Every server handshake follows one of the scripts and stops somewhere. -/
theorem server_cut {cfg : ServerCfg} {kp : KeyPair} (hkp : cfg.encKp = some kp) {s s' : ServerSt}
    {tr : List (Ev env)} {r : Except Err Unit} (h : Call (Server.handshake cfg) s tr r s') :
    ServerCase cfg kp s tr r s' := by
  cases r with
  | ok u =>
    rcases (server_ok h).ex with ⟨raw, e, a1, hm, ha, rfl, rfl⟩ | ⟨kp', raw1, m1, h1, m2, h2, k, mid, p4,
      m4, m4p, x, hkp', -, -, -, hm1, hz, -, hmid, -, -, -, rfl, rfl⟩
    · exact .a1 raw e a1 hm ha _ rfl
    rw [hkp, Option.some.injEq] at hkp'
    subst hkp'
    cases hmid with
    | plain t2 t3 sm c hb hl hm =>
      subst hm
      refine .shake ⟨raw1, h1, 0, t2, t3, h2, k, sm, c, p4, m4, x⟩ ?_ rfl
        (.inr ⟨m1, _, hm1, rfl, fun _ => hz⟩)
      simp only [serverFull, serverHead, serverPlain, serverTail, hb, Bool.false_eq_true, if_false,
        List.cons_append, List.nil_append]
      cut
    | buffered t0 t2 sm c hb hl hm =>
      subst hm
      refine .shake ⟨raw1, h1, t0, t2, 0, h2, k, sm, c, p4, m4, x⟩ ?_ rfl
        (.inr ⟨m1, _, hm1, rfl, fun _ => hz⟩)
      simp only [serverFull, serverHead, serverBuffered, serverTail, hb, if_true,
        List.cons_append, List.nil_append]
      cut
  | error e =>
    unfold Call Server.handshake at h
    rw [Exec_py_bind_err] at h
    rcases h with h0 | ⟨tr0, kp0, s0, tr, rfl, h0, h⟩
    · unfold Server.validate at h0
      rw [hkp] at h0
      simp at h0
    unfold Server.validate at h0
    rw [hkp] at h0
    simp only [Py.pure_run, Exec_ret, Prod.mk.injEq, Except.ok.injEq] at h0
    obtain ⟨rfl, rfl, rfl⟩ := h0
    rw [Exec_py_bind_err] at h
    rcases h with h | ⟨tr1, o, s1, tr, rfl, h1, h⟩
    · have hd := (s_doM1_keeps cfg).call_eq h
      rcases s_doM1_err h with rfl | ⟨raw, h1, m, tr', hm, rfl, hl, hc⟩ | ⟨raw, m, h1, t, hm, hf, hk, hc, he⟩
      · exact .shake {} (by scutat (Cut.raised _ _ _ _)) hd (.inl ⟨e, rfl, rfl⟩)
      · refine .shake { raw1 := raw, h1 := h1 } ?_ hd (.inr ⟨m, _, hm, rfl, fun h => by omega⟩)
        refine Cut.next _ (Cut.append ?_ _)
        exact hc.append _
      · exact .refuse { raw1 := raw, h1 := h1, t2 := t } e m hm hf hk hc hd he
    have hd1 := (s_doM1_keeps cfg).call_eq h1
    rcases s_doM1_ok h1 with ⟨raw1, m1, hh1, rfl, hm1, hz, rfl, rfl⟩ | ⟨raw, x, rfl, hm1, rfl, rfl⟩
    · simp only [] at h
      have hd := ((s_rest_keeps cfg kp).call_eq h).trans hd1
      suffices hs : ∃ p : SP, p.raw1 = raw1 ∧ p.h1 = hh1 ∧
          Cut ((if cfg.bufferM2 then serverBuffered cfg kp p else serverPlain cfg kp p)
            ++ serverTail p) tr by
        obtain ⟨p, rfl, rfl, hc⟩ := hs
        refine .shake p ?_ hd (.inr ⟨m1, _, hm1, rfl, fun _ => hz⟩)
        unfold serverFull
        rw [List.append_assoc]
        exact Cut.next _ (Cut.next _ (Cut.next _ hc))
      rw [Exec_py_bind_err] at h
      rcases h with h0 | ⟨tr0, kp1, s0, tr, rfl, h0, h⟩
      · unfold Server.validate at h0
        rw [hkp] at h0
        simp at h0
      unfold Server.validate at h0
      rw [hkp] at h0
      simp only [Py.pure_run, Exec_ret, Prod.mk.injEq, Except.ok.injEq] at h0
      obtain ⟨rfl, rfl, rfl⟩ := h0
      rw [Exec_py_bind_err] at h
      rcases h with h | ⟨tr1, _, s1, tr, rfl, h1, h⟩
      · rcases s_doM2_err h with ⟨hb, t, hc⟩ | ⟨hb, t, h2, hc⟩
        · exact ⟨{ raw1 := raw1, h1 := hh1, t0 := t }, rfl, rfl, by rw [hb]; exact hc.append _⟩
        · exact ⟨{ raw1 := raw1, h1 := hh1, t2 := t, h2 := h2 }, rfl, rfl, by rw [hb]; exact hc.append _⟩
      obtain ⟨t2, hpub, h2⟩ := s_doM2_ok h1
      rcases h2 with ⟨hb, rfl, rfl⟩ | ⟨hb, hh2, rfl, rfl⟩
      · rw [hb]
        rw [Exec_py_bind_err] at h
        rcases h with h | ⟨tr3, _, s3, tr, rfl, h3, h⟩
        · obtain ⟨k, hc⟩ := s_create_err hm1 rfl h
          exact ⟨{ raw1 := raw1, h1 := hh1, t0 := t2, k := k }, rfl, rfl, by scutat (hc.append _)⟩
        obtain ⟨k, hsec, hk, rfl, rfl⟩ := s_create_ok hm1 rfl h3
        rw [Exec_py_bind_err] at h
        rcases h with h4 | ⟨tr4, _, s4, tr, rfl, h4, h⟩
        · rw [s_doM3_run cfg _ t2 kp.pub (App.init (encInit k .server)) rfl rfl,
            s_doM3Head_run cfg _ t2 kp.pub rfl, if_pos hb, IT.op_bind, Exec_op] at h4
          obtain ⟨r, tr4, rfl, h4⟩ := h4
          cases r with
          | error e =>
            simp only [IT.ret_bind, Exec_ret] at h4
            obtain ⟨rfl, -⟩ := h4
            exact ⟨{ raw1 := raw1, h1 := hh1, t0 := t2, k := k }, rfl, rfl,
              by scutat (Cut.raised _ _ _ _)⟩
          | ok t3 =>
          simp only [IT.op_bind, Exec_op] at h4
          obtain ⟨r, tr4, rfl, h4⟩ := h4
          cases r with
          | error e =>
            simp only [IT.ret_bind, Exec_ret] at h4
            obtain ⟨rfl, -⟩ := h4
            exact ⟨{ raw1 := raw1, h1 := hh1, t0 := t2, t2 := t3, k := k }, rfl, rfl,
              by scutat (Cut.raised _ _ _ _)⟩
          | ok hh2 =>
          simp only [IT.ret_bind] at h4
          obtain ⟨sm, x3, hc⟩ := m3Tail_err (c := App.init (encInit k .server)) rfl
            (show (2:Nat) < 2 ^ 64 by decide) h4
          exact ⟨{ raw1 := raw1, h1 := hh1, t0 := t2, t2 := t3, k := k, h2 := hh2, sm := sm, c3 := x3 },
            rfl, rfl, by scutat (hc.append _)⟩
        rw [s_doM3_run cfg _ t2 kp.pub (App.init (encInit k .server)) rfl rfl,
          s_doM3Head_run cfg _ t2 kp.pub rfl, if_pos hb, IT.op_bind, Exec_op] at h4
        obtain ⟨r, tr4, rfl, h4⟩ := h4
        cases r with
        | error e => simp at h4
        | ok t3 =>
        simp only [IT.op_bind, Exec_op] at h4
        obtain ⟨r, tr4, rfl, h4⟩ := h4
        cases r with
        | error e => simp at h4
        | ok hh2 =>
        simp only [IT.ret_bind] at h4
        obtain ⟨sm, x3, hsp, hsl, rfl, rfl⟩ := m3Tail_ok (c := App.init (encInit k .server)) rfl
          (show (2:Nat) < 2 ^ 64 by decide) h4
        rw [Exec_py_bind_err] at h
        rcases h with h5 | ⟨tr5, _, s5, tr, rfl, h5, h⟩
        · obtain ⟨p4, m4, hc⟩ := s_doM4_err (c := { App.init (encInit k .server) with
            enc := { encInit k .server with writeNonce := 2 + 2 } }) rfl rfl rfl
            (show (1:Nat) < 2 ^ 64 by decide) h5
          exact ⟨⟨raw1, hh1, t2, t3, 0, hh2, k, sm, x3, p4, m4, []⟩, rfl, rfl, by scutat (hc.append _)⟩
        obtain ⟨p4, m4, m4p, hp1, hp2, hm4, rfl, rfl⟩ := s_doM4_ok (c := { App.init (encInit k .server) with
          enc := { encInit k .server with writeNonce := 2 + 2 } }) rfl rfl rfl
          (show (1:Nat) < 2 ^ 64 by decide) h5
        obtain ⟨e', -, -, rfl⟩ := s_validate_err hm4 rfl h
        exact ⟨⟨raw1, hh1, t2, t3, 0, hh2, k, sm, x3, p4, m4, []⟩, rfl, rfl,
          by scutat (Cut.raised _ _ _ _)⟩
      · rw [hb]
        rw [Exec_py_bind_err] at h
        rcases h with h | ⟨tr3, _, s3, tr, rfl, h3, h⟩
        · obtain ⟨k, hc⟩ := s_create_err hm1 rfl h
          exact ⟨{ raw1 := raw1, h1 := hh1, t2 := t2, h2 := hh2, k := k }, rfl, rfl,
            by scutat (hc.append _)⟩
        obtain ⟨k, hsec, hk, rfl, rfl⟩ := s_create_ok hm1 rfl h3
        rw [Exec_py_bind_err] at h
        rcases h with h4 | ⟨tr4, _, s4, tr, rfl, h4, h⟩
        · rw [s_doM3_run cfg _ t2 kp.pub (App.init (encInit k .server)) rfl rfl,
            s_doM3Head_run cfg _ t2 kp.pub rfl, if_neg (by simp [hb]), IT.op_bind, Exec_op] at h4
          obtain ⟨r, tr4, rfl, h4⟩ := h4
          cases r with
          | error e =>
            simp only [IT.ret_bind, Exec_ret] at h4
            obtain ⟨rfl, -⟩ := h4
            exact ⟨{ raw1 := raw1, h1 := hh1, t2 := t2, h2 := hh2, k := k }, rfl, rfl,
              by scutat (Cut.raised _ _ _ _)⟩
          | ok t3 =>
          simp only [IT.ret_bind] at h4
          obtain ⟨sm, x3, hc⟩ := m3Tail_err (c := App.init (encInit k .server)) rfl
            (show (2:Nat) < 2 ^ 64 by decide) h4
          exact ⟨{ raw1 := raw1, h1 := hh1, t2 := t2, t3 := t3, k := k, h2 := hh2, sm := sm, c3 := x3 },
            rfl, rfl, by scutat (hc.append _)⟩
        rw [s_doM3_run cfg _ t2 kp.pub (App.init (encInit k .server)) rfl rfl,
          s_doM3Head_run cfg _ t2 kp.pub rfl, if_neg (by simp [hb]), IT.op_bind, Exec_op] at h4
        obtain ⟨r, tr4, rfl, h4⟩ := h4
        cases r with
        | error e => simp at h4
        | ok t3 =>
        simp only [IT.ret_bind] at h4
        obtain ⟨sm, x3, hsp, hsl, rfl, rfl⟩ := m3Tail_ok (c := App.init (encInit k .server)) rfl
          (show (2:Nat) < 2 ^ 64 by decide) h4
        rw [Exec_py_bind_err] at h
        rcases h with h5 | ⟨tr5, _, s5, tr, rfl, h5, h⟩
        · obtain ⟨p4, m4, hc⟩ := s_doM4_err (c := { App.init (encInit k .server) with
            enc := { encInit k .server with writeNonce := 2 + 2 } }) rfl rfl rfl
            (show (1:Nat) < 2 ^ 64 by decide) h5
          exact ⟨⟨raw1, hh1, 0, t2, t3, hh2, k, sm, x3, p4, m4, []⟩, rfl, rfl, by scutat (hc.append _)⟩
        obtain ⟨p4, m4, m4p, hp1, hp2, hm4, rfl, rfl⟩ := s_doM4_ok (c := { App.init (encInit k .server) with
          enc := { encInit k .server with writeNonce := 2 + 2 } }) rfl rfl rfl
          (show (1:Nat) < 2 ^ 64 by decide) h5
        obtain ⟨e', -, -, rfl⟩ := s_validate_err hm4 rfl h
        exact ⟨⟨raw1, hh1, 0, t2, t3, hh2, k, sm, x3, p4, m4, []⟩, rfl, rfl,
          by scutat (Cut.raised _ _ _ _)⟩
    · simp only [] at h
      rw [Exec_py_bind_err] at h
      rcases h with h | ⟨tr2, _, s2, tr, rfl, h2, h⟩
      · have hd := ((s_doA2_keeps cfg raw).call_eq h).trans hd1
        rw [s_doA2_run] at h
        cases ha : A1.ctor raw with
        | error y =>
          rw [ha] at h
          simp only [Exec_ret, Prod.mk.injEq, Except.error.injEq] at h
          obtain ⟨rfl, rfl, rfl⟩ := h
          exact .bad raw y x hm1 ha rfl
        | ok a =>
          rw [ha] at h
          simp only [Exec_op, Exec_ret, Prod.mk.injEq] at h
          obtain ⟨r, tr, rfl, rfl, rfl, rfl⟩ := h
          exact .a1 raw x a hm1 ha _ (by simp)
      · simp at h

end Salt
