import Verif.Lemmas.SessionRun

/-!
# Handshakes: authentication (C34-C39)
-/

set_option linter.unusedSimpArgs false

namespace Salt.Props

open Salt Spec

/-! ### Two concrete runs used in the examples -/

/-- An encryption key pair. -/
def exEnc : KeyPair := ⟨List.replicate 32 1, List.replicate 32 2⟩
/-- A client's signing key pair. -/
def exSigC : KeyPair := ⟨List.replicate 64 3, List.replicate 32 4⟩
/-- A server's signing key pair. -/
def exSigS : KeyPair := ⟨List.replicate 64 10, List.replicate 32 10⟩

/-- A client configuration. -/
def exClient (buffer : Bool) : ClientCfg := ⟨exSigC, some exEnc, buffer, []⟩

/-- What happens to the client: hashes, keys, ciphertexts made up. -/
def exCP : CP where
  t1 := 1
  h1 := List.replicate 64 5
  raw2 := Spec.m2 false false 0 (List.replicate 32 6)
  h2 := List.replicate 64 7
  k := List.replicate 32 8
  p3 := Spec.encrypted false (List.replicate 118 9)
  m3 := Spec.m3 0 (List.replicate 32 10) (List.replicate 64 11)
  x := []
  t4 := 20
  sm := List.replicate 64 12
  c4 := List.replicate 118 13

theorem exClient_good (b : Bool) : CGood (exClient b) exEnc exCP where
  enc := rfl
  pub := by decide
  sec := by decide
  sig := by cases b <;> decide
  m2 := .inr rfl
  nss := by decide
  k := by decide
  p3 := by decide
  p3h := rfl
  m3 := by decide
  m3h := rfl
  sm := by decide

/-- The example client completes. -/
theorem exClient_call (b : Bool) (s : ClientSt) : ∃ tr s', Call (Client.handshake (exClient b)) s tr (.ok ()) s' :=
  let ⟨s', h⟩ := client_runs (exClient_good b) s
  ⟨_, s', h⟩

/-- A server configuration. -/
def exServer (buffer : Bool) : ServerCfg := ⟨exSigS, some exEnc, buffer, none⟩

/-- What happens to the server. -/
def exSP : SP where
  raw1 := Spec.m1 1 (List.replicate 32 6) (some (List.replicate 32 10))
  h1 := List.replicate 64 5
  t0 := 0
  t2 := 1
  t3 := 7
  h2 := List.replicate 64 7
  k := List.replicate 32 8
  sm := List.replicate 64 12
  c3 := List.replicate 118 13
  p4 := Spec.encrypted false (List.replicate 118 9)
  m4 := Spec.m4 0 (List.replicate 32 4) (List.replicate 64 11)
  x := []

theorem exServer_good (b : Bool) : SGood (exServer b) exEnc exSP where
  enc := rfl
  pub := by decide
  sec := by decide
  sig := by cases b <;> decide
  m1 := by decide
  key := by cases b <;> decide
  k := by decide
  p4 := by decide
  p4h := rfl
  m4 := .inr rfl
  sm := by decide

/-- The example server completes. -/
theorem exServer_call (b : Bool) (s : ServerSt) : ∃ tr s', Call (Server.handshake (exServer b)) s tr (.ok ()) s' :=
  let ⟨s', h⟩ := server_runs (exServer_good b) s
  ⟨_, s', h⟩

/-! ### C34, C35 -/

/-- C34: a client handshake that returns normally has sent some M1, received some M2 and one more
packet, decrypted the latter with the session key to an M3, and the signature in this M3 was accepted,
under the server key in this M3 (the one the session reports), over
`SC-SIG01` + hash of the M1 sent + hash of the M2 received. -/
theorem C34_client_verifies_server {cfg : ClientCfg} {s s' : ClientSt} {tr : List (Ev env)}
    (h : Call (Client.handshake cfg) s tr (.ok ()) s') :
    ∃ m1 m2 pkt h1 h2 m3 p,
      (writesOf tr).head? = some ([m1], false) ∧ readsOf tr = [m2, pkt] ∧
      HashedIn m1 h1 tr ∧ HashedIn m2 h2 tr ∧
      OpenedIn (pkt.drop 2) (nonce 2) s'.sessionKey m3 tr ∧ m3.length = 102 ∧ m3.head? = some 3 ∧
      AcceptedIn (field m3 6 32) (field m3 38 64) (scSig01 ++ h1 ++ h2) tr ∧
      s'.m3 = some p ∧ M34.sigKey p = field m3 6 32 := by
  obtain ⟨kp, t1, h1, raw2, m2, h2, k, p3, m3, m3p, x, t4, sm, tail, -, -, -, -, -, -, -, -, hl3, hm3p,
      -, -, rfl, hk, -, -, -, -, hm3, -, hend⟩ := (client_ok h).ex
  obtain ⟨hhd, -, hkey, -⟩ := m34_fields 3 rfl hm3p
  refine ⟨Spec.m1 t1 kp.pub none, raw2, p3, h1, h2, m3, m3p, rfl, ?_, by simp [HashedIn],
    by simp [HashedIn], by simp [OpenedIn, hk], hl3,
    hhd.resolve_left (by intro e; simp [e] at hl3),
    ⟨x, by simp [List.append_assoc]⟩, hm3, hkey⟩
  rcases hend with ⟨-, rfl, -⟩ | ⟨-, -, c4, rfl⟩ <;> rfl

example (b : Bool) : ∃ tr s', Call (Client.handshake (exClient b)) Client.init tr (.ok ()) s' :=
  exClient_call b _

/-- C35: a server handshake that returns normally without having answered an A1 has received some M1
and one more packet, sent some M2, decrypted the packet with the session key to an M4 (the code takes
an empty text for an M4 of zeros and looks at the first 102 bytes only), and the signature in this M4 was accepted, under the client key in this M4 (the one the session reports), over
`SC-SIG02` + hash of the M1 received + hash of the M2 sent. -/
theorem C35_server_verifies_client {cfg : ServerCfg} {s s' : ServerSt} {tr : List (Ev env)}
    (h : Call (Server.handshake cfg) s tr (.ok ()) s') (hd : s'.isDone = false) :
    ∃ m1 m2 enc3 pkt h1 h2 m4,
      readsOf tr = [m1, pkt] ∧ ((writesOf tr).flatMap fun w => w.1) = [m2, enc3] ∧
      HashedIn m1 h1 tr ∧ HashedIn m2 h2 tr ∧
      OpenedIn (pkt.drop 2) (nonce 1) s'.sessionKey m4 tr ∧ (m4 = [] ∨ m4.head? = some 4) ∧
      AcceptedIn (field m4 6 32) (field m4 38 64) (scSig02 ++ h1 ++ h2) tr ∧
      s'.clientSigKey = some (field m4 6 32) := by
  rcases (server_ok h).ex with ⟨raw, e, a1, hm, ha, rfl, rfl⟩ | ⟨kp', raw1, m1, h1, m2, h2, k, mid, p4,
      m4, m4p, x, hkp', -, -, -, hm1, hz, -, hmid, -, -, hm4, rfl, rfl⟩
  · simp at hd
  · have hhd := (m34_fields 4 rfl hm4).1
    cases hmid with
    | plain t2 t3 sm c hb hl hm =>
      exact ⟨raw1, m2, Spec.encrypted false c, p4, h1, h2, m4, rfl, rfl, by simp [HashedIn],
        by simp [HashedIn], by simp [OpenedIn], hhd, ⟨x, by simp [List.append_assoc]⟩, rfl⟩
    | buffered t0 t2 sm c hb hl hm =>
      exact ⟨raw1, m2, Spec.encrypted false c, p4, h1, h2, m4, rfl, rfl, by simp [HashedIn],
        by simp [HashedIn], by simp [OpenedIn], hhd, ⟨x, by simp [List.append_assoc]⟩, rfl⟩

/-- The example server completes without having answered an A1. -/
theorem exServer_call_open (b : Bool) : ∃ tr s', Call (Server.handshake (exServer b)) Server.init tr (.ok ()) s' ∧
    s'.isDone = false := by
  obtain ⟨s', h⟩ := server_runs (exServer_good b) Server.init
  refine ⟨_, s', h, ?_⟩
  have hm1 : ∀ raw, (∃ l, serverFull (exServer b) exEnc exSP = ⟨EnvOp.read, .ok raw⟩ :: l) →
      raw = exSP.raw1 := by
    rintro raw ⟨l, hl⟩
    simp only [serverFull, serverHead, List.cons_append, List.cons.injEq, Ev.mk.injEq, heq_eq_eq,
      Except.ok.injEq, true_and] at hl
    exact hl.1.symm
  rcases (server_ok h).ex with ⟨raw, e, a1, hm, ha, htr, -⟩ | ⟨_, _, _, _, _, _, _, _, _, _, _, _, -, -, -,
    -, -, -, -, -, -, -, -, -, rfl⟩
  · have := congrArg List.length htr
    cases b <;> simp [serverFull, serverHead, serverPlain, serverBuffered, serverTail, exServer] at this
  · rfl

example (b : Bool) : ∃ tr s', Call (Server.handshake (exServer b)) Server.init tr (.ok ()) s' ∧ s'.isDone = false :=
  exServer_call_open b

/-! ### What is signed and what is accepted, in any run -/

theorem client_sign {cfg : ClientCfg} {s s' : ClientSt} {tr : List (Ev env)} {r : Except Err Unit}
    (h : Call (Client.handshake cfg) s tr r s') {m sk : Bytes} {x : Except Err Bytes}
    (hs : ⟨EnvOp.sign m sk, x⟩ ∈ tr) :
    ∃ m1 m2 h1 h2, (writesOf tr).head? = some ([m1], false) ∧ (readsOf tr).head? = some m2 ∧
      HashedIn m1 h1 tr ∧ HashedIn m2 h2 tr ∧ m = scSig02 ++ h1 ++ h2 ∧ sk = cfg.sigKp.sec := by
  cases hkp : cfg.encKp with
  | none =>
    simp only [Call, Client.handshake, Py.bind_run, Client.validate, hkp, Py.raise_run, IT.ret_bind,
      Exec_ret] at h
    rw [h.1] at hs; simp at hs
  | some kp =>
    obtain ⟨p, hc⟩ := client_cut hkp h
    have hpre : ∃ tr', tr = clientPre kp p ++ tr' ∧ Cut (clientPost cfg p) tr' := by
      have key : ∀ (f : List (Ev env)) (tr : List (Ev env)), (∀ e ∈ f, ∀ m sk, e.op ≠ .sign m sk) →
          Cut (f ++ clientPost cfg p) tr → (⟨EnvOp.sign m sk, x⟩ : Ev env) ∈ tr →
          ∃ tr', tr = f ++ tr' ∧ Cut (clientPost cfg p) tr' := by
        intro f
        induction f with
        | nil => intro tr _ hc _; exact ⟨tr, rfl, hc⟩
        | cons a f ih =>
          intro tr hf hc hm
          rcases hc.cons_inv with rfl | ⟨e, rfl⟩ | ⟨tr', rfl, hc'⟩
          · simp at hm
          · simp only [List.mem_singleton] at hm
            exact absurd (congrArg Ev.op hm).symm (hf a (List.mem_cons_self ..) m sk)
          · rcases List.mem_cons.1 hm with hm | hm
            · exact absurd (congrArg Ev.op hm).symm (hf a (List.mem_cons_self ..) m sk)
            · obtain ⟨tr'', rfl, h2⟩ := ih tr' (fun e he => hf e (List.mem_cons_of_mem _ he)) hc' hm
              exact ⟨tr'', rfl, h2⟩
      refine key _ _ ?_ hc hs
      simp [clientPre]
    obtain ⟨tr', rfl, hc'⟩ := hpre
    have hs' : (⟨EnvOp.sign m sk, x⟩ : Ev env) ∈ tr' := by
      rcases List.mem_append.1 hs with h | h
      · simp [clientPre] at h
      · exact h
    obtain ⟨ev, h1, h2⟩ := hc'.mem_op hs'
    simp only [clientPost, List.mem_cons, List.not_mem_nil, or_false] at h1
    rcases h1 with rfl | rfl | rfl | rfl <;> simp only [reduceCtorEq, EnvOp.sign.injEq] at h2
    obtain ⟨rfl, rfl⟩ := h2
    exact ⟨_, _, p.h1, p.h2, rfl, rfl, by simp [HashedIn, clientPre], by simp [HashedIn, clientPre],
      rfl, rfl⟩

theorem client_signOpen {cfg : ClientCfg} {s s' : ClientSt} {tr : List (Ev env)} {r : Except Err Unit}
    (h : Call (Client.handshake cfg) s tr r s') {sm pk : Bytes} {x : Except Err Bytes}
    (hs : ⟨EnvOp.signOpen sm pk, x⟩ ∈ tr) :
    ∃ sig h1 h2, sig.length = 64 ∧ sm = sig ++ (scSig01 ++ h1 ++ h2) := by
  cases hkp : cfg.encKp with
  | none =>
    simp only [Call, Client.handshake, Py.bind_run, Client.validate, hkp, Py.raise_run, IT.ret_bind,
      Exec_ret] at h
    rw [h.1] at hs; simp at hs
  | some kp =>
    obtain ⟨p, hc⟩ := client_cut hkp h
    obtain ⟨ev, h1, h2⟩ := hc.mem_op hs
    simp only [clientPre, clientPost, List.cons_append, List.nil_append, List.mem_cons, List.not_mem_nil,
      or_false] at h1
    rcases h1 with rfl | rfl | rfl | rfl | rfl | rfl | rfl | rfl | rfl | rfl | rfl | rfl | rfl | rfl | rfl
    all_goals simp only [reduceCtorEq, EnvOp.signOpen.injEq] at h2
    obtain ⟨rfl, rfl⟩ := h2
    exact ⟨field p.m3 38 64, p.h1, p.h2, field_length .., by simp [List.append_assoc]⟩

theorem server_sign {cfg : ServerCfg} {s s' : ServerSt} {tr : List (Ev env)} {r : Except Err Unit}
    (h : Call (Server.handshake cfg) s tr r s') {m sk : Bytes} {x : Except Err Bytes}
    (hs : ⟨EnvOp.sign m sk, x⟩ ∈ tr) :
    ∃ m1 m2 h1 h2, (readsOf tr).head? = some m1 ∧
      (∃ t kp, t ∈ firstTimesOf tr ∧ cfg.encKp = some kp ∧ m2 = Spec.m2 false false t kp.pub) ∧
      (∃ p3, ((writesOf tr).flatMap fun w => w.1) <+: [m2, p3]) ∧
      HashedIn m1 h1 tr ∧ HashedIn m2 h2 tr ∧ m = scSig01 ++ h1 ++ h2 ∧ sk = cfg.sigKp.sec := by
  cases hkp : cfg.encKp with
  | none =>
    simp only [Call, Server.handshake, Py.bind_run, Server.validate, hkp, Py.raise_run, IT.ret_bind,
      Exec_ret] at h
    rw [h.1] at hs; simp at hs
  | some kp =>
    have key : ∀ (f g : List (Ev env)) (tr : List (Ev env)), (∀ e ∈ f, ∀ m sk, e.op ≠ .sign m sk) →
        Cut (f ++ g) tr → (⟨EnvOp.sign m sk, x⟩ : Ev env) ∈ tr →
        ∃ tr', tr = f ++ tr' ∧ Cut g tr' := by
      intro f g
      induction f with
      | nil => intro tr _ hc _; exact ⟨tr, rfl, hc⟩
      | cons a f ih =>
        intro tr hf hc hm
        rcases hc.cons_inv with rfl | ⟨e, rfl⟩ | ⟨tr', rfl, hc'⟩
        · simp at hm
        · simp only [List.mem_singleton] at hm
          exact absurd (congrArg Ev.op hm).symm (hf a (List.mem_cons_self ..) m sk)
        · rcases List.mem_cons.1 hm with hm | hm
          · exact absurd (congrArg Ev.op hm).symm (hf a (List.mem_cons_self ..) m sk)
          · obtain ⟨tr'', rfl, h2⟩ := ih tr' (fun e he => hf e (List.mem_cons_of_mem _ he)) hc' hm
            exact ⟨tr'', rfl, h2⟩
    -- the part of the script from the signature on
    have fin : ∀ (p : SP) (mid : List (Ev env)) (ml : List Bytes) (t : Nat) (tr' : List (Ev env)),
        Cut ([⟨.sign (scSig01 ++ p.h1 ++ p.h2) cfg.sigKp.sec, .ok p.sm⟩,
          ⟨.box (Spec.m3 t cfg.sigKp.pub (p.sm.take 64)) (Spec.nonce 2) p.k, .ok p.c3⟩,
          ⟨.write (ml ++ [Spec.encrypted false p.c3]) false, .ok ()⟩] ++ serverTail p) tr' →
        (⟨EnvOp.sign m sk, x⟩ : Ev env) ∈ tr' →
        (m = scSig01 ++ p.h1 ++ p.h2 ∧ sk = cfg.sigKp.sec) ∧
        ((writesOf tr').flatMap fun w => w.1) <+: ml ++ [Spec.encrypted false p.c3] := by
      intro p mid ml t tr' hc hm
      constructor
      · obtain ⟨ev, h1, h2⟩ := hc.mem_op hm
        simp only [serverTail, List.cons_append, List.nil_append, List.mem_cons, List.not_mem_nil,
          or_false] at h1
        rcases h1 with rfl | rfl | rfl | rfl | rfl | rfl | rfl <;>
          simp only [reduceCtorEq, EnvOp.sign.injEq] at h2
        exact ⟨h2.1.symm, h2.2.symm⟩
      · rcases hc.cons_inv with rfl | ⟨e, rfl⟩ | ⟨tr1, rfl, hc1⟩
        · simp [writesOf]
        · simp [writesOf]
        rcases hc1.cons_inv with rfl | ⟨e, rfl⟩ | ⟨tr2, rfl, hc2⟩
        · simp [writesOf]
        · simp [writesOf]
        rcases hc2.cons_inv with rfl | ⟨e, rfl⟩ | ⟨tr3, rfl, hc3⟩
        · simp [writesOf]
        · simp [writesOf]
        have : writesOf tr3 = [] := by
          rcases hc3.cons_inv with rfl | ⟨e, rfl⟩ | ⟨tr4, rfl, hc4⟩ <;> try rfl
          rcases hc4.cons_inv with rfl | ⟨e, rfl⟩ | ⟨tr5, rfl, hc5⟩ <;> try rfl
          rcases hc5.cons_inv with rfl | ⟨e, rfl⟩ | ⟨tr6, rfl, hc6⟩ <;> try rfl
          rcases hc6.cons_inv with rfl | ⟨e, rfl⟩ | ⟨tr7, rfl, hc7⟩ <;> try rfl
          rw [hc7.nil_inv]; rfl
        simp [writesOf, this]
    have hc := server_cut hkp h
    cases hc with
    | bad => simp at hs
    | a1 => simp at hs
    | refuse p e m' hm' hf hk hcut hd he =>
      obtain ⟨ev, h1, h2⟩ := hcut.mem_op hs
      simp only [serverRefuse, serverHead, List.cons_append, List.nil_append, List.mem_cons,
        List.not_mem_nil, or_false] at h1
      rcases h1 with rfl | rfl | rfl | rfl | rfl <;> simp at h2
    | shake p hcut hd hm =>
      cases hb : cfg.bufferM2 with
      | true =>
        simp only [serverFull, hb, if_true] at hcut
        have e : serverHead p ++ serverBuffered cfg kp p ++ serverTail p =
            (serverHead p ++ (serverBuffered cfg kp p).take 4) ++
            ([⟨.sign (scSig01 ++ p.h1 ++ p.h2) cfg.sigKp.sec, .ok p.sm⟩,
              ⟨.box (Spec.m3 p.t2 cfg.sigKp.pub (p.sm.take 64)) (Spec.nonce 2) p.k, .ok p.c3⟩,
              ⟨.write ([Spec.m2 false false p.t2 kp.pub] ++ [Spec.encrypted false p.c3]) false, .ok ()⟩]
              ++ serverTail p) := by
          simp only [serverBuffered, List.append_assoc]; rfl
        rw [e] at hcut
        obtain ⟨tr', rfl, hc'⟩ := key _ _ _ (by simp [serverHead, serverBuffered]) hcut hs
        have hs' : (⟨EnvOp.sign m sk, x⟩ : Ev env) ∈ tr' := by
          rcases List.mem_append.1 hs with h | h
          · simp [serverHead, serverBuffered] at h
          · exact h
        obtain ⟨⟨rfl, rfl⟩, hw⟩ := fin p [] _ _ _ hc' hs'
        refine ⟨p.raw1, Spec.m2 false false p.t2 kp.pub, p.h1, p.h2, rfl, ⟨p.t2, kp, ?_, rfl, rfl⟩,
          ⟨Spec.encrypted false p.c3, ?_⟩, by simp [HashedIn, serverHead], ?_, rfl, rfl⟩
        · exact List.mem_cons_of_mem _ (List.mem_cons_self ..)
        · simpa [writesOf, serverHead, serverBuffered] using hw
        · simp [HashedIn, serverHead, serverBuffered]
      | false =>
        simp only [serverFull, hb, Bool.false_eq_true, if_false] at hcut
        have e : serverHead p ++ serverPlain cfg kp p ++ serverTail p =
            (serverHead p ++ (serverPlain cfg kp p).take 5) ++
            ([⟨.sign (scSig01 ++ p.h1 ++ p.h2) cfg.sigKp.sec, .ok p.sm⟩,
              ⟨.box (Spec.m3 p.t3 cfg.sigKp.pub (p.sm.take 64)) (Spec.nonce 2) p.k, .ok p.c3⟩,
              ⟨.write ([] ++ [Spec.encrypted false p.c3]) false, .ok ()⟩]
              ++ serverTail p) := by
          simp only [serverPlain, List.append_assoc]; rfl
        rw [e] at hcut
        obtain ⟨tr', rfl, hc'⟩ := key _ _ _ (by simp [serverHead, serverPlain]) hcut hs
        have hs' : (⟨EnvOp.sign m sk, x⟩ : Ev env) ∈ tr' := by
          rcases List.mem_append.1 hs with h | h
          · simp [serverHead, serverPlain] at h
          · exact h
        obtain ⟨⟨rfl, rfl⟩, hw⟩ := fin p [] _ _ _ hc' hs'
        refine ⟨p.raw1, Spec.m2 false false p.t2 kp.pub, p.h1, p.h2, rfl, ⟨p.t2, kp, ?_, rfl, rfl⟩,
          ⟨Spec.encrypted false p.c3, ?_⟩, by simp [HashedIn, serverHead], ?_, rfl, rfl⟩
        · exact List.mem_cons_self ..
        · simp only [writesOf, serverHead, serverPlain, List.take_succ_cons, List.take_zero,
            List.cons_append, List.nil_append, List.flatMap_cons, List.flatMap_nil]
          exact (List.prefix_cons_inj _).2 (by simpa using hw)
        · simp [HashedIn, serverHead, serverPlain]

theorem server_signOpen {cfg : ServerCfg} {s s' : ServerSt} {tr : List (Ev env)} {r : Except Err Unit}
    (h : Call (Server.handshake cfg) s tr r s') {sm pk : Bytes} {x : Except Err Bytes}
    (hs : ⟨EnvOp.signOpen sm pk, x⟩ ∈ tr) :
    ∃ sig h1 h2, sig.length = 64 ∧ sm = sig ++ (scSig02 ++ h1 ++ h2) := by
  cases hkp : cfg.encKp with
  | none =>
    simp only [Call, Server.handshake, Py.bind_run, Server.validate, hkp, Py.raise_run, IT.ret_bind,
      Exec_ret] at h
    rw [h.1] at hs; simp at hs
  | some kp =>
    cases server_cut hkp h with
    | bad => simp at hs
    | a1 => simp at hs
    | refuse p e m' hm' hf hk hcut hd he =>
      obtain ⟨ev, h1, h2⟩ := hcut.mem_op hs
      simp only [serverRefuse, serverHead, List.cons_append, List.nil_append, List.mem_cons,
        List.not_mem_nil, or_false] at h1
      rcases h1 with rfl | rfl | rfl | rfl | rfl <;> simp at h2
    | shake p hcut hd hm =>
      obtain ⟨ev, h1, h2⟩ := hcut.mem_op hs
      refine ⟨field p.m4 38 64, p.h1, p.h2, field_length .., ?_⟩
      cases hb : cfg.bufferM2 with
      | true =>
        simp only [serverFull, hb, if_true, serverHead, serverBuffered, serverTail, List.cons_append,
          List.nil_append, List.mem_cons, List.not_mem_nil, or_false] at h1
        rcases h1 with rfl | rfl | rfl | rfl | rfl | rfl | rfl | rfl | rfl | rfl | rfl | rfl | rfl | rfl
        all_goals simp only [reduceCtorEq, EnvOp.signOpen.injEq] at h2
        obtain ⟨rfl, rfl⟩ := h2
        simp [List.append_assoc]
      | false =>
        simp only [serverFull, hb, Bool.false_eq_true, if_false, serverHead, serverPlain, serverTail,
          List.cons_append, List.nil_append, List.mem_cons, List.not_mem_nil, or_false] at h1
        rcases h1 with rfl | rfl | rfl | rfl | rfl | rfl | rfl | rfl | rfl | rfl | rfl | rfl | rfl | rfl | rfl
        all_goals simp only [reduceCtorEq, EnvOp.signOpen.injEq] at h2
        obtain ⟨rfl, rfl⟩ := h2
        simp [List.append_assoc]

/-! ### C37 -/

theorem sig_ne (a b : Bytes) : scSig01 ++ a ≠ scSig02 ++ b := by
  intro h
  have := congrArg (·.take 8) h
  rw [List.take_left' (by decide), List.take_left' (by decide)] at this
  exact absurd this (by decide)

/-- C37: whatever happens in them, what a server signs is never what a server verifies, and what a
client signs is never what a client verifies: the signed part (everything after the 64 signature
bytes) of anything submitted for verification by a client differs from everything any client signs, and
the same for servers.  So a signature made in one role is of no use in the place of the other's. -/
theorem C37_roles_separated :
    (∀ cfg s tr r s', Call (Client.handshake cfg) s tr r s' →
      ∀ cfg₂ s₂ tr₂ r₂ s₂', Call (Client.handshake cfg₂) s₂ tr₂ r₂ s₂' →
      ∀ m sk x sm pk y, ⟨EnvOp.sign m sk, x⟩ ∈ tr → ⟨EnvOp.signOpen sm pk, y⟩ ∈ tr₂ →
        sm.drop 64 ≠ m) ∧
    (∀ cfg s tr r s', Call (Server.handshake cfg) s tr r s' →
      ∀ cfg₂ s₂ tr₂ r₂ s₂', Call (Server.handshake cfg₂) s₂ tr₂ r₂ s₂' →
      ∀ m sk x sm pk y, ⟨EnvOp.sign m sk, x⟩ ∈ tr → ⟨EnvOp.signOpen sm pk, y⟩ ∈ tr₂ →
        sm.drop 64 ≠ m) := by
  constructor
  · intro cfg s tr r s' h cfg₂ s₂ tr₂ r₂ s₂' h₂ m sk x sm pk y hs ho
    obtain ⟨-, -, h1, h2, -, -, -, -, rfl, -⟩ := client_sign h hs
    obtain ⟨sig, g1, g2, hl, rfl⟩ := client_signOpen h₂ ho
    rw [List.drop_left' hl, List.append_assoc, List.append_assoc]
    exact sig_ne _ _
  · intro cfg s tr r s' h cfg₂ s₂ tr₂ r₂ s₂' h₂ m sk x sm pk y hs ho
    obtain ⟨-, -, h1, h2, -, -, -, -, -, rfl, -⟩ := server_sign h hs
    obtain ⟨sig, g1, g2, hl, rfl⟩ := server_signOpen h₂ ho
    rw [List.drop_left' hl, List.append_assoc, List.append_assoc]
    exact (sig_ne _ _).symm

/-- Both kinds of events do occur: in the example runs. -/
example : (∃ cfg s tr r s', Call (Client.handshake cfg) s tr r s' ∧ (∃ m sk x, ⟨EnvOp.sign m sk, x⟩ ∈ tr) ∧
      ∃ sm pk y, ⟨EnvOp.signOpen sm pk, y⟩ ∈ tr) ∧
    (∃ cfg s tr r s', Call (Server.handshake cfg) s tr r s' ∧ (∃ m sk x, ⟨EnvOp.sign m sk, x⟩ ∈ tr) ∧
      ∃ sm pk y, ⟨EnvOp.signOpen sm pk, y⟩ ∈ tr) := by
  constructor
  · obtain ⟨s', h⟩ := client_runs (exClient_good false) Client.init
    refine ⟨_, _, _, _, s', h, ⟨scSig02 ++ exCP.h1 ++ exCP.h2, exSigC.sec, .ok exCP.sm, ?_⟩,
      field exCP.m3 38 64 ++ scSig01 ++ exCP.h1 ++ exCP.h2, field exCP.m3 6 32, .ok exCP.x, ?_⟩ <;>
      simp [clientPre, clientPost, exClient]
  · obtain ⟨s', h⟩ := server_runs (exServer_good false) Server.init
    refine ⟨_, _, _, _, s', h, ⟨scSig01 ++ exSP.h1 ++ exSP.h2, exSigS.sec, .ok exSP.sm, ?_⟩,
      field exSP.m4 38 64 ++ scSig02 ++ exSP.h1 ++ exSP.h2, field exSP.m4 6 32, .ok exSP.x, ?_⟩ <;>
      simp [serverFull, serverHead, serverPlain, serverTail, exServer]

end Salt.Props
