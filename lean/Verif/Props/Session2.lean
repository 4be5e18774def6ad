import Verif.Props.Session1
import Verif.Lemmas.Ops

/-!
# Handshakes: matching transcripts and identity protection (C36, C38, C39)
-/

set_option linter.unusedSimpArgs false

namespace Salt.Props

open Salt Spec

/-! ### C36 -/

theorem hash_split {a b c d : Bytes} (h1 : a.length = 64) (h2 : c.length = 64) (p : Bytes)
    (h : p ++ a ++ b = p ++ c ++ d) : a = c ∧ b = d := by
  rw [List.append_assoc, List.append_assoc, List.append_cancel_left_eq] at h
  exact List.append_inj h (h1.trans h2.symm)

/-- C36, client side.  `srv` and `cli` are the runs of handshakes in which the secret key `sk` was used
to sign, as a server and as a client; each is a run of the modelled code, against any environment.
Assume that what this client accepted under the public key `pk` had been signed with `sk` in one of
these runs, that hash values have 64 bytes, and that no value the client computed as a hash was computed
from another message in the server runs.  If the client completes and reports `pk` as the server's key,
then one of the server runs is about the same M1 and M2: it received the M1 sent and made the M2 received
by the client, byte by byte, and if it wrote a first message, it wrote this M2. -/
theorem C36_client_matching {cfg : ClientCfg} {s s' : ClientSt} {tr : List (Ev env)} {pk sk : Bytes}
    {p : Packet} {srv cli : List (Ev env) → Prop}
    (hsrv : ∀ t, srv t → ∃ cfg s r s', Call (Server.handshake cfg) s t r s')
    (hcli : ∀ t, cli t → ∃ cfg s r s', Call (Client.handshake cfg) s t r s')
    (hsig : ∀ sm x, ⟨EnvOp.signOpen sm pk, .ok x⟩ ∈ tr →
      ∃ t, (srv t ∨ cli t) ∧ SignedIn sk (sm.drop 64) t)
    (hlen : ∀ t, t = tr ∨ srv t → ∀ m h, HashedIn m h t → h.length = 64)
    (hcoll : ∀ t, srv t → ∀ a b h, HashedIn a h tr → HashedIn b h t → a = b)
    (h : Call (Client.handshake cfg) s tr (.ok ()) s') (hp : s'.m3 = some p) (hpk : M34.sigKey p = pk) :
    ∃ m1 m2 t, (writesOf tr).head? = some ([m1], false) ∧ (readsOf tr).head? = some m2 ∧
      srv t ∧ (readsOf t).head? = some m1 ∧
      (∃ u k, u ∈ firstTimesOf t ∧ m2 = Spec.m2 false false u k) ∧
      (∃ enc3, ((writesOf t).flatMap fun w => w.1) <+: [m2, enc3]) := by
  obtain ⟨m1, m2, pkt, h1, h2, m3, p', hw, hr, hh1, hh2, -, -, -, ⟨x, hx⟩, hm3, hkey⟩ :=
    C34_client_verifies_server h
  rw [hp, Option.some.injEq] at hm3
  subst hm3
  rw [← hkey, hpk] at hx
  obtain ⟨t, ht, y, hy⟩ := hsig _ _ hx
  rw [List.drop_left' (field_length ..)] at hy
  rcases ht with ht | ht
  · obtain ⟨cfgS, sS, rS, sS', hS⟩ := hsrv t ht
    obtain ⟨n1, n2, g1, g2, hread, ⟨u, kp, hu, -, hn2⟩, hw', hg1, hg2, hmsg, -⟩ := server_sign hS hy
    obtain ⟨rfl, rfl⟩ := hash_split (hlen _ (.inl rfl) _ _ hh1) (hlen _ (.inr ht) _ _ hg1) _ hmsg
    have e1 := hcoll t ht _ _ _ hh1 hg1
    have e2 := hcoll t ht _ _ _ hh2 hg2
    subst e1 e2
    exact ⟨m1, m2, t, hw, by rw [hr]; rfl, ht, hread, ⟨u, kp.pub, hu, hn2⟩, hw'⟩
  · obtain ⟨cfgC, sC, rC, sC', hC⟩ := hcli t ht
    obtain ⟨n1, n2, g1, g2, -, -, -, -, hmsg, -⟩ := client_sign hC hy
    rw [List.append_assoc, List.append_assoc] at hmsg
    exact absurd hmsg (sig_ne _ _)

/-- C36, server side: as above with the roles exchanged. -/
theorem C36_server_matching {cfg : ServerCfg} {s s' : ServerSt} {tr : List (Ev env)} {pk sk : Bytes}
    {srv cli : List (Ev env) → Prop}
    (hsrv : ∀ t, srv t → ∃ cfg s r s', Call (Server.handshake cfg) s t r s')
    (hcli : ∀ t, cli t → ∃ cfg s r s', Call (Client.handshake cfg) s t r s')
    (hsig : ∀ sm x, ⟨EnvOp.signOpen sm pk, .ok x⟩ ∈ tr →
      ∃ t, (srv t ∨ cli t) ∧ SignedIn sk (sm.drop 64) t)
    (hlen : ∀ t, t = tr ∨ cli t → ∀ m h, HashedIn m h t → h.length = 64)
    (hcoll : ∀ t, cli t → ∀ a b h, HashedIn a h tr → HashedIn b h t → a = b)
    (h : Call (Server.handshake cfg) s tr (.ok ()) s') (hd : s'.isDone = false)
    (hpk : s'.clientSigKey = some pk) :
    ∃ m1 m2 enc3 t, (readsOf tr).head? = some m1 ∧
      ((writesOf tr).flatMap fun w => w.1) = [m2, enc3] ∧
      cli t ∧ (writesOf t).head? = some ([m1], false) ∧ (readsOf t).head? = some m2 := by
  obtain ⟨m1, m2, enc3, pkt, h1, h2, m4, hr, hw, hh1, hh2, -, -, ⟨x, hx⟩, hkey⟩ :=
    C35_server_verifies_client h hd
  rw [hpk, Option.some.injEq] at hkey
  rw [← hkey] at hx
  obtain ⟨t, ht, y, hy⟩ := hsig _ _ hx
  rw [List.drop_left' (field_length ..)] at hy
  rcases ht with ht | ht
  · obtain ⟨cfgS, sS, rS, sS', hS⟩ := hsrv t ht
    obtain ⟨n1, n2, g1, g2, -, -, -, -, -, hmsg, -⟩ := server_sign hS hy
    rw [List.append_assoc, List.append_assoc] at hmsg
    exact absurd hmsg.symm (sig_ne _ _)
  · obtain ⟨cfgC, sC, rC, sC', hC⟩ := hcli t ht
    obtain ⟨n1, n2, g1, g2, hw', hread, hg1, hg2, hmsg, -⟩ := client_sign hC hy
    obtain ⟨rfl, rfl⟩ := hash_split (hlen _ (.inl rfl) _ _ hh1) (hlen _ (.inr ht) _ _ hg1) _ hmsg
    have e1 := hcoll t ht _ _ _ hh1 hg1
    have e2 := hcoll t ht _ _ _ hh2 hg2
    subst e1 e2
    exact ⟨m1, m2, enc3, t, by rw [hr]; rfl, hw, ht, hw', hread⟩

/-! A matching pair of runs. -/

/-- The peer's encryption key pair in the matching run. -/
def exEncS : KeyPair := ⟨List.replicate 32 9, List.replicate 32 6⟩

/-- The server run matching `exCP`. -/
def exSP' : SP := { exSP with
  raw1 := Spec.m1 1 exEnc.pub none
  t2 := 0 }

theorem exServer'_good : SGood ⟨exSigS, some exEncS, false, none⟩ exEncS exSP' where
  enc := rfl
  pub := by decide
  sec := by decide
  sig := by decide
  m1 := by decide
  key := by decide
  k := by decide
  p4 := by decide
  p4h := rfl
  m4 := .inr rfl
  sm := by decide

theorem exC_hashes (b : Bool) {m h : Bytes}
    (hm : HashedIn m h (clientPre exEnc exCP ++
      if (exClient b).bufferM4 then (clientPost (exClient b) exCP).take 2 else clientPost (exClient b) exCP)) :
    (m = Spec.m1 1 exEnc.pub none ∧ h = List.replicate 64 5) ∨
    (m = Spec.m2 false false 0 exEncS.pub ∧ h = List.replicate 64 7) := by
  cases b <;>
  · simp [HashedIn, clientPre, clientPost, exClient, exCP] at hm
    exact hm

theorem exS_hashes {m h : Bytes}
    (hm : HashedIn m h (serverFull ⟨exSigS, some exEncS, false, none⟩ exEncS exSP')) :
    (m = Spec.m1 1 exEnc.pub none ∧ h = List.replicate 64 5) ∨
    (m = Spec.m2 false false 0 exEncS.pub ∧ h = List.replicate 64 7) := by
  simp [HashedIn, serverFull, serverHead, serverPlain, serverTail, exSP', exSP] at hm
  exact hm

theorem rep_ne : (List.replicate 64 5 : Bytes) ≠ List.replicate 64 7 := by decide

/-- The hypotheses of C36 (client) are met by the example client and one server run. -/
example : ∃ (cfg : ClientCfg) (s s' : ClientSt) (tr : List (Ev env)) (pk sk : Bytes) (p : Packet)
    (srv cli : List (Ev env) → Prop),
    (∀ t, srv t → ∃ cfg s r s', Call (Server.handshake cfg) s t r s') ∧
    (∀ t, cli t → ∃ cfg s r s', Call (Client.handshake cfg) s t r s') ∧
    (∀ sm x, ⟨EnvOp.signOpen sm pk, .ok x⟩ ∈ tr → ∃ t, (srv t ∨ cli t) ∧ SignedIn sk (sm.drop 64) t) ∧
    (∀ t, t = tr ∨ srv t → ∀ m h, HashedIn m h t → h.length = 64) ∧
    (∀ t, srv t → ∀ a b h, HashedIn a h tr → HashedIn b h t → a = b) ∧
    Call (Client.handshake cfg) s tr (.ok ()) s' ∧ s'.m3 = some p ∧ M34.sigKey p = pk := by
  obtain ⟨sS, hS⟩ := server_runs exServer'_good Server.init
  obtain ⟨s', h⟩ := client_runs (exClient_good false) Client.init
  obtain ⟨m1, m2, pkt, h1, h2, m3, p, -, -, -, -, -, -, -, -, hp, hkey⟩ := C34_client_verifies_server h
  refine ⟨_, _, s', _, _, exSigS.sec, p, (· = serverFull ⟨exSigS, some exEncS, false, none⟩ exEncS exSP'),
    fun _ => False, ?_, ?_, ?_, ?_, ?_, h, hp, rfl⟩
  · rintro t rfl; exact ⟨_, _, _, _, hS⟩
  · exact fun t ht => ht.elim
  · intro sm x hx
    refine ⟨_, .inl rfl, exSP'.sm, ?_⟩
    have : sm = field exCP.m3 38 64 ++ (scSig01 ++ exCP.h1 ++ exCP.h2) := by
      simp [clientPre, clientPost, exClient] at hx
      rw [hx.1.1, List.append_assoc]
    rw [this, List.drop_left' (field_length ..)]
    simp [serverFull, serverHead, serverPlain, serverTail, exSP', exSP, exCP]
  · intro t ht m h' hm
    rcases ht with rfl | rfl
    · rcases exC_hashes false hm with ⟨-, rfl⟩ | ⟨-, rfl⟩ <;> rfl
    · rcases exS_hashes hm with ⟨-, rfl⟩ | ⟨-, rfl⟩ <;> rfl
  · rintro t rfl a b h' ha hb
    rcases exC_hashes false ha with ⟨rfl, rfl⟩ | ⟨rfl, rfl⟩ <;> rcases exS_hashes hb with ⟨rfl, e⟩ | ⟨rfl, e⟩
    · rfl
    · exact absurd e rep_ne
    · exact absurd e.symm rep_ne
    · rfl

/-- The hypotheses of C36 (server) are met by the example server and one client run. -/
example : ∃ (cfg : ServerCfg) (s s' : ServerSt) (tr : List (Ev env)) (pk sk : Bytes)
    (srv cli : List (Ev env) → Prop),
    (∀ t, srv t → ∃ cfg s r s', Call (Server.handshake cfg) s t r s') ∧
    (∀ t, cli t → ∃ cfg s r s', Call (Client.handshake cfg) s t r s') ∧
    (∀ sm x, ⟨EnvOp.signOpen sm pk, .ok x⟩ ∈ tr → ∃ t, (srv t ∨ cli t) ∧ SignedIn sk (sm.drop 64) t) ∧
    (∀ t, t = tr ∨ cli t → ∀ m h, HashedIn m h t → h.length = 64) ∧
    (∀ t, cli t → ∀ a b h, HashedIn a h tr → HashedIn b h t → a = b) ∧
    Call (Server.handshake cfg) s tr (.ok ()) s' ∧ s'.isDone = false ∧ s'.clientSigKey = some pk := by
  obtain ⟨sS, hS⟩ := server_runs exServer'_good Server.init
  obtain ⟨s', h⟩ := client_runs (exClient_good false) Client.init
  have hd : sS.isDone = false := by
    rcases (server_ok hS).ex with ⟨raw, e, a1, hm, ha, htr, -⟩ | ⟨_, _, _, _, _, _, _, _, _, _, _, _, -, -, -,
      -, -, -, -, -, -, -, -, -, rfl⟩
    · have := congrArg List.length htr
      simp [serverFull, serverHead, serverPlain, serverTail] at this
    · rfl
  obtain ⟨m1, m2, enc3, pkt, h1, h2, m4, -, -, -, -, -, -, -, hkey⟩ := C35_server_verifies_client hS hd
  refine ⟨_, _, sS, _, _, exSigC.sec, fun _ => False,
    (· = clientPre exEnc exCP ++ if (exClient false).bufferM4 then (clientPost (exClient false) exCP).take 2
      else clientPost (exClient false) exCP),
    ?_, ?_, ?_, ?_, ?_, hS, hd, hkey⟩
  · exact fun t ht => ht.elim
  · rintro t rfl; exact ⟨_, _, _, _, h⟩
  · intro sm x hx
    refine ⟨_, .inr rfl, exCP.sm, ?_⟩
    have : sm = field exSP'.m4 38 64 ++ (scSig02 ++ exSP'.h1 ++ exSP'.h2) := by
      simp [serverFull, serverHead, serverPlain, serverTail] at hx
      rw [hx.1.1, List.append_assoc]
    rw [this, List.drop_left' (field_length ..)]
    simp [clientPre, clientPost, exClient, exSP', exSP, exCP]
  · intro t ht m h' hm
    rcases ht with rfl | rfl
    · rcases exS_hashes hm with ⟨-, rfl⟩ | ⟨-, rfl⟩ <;> rfl
    · rcases exC_hashes false hm with ⟨-, rfl⟩ | ⟨-, rfl⟩ <;> rfl
  · rintro t rfl a b h' ha hb
    rcases exS_hashes ha with ⟨rfl, rfl⟩ | ⟨rfl, rfl⟩ <;> rcases exC_hashes false hb with ⟨rfl, e⟩ | ⟨rfl, e⟩
    · rfl
    · exact absurd e rep_ne
    · exact absurd e.symm rep_ne
    · rfl

/-! ### C38 -/

/-- C38: in every run of a client handshake, whatever its outcome, what the client writes is either an
M1 made of the first time and the ephemeral encryption key, or it is written after a server signature
has been accepted. -/
theorem C38_identity_after_verification {cfg : ClientCfg} {s s' : ClientSt} {r : Except Err Unit}
    {tr1 tr2 : List (Ev env)} {ms : List Bytes} {l : Bool} {w : Except Err Unit}
    (h : Call (Client.handshake cfg) s (tr1 ++ ⟨.write ms l, w⟩ :: tr2) r s') :
    (∃ t kp, cfg.encKp = some kp ∧ firstTimesOf tr1 = [t] ∧ ms = [Spec.m1 t kp.pub none] ∧ l = false) ∨
    ∃ m1 h1 m2 h2 sig pk, ⟨.write [m1] false, .ok ()⟩ ∈ tr1 ∧ ⟨.read, .ok m2⟩ ∈ tr1 ∧
      HashedIn m1 h1 tr1 ∧ HashedIn m2 h2 tr1 ∧ AcceptedIn pk sig (scSig01 ++ h1 ++ h2) tr1 := by
  cases hkp : cfg.encKp with
  | none =>
    simp only [Call, Client.handshake, Py.bind_run, Client.validate, hkp, Py.raise_run, IT.ret_bind,
      Exec_ret] at h
    simp at h
  | some kp =>
    obtain ⟨p, hc⟩ := client_cut hkp h
    obtain ⟨x, g, e⟩ := Cut.split hc
    rcases List.append_eq_append_iff.1 e with ⟨a, rfl, -⟩ | ⟨a, ha, hb⟩
    · refine .inr ⟨Spec.m1 p.t1 kp.pub none, p.h1, p.raw2, p.h2, field p.m3 38 64, field p.m3 6 32, ?_, ?_, ?_, ?_, p.x, ?_⟩
      rotate_left
      · exact List.mem_append_left _ (by simp [clientPre])
      · exact List.mem_append_left _ (by simp [clientPre])
      · exact List.mem_append_left _ (by simp [clientPre])
      · exact List.mem_append_left _ (by simp [clientPre])
      · exact List.mem_append_left _ (by simp [clientPre])
    · cases a with
      | nil => simp [clientPost] at hb
      | cons b a =>
        obtain ⟨rfl, -⟩ : (⟨.write ms l, x⟩ : Ev env) = b ∧ _ := by simpa using hb
        have hm : (⟨.write ms l, x⟩ : Ev env) ∈ clientPre kp p := by rw [ha]; simp
        simp [clientPre] at hm
        obtain ⟨⟨rfl, rfl⟩, -⟩ := hm
        refine .inl ⟨p.t1, kp, rfl, ?_, rfl, rfl⟩
        simp only [clientPre] at ha
        rcases tr1 with _ | ⟨c, _ | ⟨d, tr1⟩⟩
        · simp at ha
        · simp at ha
        · simp only [List.cons_append, List.cons.injEq] at ha
          obtain ⟨rfl, rfl, ha⟩ := ha
          rcases tr1 with _ | ⟨c, tr1⟩
          · rfl
          · simp only [List.cons_append, List.cons.injEq] at ha
            have : (⟨.write [Spec.m1 p.t1 kp.pub none] false, x⟩ : Ev env) ∈
                tr1 ++ ⟨.write [Spec.m1 p.t1 kp.pub none] false, x⟩ :: a := by simp
            rw [← ha.2] at this
            simp at this

/-- C38: a client handshake that raises has written nothing but M1. -/
theorem C38_failure_wrote_only_M1 {cfg : ClientCfg} {s s' : ClientSt} {e : Err} {tr : List (Ev env)}
    (h : Call (Client.handshake cfg) s tr (.error e) s') {ms : List Bytes} {l : Bool}
    (hw : ⟨.write ms l, .ok ()⟩ ∈ tr) :
    ∃ t kp, cfg.encKp = some kp ∧ ⟨.firstTime, .ok t⟩ ∈ tr ∧ ms = [Spec.m1 t kp.pub none] ∧ l = false := by
  unfold Call Client.handshake at h
  rw [Exec_py_bind_err] at h
  rcases h with h0 | ⟨tr0, kp, s0, tr, rfl, h0, h⟩
  · unfold Client.validate at h0
    cases hkp : cfg.encKp <;> rw [hkp] at h0 <;> simp at h0
    rw [h0.1] at hw; simp at hw
  have hkp : cfg.encKp = some kp ∧ tr0 = [] := by
    unfold Client.validate at h0
    cases hkp : cfg.encKp <;> rw [hkp] at h0 <;> simp at h0
    exact ⟨congrArg some h0.2.1, h0.1⟩
  obtain ⟨hkp, rfl⟩ := hkp
  simp only [List.nil_append] at hw ⊢
  rw [Exec_py_bind_err] at h
  rcases h with h | ⟨tr1, _, s1, tr2, rfl, h1, h⟩
  · exact absurd hw (c_doM1_quietFail kp _ _ _ _ h _ _)
  · obtain ⟨t, h1', -, rfl, -⟩ := c_doM1_ok h1
    rcases List.mem_append.1 hw with hw | hw
    · refine ⟨t, kp, hkp, by simp, ?_⟩
      simpa using hw
    · exact absurd hw (c_rest_quietFail cfg kp _ _ _ _ h _ _)

/-- `m'` can do whatever `m` can do without having had a signature accepted. -/
def SameUnverified {σ α : Type} (m m' : Py env σ α) : Prop :=
  ∀ s tr b, (∀ sm pk x, ⟨EnvOp.signOpen sm pk, .ok x⟩ ∉ tr) → Exec (m s) tr b → Exec (m' s) tr b

theorem SameUnverified.bind {σ α β : Type} {m : Py env σ α} {f f' : α → Py env σ β}
    (h : ∀ a, SameUnverified (f a) (f' a)) : SameUnverified (m >>= f) (m >>= f') := by
  intro s tr b hn hx
  rw [Py.bind_run, Exec_bind] at hx ⊢
  obtain ⟨tr1, ⟨r, s1⟩, tr2, rfl, h1, h2⟩ := hx
  refine ⟨tr1, (r, s1), tr2, rfl, h1, ?_⟩
  cases r with
  | error e => exact h2
  | ok a => exact h a _ _ _ (fun sm pk x hm => hn sm pk x (List.mem_append_right _ hm)) h2

/-- C38: until a server signature has been accepted, the client's signing key pair makes no difference
at all: what a client can do, another client with any other signing key pair can do as well (against the
same answers), with the same result and the same attributes. -/
theorem C38_unverified_noninterference {cfg : ClientCfg} {s s' : ClientSt} {r : Except Err Unit}
    {tr : List (Ev env)} (h : Call (Client.handshake cfg) s tr r s')
    (hn : ∀ sm pk x, ⟨EnvOp.signOpen sm pk, .ok x⟩ ∉ tr) (kp : KeyPair) :
    Call (Client.handshake { cfg with sigKp := kp }) s tr r s' := by
  refine SameUnverified.bind (m := Client.validate cfg) (fun encKp => SameUnverified.bind fun _ =>
    SameUnverified.bind fun b => ?_) s tr _ hn h
  cases b with
  | false => exact fun _ _ _ _ h => h
  | true =>
    refine SameUnverified.bind fun _ => SameUnverified.bind fun _ => ?_
    intro s tr b hn hx
    rw [Py.bind_run, Exec_bind] at hx ⊢
    obtain ⟨tr1, ⟨r, s1⟩, tr2, rfl, h1, h2⟩ := hx
    refine ⟨tr1, (r, s1), tr2, rfl, h1, ?_⟩
    cases r with
    | error e => exact h2
    | ok a =>
      exfalso
      unfold Client.validateSignature1 at h1
      simp only [Py.bind_run, Py.getSt_run, IT.ret_bind] at h1
      cases hm : s.m3 with
      | none => rw [hm] at h1; simp at h1
      | some m3 =>
        rw [hm] at h1
        simp only [Py.onError, Py.bind_run, Py.call_run, IT.op_bind, IT.ret_bind] at h1
        rw [Exec_op] at h1
        obtain ⟨r, tr, rfl, h1⟩ := h1
        cases r with
        | ok x => exact hn _ _ _ (List.mem_append_left _ (List.mem_cons_self ..))
        | error e =>
          simp only [IT.ret_bind] at h1
          split at h1 <;> simp at h1

/-- A run in which the server's signature is not accepted: everything went well so far, then
`crypto_sign_open` raises. -/
example : ∃ cfg s tr r s', Call (Client.handshake cfg) s tr r s' ∧ tr.length = 11 ∧
    ∀ sm pk x, ⟨EnvOp.signOpen sm pk, .ok x⟩ ∉ tr := by
  obtain ⟨s', h⟩ := client_runs (exClient_good false) Client.init
  obtain ⟨tr3, ⟨r, s1⟩, h⟩ := Exec_swap (S := env) (tr1 := (clientPre exEnc exCP).take 10)
    (tr2 := clientPost (exClient false) exCP) h (.error .badSignature)
  obtain ⟨p, hc⟩ := client_cut rfl h
  have h3 := Cut.after_error hc (by simp [clientPre, clientPost])
  subst h3
  exact ⟨_, _, _, _, _, h, rfl, by simp [clientPre]⟩

/-- The example client writes M1 and then, after verification, M4. -/
example : ∃ cfg s tr1 tr2 m l w r s', Call (Client.handshake cfg) s (tr1 ++ ⟨.write m l, w⟩ :: tr2) r s' ∧
    (writesOf tr1).length = 1 := by
  obtain ⟨s', h⟩ := client_runs (exClient_good false) Client.init
  exact ⟨_, _, clientPre exEnc exCP ++ (clientPost (exClient false) exCP).take 3, [],
    [Spec.encrypted false exCP.c4], false, .ok (), _, s', h, rfl⟩

/-! ### C39 -/

theorem clearOf_nil : clearOf [] = [] := rfl

/-- C39, client: whatever happens, a client sends at most one message in the clear, and it is an M1 made
of the first time and the ephemeral encryption key. -/
theorem C39_client_clear {cfg : ClientCfg} {kp : KeyPair} (hkp : cfg.encKp = some kp) {s s' : ClientSt}
    {r : Except Err Unit} {tr : List (Ev env)} (h : Call (Client.handshake cfg) s tr r s') :
    clearOf tr = [] ∨ ∃ t, firstTimesOf tr = [t] ∧ clearOf tr = [Spec.m1 t kp.pub none] := by
  obtain ⟨p, hc⟩ := client_cut hkp h
  obtain ⟨t1, h1, raw2, h2, k, p3, m3, x, t4, sm, c4⟩ := p
  simp only [clientPre, clientPost, List.cons_append, List.nil_append] at hc
  have hm1 : (Spec.m1 t1 kp.pub none).head? != some 6 := rfl
  have h6 : ∀ c, ((Spec.encrypted false c).head? != some 6) = false := fun c => rfl
  rcases hc.cons_inv with rfl | ⟨e, rfl⟩ | ⟨tr, rfl, hc1⟩
  · exact .inl rfl
  · exact .inl rfl
  rcases hc1.cons_inv with rfl | ⟨e, rfl⟩ | ⟨tr, rfl, hc2⟩
  · exact .inl rfl
  · exact .inl rfl
  rcases hc2.cons_inv with rfl | ⟨e, rfl⟩ | ⟨tr, rfl, hc3⟩
  · exact .inl rfl
  · exact .inr ⟨t1, rfl, rfl⟩
  refine .inr ⟨t1, ?_⟩
  have key : firstTimesOf tr = [] ∧ clearOf tr = [] := by
    clear hc hc1 hc2 h
    rcases hc3.cons_inv with rfl | ⟨e, rfl⟩ | ⟨tr, rfl, hc4⟩ <;> try exact ⟨rfl, rfl⟩
    rcases hc4.cons_inv with rfl | ⟨e, rfl⟩ | ⟨tr, rfl, hc5⟩ <;> try exact ⟨rfl, rfl⟩
    rcases hc5.cons_inv with rfl | ⟨e, rfl⟩ | ⟨tr, rfl, hc6⟩ <;> try exact ⟨rfl, rfl⟩
    rcases hc6.cons_inv with rfl | ⟨e, rfl⟩ | ⟨tr, rfl, hc7⟩ <;> try exact ⟨rfl, rfl⟩
    rcases hc7.cons_inv with rfl | ⟨e, rfl⟩ | ⟨tr, rfl, hc8⟩ <;> try exact ⟨rfl, rfl⟩
    rcases hc8.cons_inv with rfl | ⟨e, rfl⟩ | ⟨tr, rfl, hc9⟩ <;> try exact ⟨rfl, rfl⟩
    rcases hc9.cons_inv with rfl | ⟨e, rfl⟩ | ⟨tr, rfl, hc10⟩ <;> try exact ⟨rfl, rfl⟩
    rcases hc10.cons_inv with rfl | ⟨e, rfl⟩ | ⟨tr, rfl, hc11⟩ <;> try exact ⟨rfl, rfl⟩
    rcases hc11.cons_inv with rfl | ⟨e, rfl⟩ | ⟨tr, rfl, hc12⟩ <;> try exact ⟨rfl, rfl⟩
    rcases hc12.cons_inv with rfl | ⟨e, rfl⟩ | ⟨tr, rfl, hc13⟩ <;> try exact ⟨rfl, rfl⟩
    rcases hc13.cons_inv with rfl | ⟨e, rfl⟩ | ⟨tr, rfl, hc14⟩ <;> try exact ⟨rfl, rfl⟩
    rcases hc14.cons_inv with rfl | ⟨e, rfl⟩ | ⟨tr, rfl, hc15⟩ <;> try exact ⟨rfl, rfl⟩
    rw [hc15.nil_inv]
    exact ⟨rfl, rfl⟩
  refine ⟨?_, ?_⟩
  · exact congrArg (t1 :: ·) key.1
  · have : clearOf (⟨EnvOp.firstTime, .ok t1⟩ :: ⟨EnvOp.hash (Spec.m1 t1 kp.pub none), .ok h1⟩ ::
        ⟨EnvOp.write [Spec.m1 t1 kp.pub none] false, .ok ()⟩ :: tr) = Spec.m1 t1 kp.pub none :: clearOf tr := by
      simp only [clearOf, writesOf, List.flatMap_cons, List.singleton_append, List.filter_cons]
      rw [if_pos hm1]
    rw [this, key.2]

/-- C39, server: the only message a completed handshake sends in the clear is an M2 made of the last first
time and the ephemeral encryption key. -/
theorem C39_server_clear {cfg : ServerCfg} {kp : KeyPair} (hkp : cfg.encKp = some kp) {s s' : ServerSt}
    {tr : List (Ev env)} (h : Call (Server.handshake cfg) s tr (.ok ()) s') (hd : s'.isDone = false) :
    ∃ t, (firstTimesOf tr).getLast? = some t ∧ clearOf tr = [Spec.m2 false false t kp.pub] := by
  rcases (server_ok h).ex with ⟨raw, e, a1, hm, ha, rfl, rfl⟩ | ⟨kp', raw1, m1, h1, m2, h2, k, mid, p4,
      m4, m4p, x, hkp', -, -, -, hm1, hz, -, hmid, -, -, -, rfl, rfl⟩
  · simp at hd
  · rw [hkp, Option.some.injEq] at hkp'
    subst hkp'
    cases hmid with
    | plain t2 t3 sm c hb hl hm => subst hm; exact ⟨t2, rfl, rfl⟩
    | buffered t0 t2 sm c hb hl hm => subst hm; exact ⟨t2, rfl, rfl⟩

/-- C39: two clients with the same encryption key pair and the same first time, but any signing key pairs,
that both got to sending their first message, send the same clear text. -/
theorem C39_client_identities {cfg cfg' : ClientCfg} (hkp : cfg.encKp = cfg'.encKp)
    {s s' u u' : ClientSt} {r q : Except Err Unit} {tr tr' : List (Ev env)}
    (h : Call (Client.handshake cfg) s tr r s') (h' : Call (Client.handshake cfg') u tr' q u')
    (ht : firstTimesOf tr = firstTimesOf tr') (hn : clearOf tr ≠ []) (hn' : clearOf tr' ≠ []) :
    clearOf tr = clearOf tr' := by
  cases hk : cfg.encKp with
  | none =>
    simp only [Call, Client.handshake, Py.bind_run, Client.validate, hk, Py.raise_run, IT.ret_bind,
      Exec_ret] at h
    rw [h.1] at hn; exact absurd rfl hn
  | some kp =>
    rcases C39_client_clear hk h with h1 | ⟨t, h1, h2⟩
    · exact absurd h1 hn
    rcases C39_client_clear (hkp ▸ hk) h' with h1' | ⟨t', h1', h2'⟩
    · exact absurd h1' hn'
    rw [h1, h1', List.cons.injEq] at ht
    rw [h2, h2', ht.1]

/-- C39: two servers with the same encryption key pair and the same first times, but any signing key pairs,
that both complete a handshake, send the same clear text. -/
theorem C39_server_identities {cfg cfg' : ServerCfg} (hkp : cfg.encKp = cfg'.encKp)
    {s s' u u' : ServerSt} {tr tr' : List (Ev env)}
    (h : Call (Server.handshake cfg) s tr (.ok ()) s') (hd : s'.isDone = false)
    (h' : Call (Server.handshake cfg') u tr' (.ok ()) u') (hd' : u'.isDone = false)
    (ht : firstTimesOf tr = firstTimesOf tr') :
    clearOf tr = clearOf tr' := by
  cases hk : cfg.encKp with
  | none =>
    simp only [Call, Server.handshake, Py.bind_run, Server.validate, hk, Py.raise_run, IT.ret_bind,
      Exec_ret] at h
    simp at h
  | some kp =>
    obtain ⟨t, h1, h2⟩ := C39_server_clear hk h hd
    obtain ⟨t', h1', h2'⟩ := C39_server_clear (hkp ▸ hk) h' hd'
    rw [ht, h1', Option.some.injEq] at h1
    rw [h2, h2', h1]

theorem clientFull_clear (cfg : ClientCfg) (kp : KeyPair) (p : CP) :
    firstTimesOf (clientPre kp p ++ clientPost cfg p) = [p.t1] ∧
    clearOf (clientPre kp p ++ clientPost cfg p) = [Spec.m1 p.t1 kp.pub none] := ⟨rfl, rfl⟩

/-- Two clients with different identities. -/
example : ∃ cfg cfg' : ClientCfg, cfg.encKp = cfg'.encKp ∧ cfg.sigKp ≠ cfg'.sigKp ∧ ∃ s s' u u' r q tr tr',
    Call (Client.handshake cfg) s tr r s' ∧ Call (Client.handshake cfg') u tr' q u' ∧
    firstTimesOf tr = firstTimesOf tr' ∧ clearOf tr ≠ [] ∧ clearOf tr' ≠ [] := by
  have g : CGood ⟨exSigS, some exEnc, false, []⟩ exEnc exCP :=
    { exClient_good false with enc := rfl, sig := by decide }
  have gen : ∀ cfg : ClientCfg, cfg.bufferM4 = false → CGood cfg exEnc exCP → ∃ tr s',
      Call (Client.handshake cfg) Client.init tr (.ok ()) s' ∧ firstTimesOf tr = [exCP.t1] ∧ clearOf tr ≠ [] := by
    intro cfg hb g
    obtain ⟨s', h⟩ := client_runs g Client.init
    rw [hb, if_neg (by simp)] at h
    have c := clientFull_clear cfg exEnc exCP
    exact ⟨_, _, h, c.1, by rw [c.2]; simp⟩
  obtain ⟨tr, s', h, h1, h2⟩ := gen _ rfl (exClient_good false)
  obtain ⟨tr', u', h', h1', h2'⟩ := gen _ rfl g
  exact ⟨exClient false, ⟨exSigS, some exEnc, false, []⟩, rfl, by decide, _, s', _, u', _, _, tr, tr', h, h',
    h1.trans h1'.symm, h2, h2'⟩

/-- Two servers with different identities. -/
example : ∃ cfg cfg' : ServerCfg, cfg.encKp = cfg'.encKp ∧ cfg.sigKp ≠ cfg'.sigKp ∧ ∃ s s' u u' tr tr',
    Call (Server.handshake cfg) s tr (.ok ()) s' ∧ s'.isDone = false ∧
    Call (Server.handshake cfg') u tr' (.ok ()) u' ∧ u'.isDone = false ∧
    firstTimesOf tr = firstTimesOf tr' := by
  have g : SGood ⟨exSigC, some exEncS, false, none⟩ exEncS exSP' :=
    { exServer'_good with enc := rfl, sig := by decide, key := by decide }
  have gen : ∀ cfg : ServerCfg, cfg.bufferM2 = false → SGood cfg exEncS exSP' → ∃ tr s',
      Call (Server.handshake cfg) Server.init tr (.ok ()) s' ∧ s'.isDone = false ∧
      firstTimesOf tr = [exSP'.t2] := by
    intro cfg hb g
    obtain ⟨s', h⟩ := server_runs g Server.init
    have hlen : (serverFull cfg exEncS exSP').length = 15 := by unfold serverFull; rw [hb]; rfl
    refine ⟨_, _, h, ?_, ?_⟩
    · rcases (server_ok h).ex with ⟨raw, e, a1, hm, ha, htr, -⟩ | ⟨_, _, _, _, _, _, _, _, _, _, _, _, -, -, -,
        -, -, -, -, -, -, -, -, -, rfl⟩
      · rw [htr] at hlen; simp at hlen
      · rfl
    · unfold serverFull; rw [hb]; rfl
  obtain ⟨tr, s', h, h1, h2⟩ := gen _ rfl exServer'_good
  obtain ⟨tr', u', h', h1', h2'⟩ := gen _ rfl g
  exact ⟨⟨exSigS, some exEncS, false, none⟩, ⟨exSigC, some exEncS, false, none⟩, rfl, by decide,
    _, s', _, u', tr, tr', h, h1, h', h1', h2.trans h2'.symm⟩

end Salt.Props
