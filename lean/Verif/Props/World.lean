import Verif.Lemmas.World

/-!
# Sessions on a network that an attacker controls, from handshake to application (C99)
-/

set_option linter.unusedSimpArgs false

namespace Salt.Props

open Salt Spec

theorem Ideal.hint {W : World} (hW : W.Ideal) {c : Run ClientCfg ClientSt} {s : Run ServerCfg ServerSt}
    (hc : W.cli c) (hs : W.srv s) {k : Bytes} (hk : Shared c s k) {eC eC' eS eS' : EncSt}
    (aC : Adv eC c.tr eC') (aS : Adv eS s.tr eS') (kC : eC.key = k) (kS : eS.key = k) :
    (∀ x ∈ opens c.tr, x ∈ seals c.tr ∨ x ∈ seals s.tr) ∧
    (∀ x ∈ opens s.tr, x ∈ seals s.tr ∨ x ∈ seals c.tr) := by
  constructor
  · intro x hx
    obtain ⟨i, hi⟩ := List.getElem?_of_mem hx
    have := hW.integrity c s k hc hs hk x (List.mem_append_left _ hx) ((aC.openAt i x hi).1.trans kC)
    exact List.mem_append.1 this
  · intro x hx
    obtain ⟨i, hi⟩ := List.getElem?_of_mem hx
    have := hW.integrity c s k hc hs hk x (List.mem_append_right _ hx) ((aS.openAt i x hi).1.trans kS)
    exact (List.mem_append.1 this).symm

/-- A client session and a server session with the same first messages. -/
theorem pair_core {W : World} (hW : W.Ideal) {c : Run ClientCfg ClientSt} {s : Run ServerCfg ServerSt}
    (hc : W.cli c) (hs : W.srv s) {cc sc : AppSt} (hcc : c.st.chan = some cc) (hsc : s.st.chan = some sc)
    (hsame : SameStart c s) :
    c.st.sessionKey = s.st.sessionKey ∧
    (c.res = .ok () → ShortWrites s.ops → Delivered s c ∧
      (s.cfg.sigKp.pub.length = 32 → ∃ p, c.st.m3 = some p ∧ M34.sigKey p = s.cfg.sigKp.pub)) ∧
    (s.res = .ok () → ShortWrites c.ops → Delivered c s ∧
      (c.cfg.sigKp.pub.length = 32 → s.st.clientSigKey = some c.cfg.sigKp.pub)) := by
  obtain ⟨hcC, hcA⟩ := hW.cli c hc
  obtain ⟨hsC, hsA⟩ := hW.srv s hs
  rw [hcc] at hcA
  rw [hsc] at hsA
  obtain ⟨cc', hcA⟩ := hcA
  obtain ⟨sc', hsA⟩ := hsA
  obtain ⟨kc, m1, m2, fc⟩ := client_facts hcC hcc
  obtain ⟨ks, n1, fs⟩ := server_facts hsC hsc
  obtain ⟨o1, o2, hw, hr, hr', ⟨u, ks', hu, hks', ho2⟩, -⟩ := hsame
  have e1 : m1 = o1 := by
    have := fc.w1.symm.trans hw
    simpa using this
  have e2 : m2 = o2 := by
    have := fc.r2.symm.trans hr
    simpa using this
  have e3 : n1 = o1 := by
    have := fs.r1.symm.trans hr'
    simpa using this
  have e4 : ks' = ks := by
    have := hks'.symm.trans fs.enc
    simpa using this
  subst e1 e2 e3 e4
  have kC : KeyIn ks'.pub kc.sec cc.enc.key c.tr := by
    have := fc.key
    rw [ho2, field_m2 _ _ _ _ fs.pub] at this
    exact List.mem_append_left _ this
  have kS : KeyIn kc.pub ks'.sec sc.enc.key s.tr := by
    have := fs.key
    rw [fc.f1] at this
    exact List.mem_append_left _ this
  have hkey := hW.agree c s kc ks' _ _ hc hs fc.enc fs.enc kC kS
  have hsh : Shared c s cc.enc.key := ⟨kc, ks', fc.enc, fs.enc, kC, hkey ▸ kS⟩
  have sC : Std cc.enc := (encInit_std _ _).adv fc.adv
  have sS : Std sc.enc := (encInit_std _ _).adv fs.adv
  have aC := fc.adv.trans (appAll_wp c.ops cc sC _ _ hcA).1
  have aS := fs.adv.trans (appAll_wp s.ops sc sS _ _ hsA).1
  obtain ⟨hiC, hiS⟩ := Ideal.hint hW hc hs hsh aC aS rfl hkey.symm
  refine ⟨fc.sess.symm.trans (hkey.trans fs.sess), fun hok hsw => ?_, fun hok hsw => ?_⟩
  · rw [hok] at hcC
    obtain ⟨kp, t1, h1, raw2, m2, h2, k, p3, m3, m3p, x, t4, sm, tail, -, -, -, -, -, -, -, -, hl3, hm3p,
      -, -, htr, hk, -, -, -, -, hm3, -, hend⟩ := (client_ok hcC).ex
    obtain ⟨hhd, -, hsk, -⟩ := m34_fields 3 rfl hm3p
    have ho : opens c.hs = [⟨m3, Spec.nonce 2, k, p3.drop 2⟩] := by
      rw [htr]
      rcases hend with ⟨-, rfl, -⟩ | ⟨-, -, c4, rfl⟩ <;> rfl
    have hh : ¬ AppHead m3 := by
      rcases hhd with rfl | hhd
      · simp at hl3
      · simp [AppHead, hhd]
    have hF : (m4Of sc = none ∧ (seals s.hs = [] ∨
        ∃ m, (∃ t sig, m = Spec.m3 t s.cfg.sigKp.pub sig) ∧ (seals s.hs).map (·.msg) = [m])) ∨
        (seals s.hs = [] ∧ ∃ f, m4Of sc = some f ∧ ∀ t, ∃ u sig, f t = Spec.m3 u s.cfg.sigKp.pub sig) := by
      refine .inl ⟨fs.m4, ?_⟩
      rcases fs.m3 with h | ⟨t, sig, h⟩
      · exact .inl h
      · exact .inr ⟨_, ⟨t, sig, rfl⟩, h⟩
    have := deliver (F := fun m => ∃ t sig, m = Spec.m3 t s.cfg.sigKp.pub sig) (rw := .server) (rr := .client)
      (by simp) (hkey ▸ fs.adv) fc.adv hsA hcA fc.q hsw ho hh hF hiC
    obtain ⟨⟨t, sig, hm⟩, hd1, hd2⟩ := this
    refine ⟨⟨hd1, hd2⟩, fun hl => ⟨m3p, hm3, ?_⟩⟩
    rw [hsk]
    have hm : m3 = _ := hm
    rw [hm, field_m3 _ _ _ hl]
  · rw [hok] at hsC
    rcases (server_ok hsC).ex with ⟨raw, e, a1, -, -, -, hst⟩ | ⟨kp', raw1, m1, h1, m2, h2, k, mid, p4,
      m4, m4p, x, hkp', -, -, -, hm1, hz, -, hmid, -, -, hm4, htr, hst⟩
    · rw [hst] at hsc; simp [Server.init] at hsc
    · have hhd := (m34_fields 4 rfl hm4).1
      have ho : opens s.hs = [⟨m4, Spec.nonce 1, k, p4.drop 2⟩] := by
        rw [htr]
        cases hmid <;> rfl
      have hh : ¬ AppHead m4 := by
        rcases hhd with rfl | hhd
        · simp [AppHead]
        · simp [AppHead, hhd]
      have hF : (m4Of cc = none ∧ (seals c.hs = [] ∨
          ∃ m, (∃ t sig, m = Spec.m4 t c.cfg.sigKp.pub sig) ∧ (seals c.hs).map (·.msg) = [m])) ∨
          (seals c.hs = [] ∧ ∃ f, m4Of cc = some f ∧ ∀ t, ∃ u sig, f t = Spec.m4 u c.cfg.sigKp.pub sig) := by
        rcases fc.m4 with ⟨hn, h⟩ | ⟨h, f, hf, hft⟩
        · refine .inl ⟨hn, ?_⟩
          rcases h with h | ⟨t, sig, h⟩
          · exact .inl h
          · exact .inr ⟨_, ⟨t, sig, rfl⟩, h⟩
        · exact .inr ⟨h, f, hf, fun t => ⟨t, hft t⟩⟩
      have := deliver (F := fun m => ∃ t sig, m = Spec.m4 t c.cfg.sigKp.pub sig) (rw := .client) (rr := .server)
        (by simp) fc.adv (hkey ▸ fs.adv) hcA hsA fs.q hsw ho hh hF hiS
      obtain ⟨⟨t, sig, hm⟩, hd1, hd2⟩ := this
      refine ⟨⟨hd1, hd2⟩, fun hl => ?_⟩
      have hm : m4 = _ := hm
      rw [hst, hm, field_m4 _ _ _ hl]

/-- What was signed was signed in the handshake of a session, as the client or as the server. -/
theorem World.signed {W : World} (hW : W.Ideal) {t : List (Ev env)} {sk m : Bytes} (ht : W.Tr t)
    (h : SignedIn sk m t) :
    (∃ c y, W.cli c ∧ ⟨EnvOp.sign m sk, .ok y⟩ ∈ c.hs) ∨ ∃ s y, W.srv s ∧ ⟨EnvOp.sign m sk, .ok y⟩ ∈ s.hs := by
  obtain ⟨y, hy⟩ := h
  rcases ht with ⟨c, hc, rfl⟩ | ⟨s, hs, rfl⟩
  · refine .inl ⟨c, y, hc, ?_⟩
    rcases List.mem_append.1 hy with hy | hy
    · exact hy
    · obtain ⟨-, hA⟩ := hW.cli c hc
      split at hA
      · rw [hA.2.1] at hy; simp at hy
      · obtain ⟨c', hA⟩ := hA
        exact (callAll_appOnly _ _ _ _ hA _ hy).elim
  · refine .inr ⟨s, y, hs, ?_⟩
    rcases List.mem_append.1 hy with hy | hy
    · exact hy
    · obtain ⟨-, hA⟩ := hW.srv s hs
      split at hA
      · rw [hA.2.1] at hy; simp at hy
      · obtain ⟨c', hA⟩ := hA
        exact (callAll_appOnly _ _ _ _ hA _ hy).elim

theorem hashed_tr {γ σ : Type} {r : Run γ σ} {m h : Bytes} (x : HashedIn m h r.hs) : HashedIn m h r.tr :=
  List.mem_append_left _ x

/-- The M2 a server has sent. -/
theorem server_m2 {cfg : ServerCfg} {s s' : ServerSt} {tr : List (Ev env)} {m2 enc3 : Bytes}
    (h : Call (Server.handshake cfg) s tr (.ok ()) s')
    (hw : ((writesOf tr).flatMap fun w => w.1) = [m2, enc3]) :
    ∃ u k, u ∈ firstTimesOf tr ∧ cfg.encKp = some k ∧ m2 = Spec.m2 false false u k.pub := by
  rcases (server_ok h).ex with ⟨raw, e, a1, hm, ha, htr, -⟩ | ⟨kp', raw1, m1, h1, n2, h2, k, mid, p4,
      m4, m4p, x, hkp', -, -, -, hm1, hz, -, hmid, -, -, hm4, htr, -⟩
  · rw [htr] at hw; simp [writesOf] at hw
  · have e : m2 = n2 := by
      rw [htr] at hw
      cases hmid <;> simp [writesOf] at hw <;> exact hw.1.symm
    subst e
    cases hmid with
    | plain t2 t3 sm c hb hl hm => exact ⟨t2, kp', by rw [htr]; simp [firstTimesOf], hkp', hm⟩
    | buffered t0 t2 sm c hb hl hm => exact ⟨t2, kp', by rw [htr]; simp [firstTimesOf], hkp', hm⟩

theorem client_chan {c : Run ClientCfg ClientSt} (h : c.Of Client.handshake Client.init ClientSt.chan)
    (hs : c.res = .ok () ∨ ∃ m sk x, ⟨EnvOp.sign m sk, x⟩ ∈ c.hs) : ∃ cc, c.st.chan = some cc := by
  cases hr : c.res with
  | ok u =>
    have h := h.1
    rw [hr] at h
    obtain ⟨kp, t1, h1, raw2, m2, h2, k, p3, m3, m3p, x, t4, sm, tail, -, -, -, -, -, -, -, -, -, -,
      -, -, -, -, -, -, -, -, -, -, hend⟩ := (client_ok h).ex
    rcases hend with ⟨-, -, h⟩ | ⟨-, h, -⟩ <;> exact ⟨_, h⟩
  | error e =>
    rw [hr] at hs
    obtain ⟨m, sk, x, hs⟩ := hs.resolve_left (by simp)
    have := cb_chan c.cfg [] Client.init ⟨rfl, by simp⟩ _ _ h.1
    rw [hr] at this
    rcases this with h | ⟨cc, h, -⟩
    · exact absurd hs (h.2 _ _ _)
    · exact ⟨cc, h⟩

theorem server_chan {s : Run ServerCfg ServerSt} (h : s.Of Server.handshake Server.init ServerSt.chan)
    (hs : ∃ m sk x, ⟨EnvOp.sign m sk, x⟩ ∈ s.hs) : ∃ cc, s.st.chan = some cc := by
  obtain ⟨m, sk, x, hs⟩ := hs
  have := sb_chan s.cfg [] Server.init ⟨rfl, by simp⟩ _ _ h.1
  have : SMid s.hs s.st := by
    cases hr : s.res <;> rw [hr] at this <;> exact this
  rcases this with h | ⟨cc, h, -⟩
  · exact absurd hs (h.2 _ _ _)
  · exact ⟨cc, h⟩

/-- C99, client side.  Any number of sessions of honest parties take place, on a network that answers
whatever it likes; the secret key `sk` is only used by these sessions.  If a client's handshake returns
and reports the public key `pk`, then one of the server sessions signs with `sk`, is about the same M1
and M2 and has the same session key; everything the client's application has read was passed to the write
calls of this server's application, in this order; and if this server's handshake returned as well, it
reports this client's key, and everything its application has read was passed to the write calls of this
client's application, in this order. -/
theorem C99_client {W : World} (hW : W.Ideal) {pk sk : Bytes} (hu : W.Unforgeable pk sk)
    {c : Run ClientCfg ClientSt} (hc : W.cli c) (hok : c.res = .ok ()) {p : Packet} (hp : c.st.m3 = some p)
    (hpk : M34.sigKey p = pk) :
    ∃ s, W.srv s ∧ s.cfg.sigKp.sec = sk ∧ SameStart c s ∧ c.st.sessionKey = s.st.sessionKey ∧
      (ShortWrites s.ops → Delivered s c ∧ (s.cfg.sigKp.pub.length = 32 → s.cfg.sigKp.pub = pk)) ∧
      (s.res = .ok () → ShortWrites c.ops → Delivered c s ∧ s.st.clientSigKey = some c.cfg.sigKp.pub) := by
  obtain ⟨hcC, hcA⟩ := hW.cli c hc
  have hcC' := hcC
  rw [hok] at hcC'
  have hpub : c.cfg.sigKp.pub.length = 32 := by
    obtain ⟨kp, t1, h1, raw2, m2, h2, k, p3, m3, m3p, x, t4, sm, tail, -, -, -, -, -, -, -, -, -, -, h, -⟩ :=
      (client_ok hcC').ex
    exact h
  obtain ⟨m1, m2, pkt, h1, h2, m3, p', hw, hr, hh1, hh2, -, -, -, ⟨x, hx⟩, hm3, hkey⟩ :=
    C34_client_verifies_server hcC'
  rw [hp, Option.some.injEq] at hm3
  subst hm3
  rw [← hkey, hpk] at hx
  obtain ⟨t, ht, hy⟩ := hu _ (.inl ⟨c, hc, rfl⟩) _ _ (List.mem_append_left _ hx)
  rw [List.drop_left' (field_length ..)] at hy
  rcases World.signed hW ht hy with ⟨d, y, hd, hy⟩ | ⟨s, y, hs, hy⟩
  · obtain ⟨n1, n2, g1, g2, -, -, -, -, hmsg, -⟩ := client_sign (hW.cli d hd).1 hy
    rw [List.append_assoc, List.append_assoc] at hmsg
    exact absurd hmsg (sig_ne _ _)
  · obtain ⟨n1, n2, g1, g2, hread, ⟨u, kp, hut, hkp, hn2⟩, hw', hg1, hg2, hmsg, hsk⟩ :=
      server_sign (hW.srv s hs).1 hy
    have tc : W.Tr c.tr := .inl ⟨c, hc, rfl⟩
    have ts : W.Tr s.tr := .inr ⟨s, hs, rfl⟩
    obtain ⟨rfl, rfl⟩ := hash_split (hW.hashLen _ tc _ _ (hashed_tr hh1)) (hW.hashLen _ ts _ _ (hashed_tr hg1)) _ hmsg
    have e1 := hW.hashInj _ _ tc ts _ _ _ (hashed_tr hh1) (hashed_tr hg1)
    have e2 := hW.hashInj _ _ tc ts _ _ _ (hashed_tr hh2) (hashed_tr hg2)
    subst e1 e2
    have hsame : SameStart c s := ⟨m1, m2, hw, by rw [hr]; rfl, hread, ⟨u, kp, hut, hkp, hn2⟩, hw'⟩
    obtain ⟨cc, hcc⟩ := client_chan (hW.cli c hc) (.inl hok)
    obtain ⟨sc, hsc⟩ := server_chan (hW.srv s hs) ⟨_, _, _, hy⟩
    obtain ⟨hk, h1, h2⟩ := pair_core hW hc hs hcc hsc hsame
    refine ⟨s, hs, hsk.symm, hsame, hk, fun h => ⟨(h1 hok h).1, fun hl => ?_⟩, fun hr h => ⟨(h2 hr h).1, (h2 hr h).2 hpub⟩⟩
    obtain ⟨q, hq, hqk⟩ := (h1 hok h).2 hl
    rw [hp, Option.some.injEq] at hq
    rw [← hqk, ← hq, hpk]

/-- C99, server side: as above with the roles exchanged, for a server whose handshake returns without
having answered an A1. -/
theorem C99_server {W : World} (hW : W.Ideal) {pk sk : Bytes} (hu : W.Unforgeable pk sk)
    {s : Run ServerCfg ServerSt} (hs : W.srv s) (hok : s.res = .ok ()) (hd : s.st.isDone = false)
    (hpk : s.st.clientSigKey = some pk) :
    ∃ c, W.cli c ∧ c.cfg.sigKp.sec = sk ∧ SameStart c s ∧ c.st.sessionKey = s.st.sessionKey ∧
      (ShortWrites c.ops → Delivered c s ∧ (c.cfg.sigKp.pub.length = 32 → c.cfg.sigKp.pub = pk)) ∧
      (c.res = .ok () → ShortWrites s.ops → Delivered s c ∧
        ∃ p, c.st.m3 = some p ∧ M34.sigKey p = s.cfg.sigKp.pub) := by
  obtain ⟨hsC, hsA⟩ := hW.srv s hs
  have hsC' := hsC
  rw [hok] at hsC'
  have hpub : s.cfg.sigKp.pub.length = 32 ∧ ∃ sc, s.st.chan = some sc := by
    rcases (server_ok hsC').ex with ⟨raw, e, a1, hm, ha, -, hst⟩ | ⟨kp', raw1, m1, h1, m2, h2, k, mid, p4,
      m4, m4p, x, hkp', -, -, h, hm1, hz, -, hmid, -, -, hm4, -, hst⟩
    · rw [hst] at hd; simp at hd
    · exact ⟨h, _, by rw [hst]⟩
  obtain ⟨m1, m2, enc3, pkt, h1, h2, m4, hr, hw, hh1, hh2, -, -, ⟨x, hx⟩, hkey⟩ :=
    C35_server_verifies_client hsC' hd
  rw [hpk, Option.some.injEq] at hkey
  rw [← hkey] at hx
  obtain ⟨t, ht, hy⟩ := hu _ (.inr ⟨s, hs, rfl⟩) _ _ (List.mem_append_left _ hx)
  rw [List.drop_left' (field_length ..)] at hy
  rcases World.signed hW ht hy with ⟨c, y, hc, hy⟩ | ⟨d, y, hd, hy⟩
  · obtain ⟨n1, n2, g1, g2, hw', hread, hg1, hg2, hmsg, hsk⟩ := client_sign (hW.cli c hc).1 hy
    have tc : W.Tr c.tr := .inl ⟨c, hc, rfl⟩
    have ts : W.Tr s.tr := .inr ⟨s, hs, rfl⟩
    obtain ⟨rfl, rfl⟩ := hash_split (hW.hashLen _ ts _ _ (hashed_tr hh1)) (hW.hashLen _ tc _ _ (hashed_tr hg1)) _ hmsg
    have e1 := hW.hashInj _ _ ts tc _ _ _ (hashed_tr hh1) (hashed_tr hg1)
    have e2 := hW.hashInj _ _ ts tc _ _ _ (hashed_tr hh2) (hashed_tr hg2)
    subst e1 e2
    have hm2 := server_m2 hsC' hw
    have hsame : SameStart c s := ⟨m1, m2, hw', hread, by rw [hr]; rfl, hm2, ⟨enc3, [], by rw [hw]; rfl⟩⟩
    obtain ⟨cc, hcc⟩ := client_chan (hW.cli c hc) (.inr ⟨_, _, _, hy⟩)
    obtain ⟨sc, hsc⟩ := hpub.2
    obtain ⟨hk, h1, h2⟩ := pair_core hW hc hs hcc hsc hsame
    refine ⟨c, hc, hsk.symm, hsame, hk, fun h => ⟨(h2 hok h).1, fun hl => ?_⟩, fun hr h => ⟨(h1 hr h).1, (h1 hr h).2 hpub.1⟩⟩
    have := (h2 hok h).2 hl
    rw [hpk, Option.some.injEq] at this
    exact this.symm
  · obtain ⟨n1, n2, g1, g2, -, -, -, -, -, hmsg, -⟩ := server_sign (hW.srv d hd).1 hy
    rw [List.append_assoc, List.append_assoc] at hmsg
    exact absurd hmsg.symm (sig_ne _ _)

theorem client_m1 {cfg : ClientCfg} {s s' : ClientSt} {tr : List (Ev env)} {r : Except Err Unit} {m1 : Bytes}
    (h : Call (Client.handshake cfg) s tr r s') (hw : (writesOf tr).head? = some ([m1], false)) :
    ∃ k t, cfg.encKp = some k ∧ m1 = Spec.m1 t k.pub none := by
  cases hkp : cfg.encKp with
  | none =>
    simp only [Call, Client.handshake, Py.bind_run, Client.validate, hkp, Py.raise_run, IT.ret_bind,
      Exec_ret] at h
    rw [h.1] at hw; simp [writesOf] at hw
  | some kp =>
    obtain ⟨p, hc⟩ := client_cut hkp h
    refine ⟨kp, p.t1, rfl, ?_⟩
    simp only [clientPre, clientPost, List.cons_append] at hc
    cases hc with
    | stop => simp [writesOf] at hw
    | raised => simp [writesOf] at hw
    | next _ hc => cases hc with
      | stop => simp [writesOf] at hw
      | raised => simp [writesOf] at hw
      | next _ hc => cases hc with
        | stop => simp [writesOf] at hw
        | raised => simp [writesOf] at hw; exact hw.symm
        | next _ hc => simp [writesOf] at hw; exact hw.symm

/-- C99, one to one: sessions of C99 with the same partner have the same encryption key.  So if every
session has a key of its own, a session has one partner, and different sessions have different partners. -/
theorem C99_one_to_one {c c' : Run ClientCfg ClientSt} {s s' : Run ServerCfg ServerSt}
    (hc : c.Of Client.handshake Client.init ClientSt.chan) (hc' : c'.Of Client.handshake Client.init ClientSt.chan) :
    (SameStart c s → SameStart c s' → ∃ k k', s.cfg.encKp = some k ∧ s'.cfg.encKp = some k' ∧ k.pub = k'.pub) ∧
    (SameStart c s → SameStart c' s → ∃ k k', c.cfg.encKp = some k ∧ c'.cfg.encKp = some k' ∧ k.pub = k'.pub) := by
  constructor
  · rintro ⟨m1, m2, -, hr, -, ⟨u, k, -, hk, rfl⟩, -⟩ ⟨n1, n2, -, hr', -, ⟨v, k', -, hk', rfl⟩, -⟩
    refine ⟨k, k', hk, hk', ?_⟩
    rw [hr, Option.some.injEq] at hr'
    exact (List.append_inj hr' rfl).2
  · rintro ⟨m1, m2, hw, -, hr, -⟩ ⟨n1, n2, hw', -, hr', -⟩
    rw [hr, Option.some.injEq] at hr'
    subst hr'
    obtain ⟨k, t, hk, e⟩ := client_m1 hc.1 hw
    obtain ⟨k', t', hk', e'⟩ := client_m1 hc'.1 hw'
    refine ⟨k, k', hk, hk', ?_⟩
    rw [e] at e'
    exact (List.append_inj e' rfl).2

/-- C99, programs: the calls of a session may be those of any program, which may choose each call by the
outcomes of the calls before. -/
theorem C99_programs {β : Type} (prog : IT appSig β) (c : AppSt) {tr : List (Ev env)} {x : β} {c' : AppSt}
    (h : Exec (App.run prog c) tr (x, c')) :
    ∃ ops ds, Exec (callAll appOps ops c) tr (ds, c') ∧ Did prog ds x :=
  app_run_calls prog c h

/-- A program that reads again after an exception. -/
example : ∃ x c', Exec (App.run (.op (S := appSig) .read fun
      | .ok m => .ret (.ok m)
      | .error _ => .op (S := appSig) .read fun r => .ret r) ⟨exS, none, []⟩)
    (⟨.read, .error .comException⟩ :: exRtr.take 3) (x, c') ∧ x = .ok [1] :=
  ⟨_, _, .op _ _ _ _ _ (.op _ _ _ _ _ (.op _ _ _ _ _ (.op _ _ _ _ _ (.ret _)))), rfl⟩

/-! A world with one client and one server; an attacker inserts a packet. -/

/-- What happens in the client's handshake. -/
def exWC : CP where
  t1 := 1
  h1 := List.replicate 64 5
  raw2 := Spec.m2 false false 0 exEncS.pub
  h2 := List.replicate 64 7
  k := List.replicate 32 8
  p3 := Spec.encrypted false (List.replicate 118 9)
  m3 := Spec.m3 7 exSigS.pub (List.replicate 64 12)
  x := []
  t4 := 20
  sm := List.replicate 64 13
  c4 := List.replicate 118 14

/-- What happens in the server's handshake. -/
def exWS : SP where
  raw1 := Spec.m1 1 exEnc.pub none
  h1 := List.replicate 64 5
  t0 := 0
  t2 := 0
  t3 := 7
  h2 := List.replicate 64 7
  k := List.replicate 32 8
  sm := List.replicate 64 12
  c3 := List.replicate 118 9
  p4 := Spec.encrypted false (List.replicate 118 14)
  m4 := Spec.m4 20 exSigC.pub (List.replicate 64 13)
  x := []

theorem exWC_good : CGood (exClient false) exEnc exWC where
  enc := rfl
  pub := by decide
  sec := by decide
  sig := by decide
  m2 := .inr rfl
  nss := by decide
  k := by decide
  p3 := by decide
  p3h := rfl
  m3 := by decide
  m3h := rfl
  sm := by decide

/-- The server's configuration. -/
def exServerW : ServerCfg := ⟨exSigS, some exEncS, false, none⟩

theorem exWS_good : SGood exServerW exEncS exWS where
  enc := rfl
  pub := by decide
  sec := by decide
  sig := by decide
  m1 := by decide
  key := by decide
  k := by decide
  p4 := by decide
  p4h := rfl
  m4 := .inr rfl
  sm := by decide

/-- The events of the client's application. -/
def exWCapp : List (Ev env) :=
  [⟨.time, .ok 21⟩, ⟨.box (multiApp 21 [[1], [2]]) (Spec.nonce 3) exWC.k, .ok (List.replicate 30 15)⟩,
   ⟨.write [Spec.encrypted false (List.replicate 30 15)] false, .ok ()⟩,
   ⟨.read, .ok (Spec.encrypted false (List.replicate 23 16))⟩,
   ⟨.boxOpen (List.replicate 23 16) (Spec.nonce 4) exWC.k, .ok (app 9 [3])⟩, ⟨.check 9, .ok ()⟩]

/-- The events of the server's application; the first packet is the attacker's. -/
def exWSapp : List (Ev env) :=
  [⟨.read, .ok (Spec.encrypted false (List.replicate 30 17))⟩,
   ⟨.boxOpen (List.replicate 30 17) (Spec.nonce 3) exWC.k, .error .badEncryptedData⟩,
   ⟨.read, .ok (Spec.encrypted false (List.replicate 30 15))⟩,
   ⟨.boxOpen (List.replicate 30 15) (Spec.nonce 3) exWC.k, .ok (multiApp 21 [[1], [2]])⟩, ⟨.check 21, .ok ()⟩,
   ⟨.time, .ok 9⟩, ⟨.box (app 9 [3]) (Spec.nonce 4) exWC.k, .ok (List.replicate 23 16)⟩,
   ⟨.write [Spec.encrypted false (List.replicate 23 16)] false, .ok ()⟩]

/-- The client's session. -/
def exWCrun (st : ClientSt) : Run ClientCfg ClientSt where
  cfg := exClient false
  hs := clientPre exEnc exWC ++ clientPost (exClient false) exWC
  res := .ok ()
  st := st
  ops := [.write [[1], [2]] false, .read]
  app := exWCapp
  done := [.write [[1], [2]] false (.ok ()), .read (.ok [3])]

/-- The server's session. -/
def exWSrun (st : ServerSt) : Run ServerCfg ServerSt where
  cfg := exServerW
  hs := serverFull exServerW exEncS exWS
  res := .ok ()
  st := st
  ops := [.read, .read, .read, .write [[3]] false]
  app := exWSapp
  done := [.read (.error .badPeer), .read (.ok [1]), .read (.ok [2]), .write [[3]] false (.ok ())]

theorem exWC_hashes {m h : Bytes} {st : ClientSt} (hm : HashedIn m h (exWCrun st).tr) :
    (m = Spec.m1 1 exEnc.pub none ∧ h = List.replicate 64 5) ∨
    (m = Spec.m2 false false 0 exEncS.pub ∧ h = List.replicate 64 7) := by
  simp [HashedIn, Run.tr, exWCrun, exWCapp, clientPre, clientPost, exWC] at hm
  exact hm

theorem exWS_hashes {m h : Bytes} {st : ServerSt} (hm : HashedIn m h (exWSrun st).tr) :
    (m = Spec.m1 1 exEnc.pub none ∧ h = List.replicate 64 5) ∨
    (m = Spec.m2 false false 0 exEncS.pub ∧ h = List.replicate 64 7) := by
  simp [HashedIn, Run.tr, exWSrun, exWSapp, serverFull, serverHead, serverPlain, serverTail, exWS, exServerW] at hm
  exact hm

/-- The hypotheses of C99 are met, with messages read on both sides. -/
theorem exWorld : ∃ (W : World) (c : Run ClientCfg ClientSt) (s : Run ServerCfg ServerSt) (p : Packet),
    W.Ideal ∧ W.Unforgeable exSigS.pub exSigS.sec ∧ W.Unforgeable exSigC.pub exSigC.sec ∧
    W.cli c ∧ c.res = .ok () ∧ c.st.m3 = some p ∧ M34.sigKey p = exSigS.pub ∧
    W.srv s ∧ s.res = .ok () ∧ s.st.isDone = false ∧ s.st.clientSigKey = some exSigC.pub ∧
    ShortWrites c.ops ∧ ShortWrites s.ops ∧
    c.done = [.write [[1], [2]] false (.ok ()), .read (.ok [3])] ∧
    s.done = [.read (.error .badPeer), .read (.ok [1]), .read (.ok [2]), .write [[3]] false (.ok ())] := by
  obtain ⟨cs, hC, dC⟩ := client_runs' exWC_good Client.init
  obtain ⟨ss, hS, dS⟩ := server_runs' exWS_good Server.init
  obtain ⟨p, hp, hp'⟩ := dC.m3
  obtain ⟨fc, hcc⟩ := dC.chan
  obtain ⟨fs, hsc⟩ := dS.chan
  have hC' : (exWCrun cs).Of Client.handshake Client.init ClientSt.chan := by
    refine ⟨hC, ?_⟩
    show match cs.chan with | none => _ | some c => _
    rw [hcc]
    exact ⟨_, .op _ _ _ _ _ (.op _ _ _ _ _ (.op _ _ _ _ _ (.op _ _ _ _ _ (.op _ _ _ _ _
      (.op _ _ _ _ _ (.ret _))))))⟩
  have hS' : (exWSrun ss).Of Server.handshake Server.init ServerSt.chan := by
    refine ⟨hS, ?_⟩
    show match ss.chan with | none => _ | some c => _
    rw [hsc]
    exact ⟨_, .op _ _ _ _ _ (.op _ _ _ _ _ (.op _ _ _ _ _ (.op _ _ _ _ _ (.op _ _ _ _ _
      (.op _ _ _ _ _ (.op _ _ _ _ _ (.op _ _ _ _ _ (.ret _))))))))⟩
  have hd : ss.isDone = false := by
    rcases (server_ok hS).ex with ⟨raw, e, a1, hm, ha, htr, -⟩ | ⟨_, _, _, _, _, _, _, _, _, _, _, _, -, -, -,
      -, -, -, -, -, -, -, -, -, rfl⟩
    · have := congrArg List.length htr
      simp [serverFull, serverHead, serverPlain, serverTail, exServerW] at this
    · rfl
  refine ⟨⟨(· = exWCrun cs), (· = exWSrun ss)⟩, _, _, p, ?_, ?_, ?_, rfl,
    rfl, hp, ?_, rfl, rfl, hd, dS.peer, ?_, ?_, rfl, rfl⟩
  · refine ⟨?_, ?_, ?_, ?_, ?_, ?_⟩
    · rintro c rfl; exact hC'
    · rintro s rfl; exact hS'
    · rintro t (⟨c, rfl, rfl⟩ | ⟨s, rfl, rfl⟩) m h hm
      · rcases exWC_hashes hm with ⟨-, rfl⟩ | ⟨-, rfl⟩ <;> rfl
      · rcases exWS_hashes hm with ⟨-, rfl⟩ | ⟨-, rfl⟩ <;> rfl
    · have key : ∀ t, World.Tr ⟨(· = exWCrun cs), (· = exWSrun ss)⟩ t → ∀ m h, HashedIn m h t →
          (m = Spec.m1 1 exEnc.pub none ∧ h = List.replicate 64 5) ∨
          (m = Spec.m2 false false 0 exEncS.pub ∧ h = List.replicate 64 7) := by
        rintro t (⟨c, rfl, rfl⟩ | ⟨s, rfl, rfl⟩) m h hm
        · exact exWC_hashes hm
        · exact exWS_hashes hm
      intro t t' ht ht' a b h ha hb
      rcases key t ht a h ha with ⟨rfl, rfl⟩ | ⟨rfl, rfl⟩ <;> rcases key t' ht' b _ hb with ⟨rfl, e⟩ | ⟨rfl, e⟩
      · rfl
      · exact absurd e rep_ne
      · exact absurd e.symm rep_ne
      · rfl
    · rintro c s kc ks k k' rfl rfl - - h h'
      simp [KeyIn, Run.tr, exWCrun, exWCapp, clientPre, clientPost, exWC] at h
      simp [KeyIn, Run.tr, exWSrun, exWSapp, serverFull, serverHead, serverPlain, serverTail, exWS, exServerW] at h'
      rw [h.2, h'.2]
    · rintro c s k rfl rfl - x hx -
      revert x
      show ∀ x ∈ opens (clientPre exEnc exWC ++ clientPost (exClient false) exWC ++ exWCapp) ++
          opens (serverFull exServerW exEncS exWS ++ exWSapp),
        x ∈ seals (clientPre exEnc exWC ++ clientPost (exClient false) exWC ++ exWCapp) ++
          seals (serverFull exServerW exEncS exWS ++ exWSapp)
      decide
  · rintro t (⟨c, rfl, rfl⟩ | ⟨s, rfl, rfl⟩) sm x hx
    · simp [Run.tr, exWCrun, exWCapp, clientPre, clientPost] at hx
      refine ⟨_, .inr ⟨_, rfl, rfl⟩, exWS.sm, ?_⟩
      rw [hx.1.1, List.drop_left' (field_length ..)]
      simp [Run.tr, exWSrun, exWSapp, serverFull, serverHead, serverPlain, serverTail, exWS, exWC, exServerW]
    · simp [Run.tr, exWSrun, exWSapp, serverFull, serverHead, serverPlain, serverTail, exServerW] at hx
      exact absurd hx.1.2 (by decide)
  · rintro t (⟨c, rfl, rfl⟩ | ⟨s, rfl, rfl⟩) sm x hx
    · simp [Run.tr, exWCrun, exWCapp, clientPre, clientPost] at hx
      exact absurd hx.1.2 (by decide)
    · simp [Run.tr, exWSrun, exWSapp, serverFull, serverHead, serverPlain, serverTail, exServerW] at hx
      refine ⟨_, .inl ⟨_, rfl, rfl⟩, exWC.sm, ?_⟩
      rw [hx.1.1, List.drop_left' (field_length ..)]
      simp [Run.tr, exWCrun, exWCapp, clientPre, clientPost, exWS, exWC, exClient]
  · rw [(m34_fields 3 rfl hp').2.2.1]; rfl
  · intro ms l h
    simp [exWCrun] at h
    simp [h.1]
  · intro ms l h
    simp [exWSrun] at h
    simp [h.1]

end Salt.Props
