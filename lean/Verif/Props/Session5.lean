import Verif.Lemmas.SessionChan
import Verif.Props.Session2
import Verif.Lemmas.Honest
import Verif.Lemmas.Raises

/-!
# Nonces and keys of a session

C19: no nonce is used twice in a session.  C48: nothing prevents reuse across sessions.
-/

set_option linter.unusedSimpArgs false

namespace Salt.Props

open Salt Spec

/-! ### C19 -/

/-- Either side of a session encrypts under one key, computed in the handshake, with the nonces of
positions `first`, `first + 2`, `first + 4`, ... -/
def SealsFrom (first : Nat) (tr : List (Ev env)) : Prop :=
  seals tr = [] ∨ ∃ k pk sk, (⟨.beforenm pk sk, .ok k⟩ : Ev env) ∈ tr ∧
    ∀ i x, (seals tr)[i]? = some x → x.key = k ∧ first + 2 * i < 2 ^ 64 ∧
      x.nonce = Spec.nonce (first + 2 * i)

theorem Ready.seals {role : Role} {tr : List (Ev env)} {c : Option AppSt} (h : Ready role tr c) :
    SealsFrom (if role = .client then 1 else 2) tr := by
  cases c with
  | none => exact .inl h.1
  | some c =>
    obtain ⟨ha, pk, sk, hm⟩ := h
    exact .inr ⟨_, pk, sk, hm, ha.sealAt⟩

theorem client_seals {cfg : ClientCfg} {tr : List (Ev env)} (h : ClientTrace cfg tr) : SealsFrom 1 tr := by
  have gen : ∀ {tr r s}, Call (Client.handshake cfg) Client.init tr r s → CReady tr s := by
    intro tr r s h
    cases r with
    | ok u => exact (client_chan cfg).run_ok (P := CNew) ⟨rfl, rfl, rfl⟩ h
    | error e => exact (client_chan cfg).run_error (P := CNew) ⟨rfl, rfl, rfl⟩ h
  cases h with
  | none h _ => exact Ready.seals (role := .client) (gen h).1
  | app h hc hx =>
    have := (gen h).1
    rw [hc] at this
    exact Ready.seals (role := .client) (this.step (app_run_adv _ _ this.std _ _ hx))

theorem server_seals {cfg : ServerCfg} {tr : List (Ev env)} (h : ServerTrace cfg tr) : SealsFrom 2 tr := by
  have gen : ∀ {tr r s}, Call (Server.handshake cfg) Server.init tr r s → SReady tr s := by
    intro tr r s h
    cases r with
    | ok u => exact (server_chan cfg).run_ok (P := SNew) ⟨rfl, rfl, rfl⟩ h
    | error e => exact (server_chan cfg).run_error (P := SNew) ⟨rfl, rfl, rfl⟩ h
  cases h with
  | none h _ => exact Ready.seals (role := .server) (gen h).1
  | app h hc hx =>
    have := (gen h).1
    rw [hc] at this
    exact Ready.seals (role := .server) (this.step (app_run_adv _ _ this.std _ _ hx))

theorem SealsFrom.mem {f : Nat} {tr : List (Ev env)} (h : SealsFrom f tr) {x : Sealed} (hx : x ∈ seals tr) :
    ∃ i, (seals tr)[i]? = some x ∧ f + 2 * i < 2 ^ 64 ∧ x.nonce = Spec.nonce (f + 2 * i) := by
  rcases h with h | ⟨k, pk, sk, -, h⟩
  · rw [h] at hx; cases hx
  · obtain ⟨i, hi⟩ := List.mem_iff_getElem?.1 hx
    exact ⟨i, hi, (h i x hi).2⟩

theorem SealsFrom.nodup {f : Nat} {tr : List (Ev env)} (h : SealsFrom f tr) :
    ((seals tr).map (·.nonce)).Nodup := by
  rcases h with h | ⟨k, pk, sk, -, h⟩
  · rw [h]; exact List.nodup_nil
  · rw [List.Nodup, List.pairwise_iff_getElem]
    intro i j hi hj hij
    rw [List.length_map] at hi hj
    have a := h i _ (List.getElem?_eq_getElem hi)
    have b := h j _ (List.getElem?_eq_getElem hj)
    simp only [List.getElem_map]
    rw [a.2.2, b.2.2]
    intro he
    have := nonce_inj a.2.1 b.2.1 he
    omega

theorem seals_perm {a b : List (Ev env)} (h : a.Perm b) : (seals a).Perm (seals b) := by
  have e : ∀ l : List (Ev env), seals l = l.flatMap fun ev => seals [ev] := by
    intro l
    induction l with
    | nil => rfl
    | cons x l ih => rw [List.flatMap_cons, ← ih, ← seals_append]; rfl
  rw [e a, e b]
  exact h.flatMap_right _

/-- C19: in a session of a client and a server, whatever the network does, in every interleaving `tr`
of what the two do, all encryptions of both use distinct 24-byte nonces. -/
theorem C19_nonces_distinct {ccfg : ClientCfg} {scfg : ServerCfg} {trC trS tr : List (Ev env)}
    (hC : ClientTrace ccfg trC) (hS : ServerTrace scfg trS) (hi : tr.Perm (trC ++ trS)) :
    ((seals tr).map (·.nonce)).Nodup ∧ ∀ x ∈ seals tr, x.nonce.length = 24 := by
  have hc := client_seals hC
  have hs := server_seals hS
  have hp := seals_perm hi
  rw [seals_append] at hp
  constructor
  · rw [(hp.map _).nodup_iff, List.map_append, List.nodup_append]
    refine ⟨hc.nodup, hs.nodup, ?_⟩
    intro a ha b hb hab
    obtain ⟨x, hx, rfl⟩ := List.mem_map.1 ha
    obtain ⟨y, hy, rfl⟩ := List.mem_map.1 hb
    obtain ⟨i, -, hi, hxn⟩ := hc.mem hx
    obtain ⟨j, -, hj, hyn⟩ := hs.mem hy
    rw [hxn, hyn] at hab
    have := nonce_inj hi hj hab
    omega
  · intro x hx
    rcases List.mem_append.1 (hp.mem_iff.1 hx) with h | h
    · obtain ⟨i, -, -, e⟩ := hc.mem h
      rw [e]; simp [Spec.nonce]
    · obtain ⟨i, -, -, e⟩ := hs.mem h
      rw [e]; simp [Spec.nonce]

/-- The hypotheses of C19 are met: two complete sessions, in which both sides encrypt. -/
example : ∃ ccfg scfg trC trS, ClientTrace ccfg trC ∧ ServerTrace scfg trS ∧ seals trC ≠ [] ∧
    seals trS ≠ [] := by
  obtain ⟨s, h⟩ := client_runs (exClient_good false) Client.init
  obtain ⟨s', h'⟩ := server_runs (exServer_good false) Server.init
  obtain ⟨_, _, _, _, _, _, k, _, _, _, _, _, _, _, _, _, _, _, _, _, _, _, _, _, _, _, _, _, _, _, _, _, _, _, hend⟩ :=
    (client_ok h).ex
  have hc : ∃ c, s.chan = some c := by
    rcases hend with ⟨-, -, h⟩ | ⟨-, h, -⟩ <;> exact ⟨_, h⟩
  obtain ⟨c, hc⟩ := hc
  have hs : ∃ c, s'.chan = some c := by
    rcases (server_ok h').ex with ⟨raw, e, a1, -, -, ht, -⟩ |
      ⟨_, _, _, _, _, _, _, _, _, _, _, _, -, -, -, -, -, -, -, -, -, -, -, -, rfl⟩
    · exact absurd (congrArg List.length ht) (show ¬ (15 = 2) by decide)
    · exact ⟨_, rfl⟩
  obtain ⟨c', hs⟩ := hs
  exact ⟨_, _, _, _, .app (prog := .ret ()) h hc (.ret _), .app (prog := .ret ()) h' hs (.ret _),
    by simp [clientPre, clientPost, exClient, seals], by
      simp [serverFull, exServer, serverHead, serverPlain, serverTail, seals]⟩

/-! ### C48 -/

/-- C48, the full claim: with any well-behaved library, no two client sessions encrypt different
messages with the same key and nonce. -/
def C48_claim : Prop :=
  ∀ (L : Lib), BoxLaw L → HashLaw L → ∀ cfg cfg' tr tr', ClientTrace cfg tr → ClientTrace cfg' tr' →
    (∀ ev ∈ tr ++ tr', AnsweredBy L ev) →
    ∀ x ∈ seals tr, ∀ y ∈ seals tr', x.key = y.key → x.nonce = y.nonce → x.msg = y.msg

/-- Reuse is not an accident: whatever the library and the key pairs, if a client runs two sessions
with the same key pairs against the same server, M4 is encrypted in both with the same key and nonce,
and the messages differ as soon as the times do. -/
theorem C48_reused {L : Lib} {kc ks sc ss : KeyPair} (h : Honest L kc ks sc ss) (cfg : ClientCfg)
    (he : cfg.encKp = some kc) (hs : cfg.sigKp = sc) (hb : cfg.bufferM4 = false) (t t' : Times)
    (ht : t.t4 % 2 ^ 32 ≠ t'.t4 % 2 ^ 32) :
    ∃ tr tr' x y, ClientTrace cfg tr ∧ ClientTrace cfg tr' ∧ (∀ ev ∈ tr ++ tr', AnsweredBy L ev) ∧
      x ∈ seals tr ∧ y ∈ seals tr' ∧ x.key = y.key ∧ x.nonce = y.nonce ∧ x.msg ≠ y.msg := by
  have gen : ∀ t : Times, ClientTrace cfg (clientPre kc (HS.cp L kc ks sc ss t) ++
      clientPost cfg (HS.cp L kc ks sc ss t)) := by
    intro t
    obtain ⟨s, h⟩ := client_runs (HS.cgood t h cfg he hs) Client.init
    rw [hb] at h
    simp only [Bool.false_eq_true, if_false] at h
    obtain ⟨_, _, _, _, _, _, k, _, _, _, _, _, _, _, _, _, _, _, _, _, _, _, _, _, _, _, _, _, _, _, _, _, _, _, hend⟩ :=
      (client_ok h).ex
    have hc : ∃ c, s.chan = some c := by
      rcases hend with ⟨-, -, h⟩ | ⟨-, h, -⟩ <;> exact ⟨_, h⟩
    obtain ⟨c, hc⟩ := hc
    have := ClientTrace.app (prog := .ret ()) h hc (.ret _)
    simpa using this
  have hseal : ∀ t : Times, (⟨HS.m4 L kc ks sc t, Spec.nonce 1, HS.k L kc ks, HS.c4 L kc ks sc t⟩ : Sealed) ∈
      seals (clientPre kc (HS.cp L kc ks sc ss t) ++ clientPost cfg (HS.cp L kc ks sc ss t)) := by
    intro t
    simp [clientPre, clientPost, seals, HS.cp, HS.m4, hs]
  refine ⟨_, _, _, _, gen t, gen t', ?_, hseal t, hseal t', rfl, rfl, ?_⟩
  · intro ev hev
    rcases List.mem_append.1 hev with hev | hev
    · exact HS.c_answered t h cfg hs ev hev
    · exact HS.c_answered t' h cfg hs ev hev
  · intro hm
    have hm : HS.m4 L kc ks sc t = HS.m4 L kc ks sc t' := hm
    exact ht (by rw [← (HS.m4_field t h).2.1, ← (HS.m4_field t' h).2.1, hm])

/-- Toy keys satisfying the laws. -/
theorem toy_honest : Honest toyLib ⟨List.replicate 32 1, List.replicate 32 1⟩ ⟨List.replicate 32 2, List.replicate 32 2⟩
    ⟨List.replicate 64 3, (List.replicate 64 3).drop 32⟩ ⟨List.replicate 64 4, (List.replicate 64 4).drop 32⟩ where
  box := toy_box
  hash := toy_hash
  dh := toy_dh _ _ rfl rfl
  sigC := toy_sig _ rfl
  sigS := toy_sig _ rfl

/-- C48 is violated. -/
theorem C48_violated : ¬ C48_claim := by
  intro h
  obtain ⟨tr, tr', x, y, h1, h2, h3, h4, h5, h6, h7, h8⟩ := C48_reused toy_honest
    ⟨_, some _, false, []⟩ rfl rfl rfl ⟨0, 0, 0, 0, 0⟩ ⟨0, 0, 0, 0, 1⟩ (by decide)
  exact h8 (h toyLib toy_box toy_hash _ _ tr tr' h1 h2 h3 x h4 y h5 h6 h7)

theorem Cut.step {S : Sig} {ev e : Ev S} {f tr : List (Ev S)} (h : Cut (ev :: f) tr) (hm : e ∈ tr) :
    e.op = ev.op ∨ ∃ tr', tr = ev :: tr' ∧ Cut f tr' ∧ e ∈ tr' := by
  cases h with
  | stop => cases hm
  | raised op r x => left; simp only [List.mem_cons, List.not_mem_nil, or_false] at hm; rw [hm]
  | next _ h' =>
    rcases List.mem_cons.1 hm with rfl | hm
    · exact .inl rfl
    · exact .inr ⟨_, rfl, h', hm⟩

theorem Cut.ops {S : Sig} {e : Ev S} {f tr : List (Ev S)} (h : Cut f tr) (hm : e ∈ tr) :
    ∃ ev ∈ f, ev.op = e.op := by
  obtain ⟨a, b, rfl⟩ := List.append_of_mem hm
  obtain ⟨r, g, rfl⟩ := Cut.split h
  exact ⟨⟨e.op, r⟩, by simp, rfl⟩

/-- Where the key of a client comes from. -/
theorem client_key {cfg : ClientCfg} {kp : KeyPair} (hkp : cfg.encKp = some kp) {s s' : ClientSt}
    {tr : List (Ev env)} {r : Except Err Unit} (h : Call (Client.handshake cfg) s tr r s') {pk sk : Bytes}
    {k : Except Err Bytes} (hm : (⟨.beforenm pk sk, k⟩ : Ev env) ∈ tr) :
    sk = kp.sec ∧ ∃ raw rest, readsOf tr = raw :: rest ∧ pk = field raw 6 32 := by
  obtain ⟨p, hc⟩ := client_cut hkp h
  simp only [clientPre, clientPost, List.cons_append, List.nil_append] at hc
  rcases Cut.step hc hm with h | ⟨tr, rfl, hc, hm⟩
  · cases h
  rcases Cut.step hc hm with h | ⟨tr, rfl, hc, hm⟩
  · cases h
  rcases Cut.step hc hm with h | ⟨tr, rfl, hc, hm⟩
  · cases h
  rcases Cut.step hc hm with h | ⟨tr, rfl, hc, hm⟩
  · cases h
  rcases Cut.step hc hm with h | ⟨tr, rfl, hc, hm⟩
  · cases h
  rcases Cut.step hc hm with h | ⟨tr, rfl, hc, hm⟩
  · cases h
  rcases Cut.step hc hm with h | ⟨tr, rfl, hc, hm⟩
  · cases h
    exact ⟨rfl, _, _, rfl, rfl⟩
  · obtain ⟨ev, hev, ho⟩ := Cut.ops hc hm
    simp only [List.mem_cons, List.not_mem_nil, or_false] at hev
    rcases hev with rfl | rfl | rfl | rfl | rfl | rfl | rfl | rfl <;> cases ho

/-- Where the key of a server comes from. -/
theorem server_key {cfg : ServerCfg} {kp : KeyPair} (hkp : cfg.encKp = some kp) {s s' : ServerSt}
    {tr : List (Ev env)} {r : Except Err Unit} (h : Call (Server.handshake cfg) s tr r s') {pk sk : Bytes}
    {k : Except Err Bytes} (hm : (⟨.beforenm pk sk, k⟩ : Ev env) ∈ tr) :
    sk = kp.sec ∧ ∃ raw rest, readsOf tr = raw :: rest ∧ pk = field raw 10 32 := by
  cases server_cut hkp h with
  | shake p hc _ _ =>
    unfold serverFull at hc
    cases hb : cfg.bufferM2 with
    | true =>
      simp only [hb, if_true, serverHead, serverBuffered, serverTail, List.cons_append, List.nil_append] at hc
      rcases Cut.step hc hm with h | ⟨tr, rfl, hc, hm⟩
      · cases h
      rcases Cut.step hc hm with h | ⟨tr, rfl, hc, hm⟩
      · cases h
      rcases Cut.step hc hm with h | ⟨tr, rfl, hc, hm⟩
      · cases h
      rcases Cut.step hc hm with h | ⟨tr, rfl, hc, hm⟩
      · cases h
      rcases Cut.step hc hm with h | ⟨tr, rfl, hc, hm⟩
      · cases h
        exact ⟨rfl, _, _, rfl, rfl⟩
      · obtain ⟨ev, hev, ho⟩ := Cut.ops hc hm
        simp only [List.mem_cons, List.not_mem_nil, or_false] at hev
        rcases hev with rfl | rfl | rfl | rfl | rfl | rfl | rfl | rfl | rfl <;> cases ho
    | false =>
      simp only [hb, Bool.false_eq_true, if_false, serverHead, serverPlain, serverTail, List.cons_append,
        List.nil_append] at hc
      rcases Cut.step hc hm with h | ⟨tr, rfl, hc, hm⟩
      · cases h
      rcases Cut.step hc hm with h | ⟨tr, rfl, hc, hm⟩
      · cases h
      rcases Cut.step hc hm with h | ⟨tr, rfl, hc, hm⟩
      · cases h
      rcases Cut.step hc hm with h | ⟨tr, rfl, hc, hm⟩
      · cases h
      rcases Cut.step hc hm with h | ⟨tr, rfl, hc, hm⟩
      · cases h
      rcases Cut.step hc hm with h | ⟨tr, rfl, hc, hm⟩
      · cases h
      rcases Cut.step hc hm with h | ⟨tr, rfl, hc, hm⟩
      · cases h
        exact ⟨rfl, _, _, rfl, rfl⟩
      · obtain ⟨ev, hev, ho⟩ := Cut.ops hc hm
        simp only [List.mem_cons, List.not_mem_nil, or_false] at hev
        rcases hev with rfl | rfl | rfl | rfl | rfl | rfl | rfl | rfl <;> cases ho
  | refuse p e m _ _ _ hc _ _ =>
    obtain ⟨ev, hev, ho⟩ := Cut.ops hc hm
    simp only [serverRefuse, serverHead, List.cons_append, List.nil_append, List.mem_cons, List.not_mem_nil, or_false] at hev
    rcases hev with rfl | rfl | rfl | rfl | rfl <;> cases ho
  | bad raw e x _ _ _ => simp at hm
  | a1 raw x a _ _ r _ => simp at hm

/-- C48, what holds.  The keys and nonces of a session are fixed by the two encryption key pairs: the
`i`-th encryption of a client is made with nonce position `1 + 2 i`, that of a server with `2 + 2 i`,
under the key the library computes from the own secret key and the public key in the first message
received.  (So the claim holds for sessions whose key pairs give different shared keys, and a nonce is
never used twice in one session, C19.  Missing: the claim itself, which is false.) -/
theorem C48_keys_and_nonces_partial {L : Lib} :
    (∀ {cfg : ClientCfg} {kp : KeyPair} {tr : List (Ev env)}, cfg.encKp = some kp → ClientTrace cfg tr →
      (∀ ev ∈ tr, AnsweredBy L ev) → ∀ i x, (seals tr)[i]? = some x →
        ∃ raw rest, readsOf tr = raw :: rest ∧ L.beforenm (field raw 6 32) kp.sec = .ok x.key ∧
          x.nonce = Spec.nonce (1 + 2 * i)) ∧
    (∀ {cfg : ServerCfg} {kp : KeyPair} {tr : List (Ev env)}, cfg.encKp = some kp → ServerTrace cfg tr →
      (∀ ev ∈ tr, AnsweredBy L ev) → ∀ i x, (seals tr)[i]? = some x →
        ∃ raw rest, readsOf tr = raw :: rest ∧ L.beforenm (field raw 10 32) kp.sec = .ok x.key ∧
          x.nonce = Spec.nonce (2 + 2 * i)) := by
  constructor
  · intro cfg kp tr hkp h hL i x hx
    have gen : ∀ {tr r s}, Call (Client.handshake cfg) Client.init tr r s → CReady tr s := by
      intro tr r s h
      cases r with
      | ok u => exact (client_chan cfg).run_ok (P := CNew) ⟨rfl, rfl, rfl⟩ h
      | error e => exact (client_chan cfg).run_error (P := CNew) ⟨rfl, rfl, rfl⟩ h
    cases h with
    | none h hn =>
      have := (gen h).1
      rw [hn] at this
      rw [this.1] at hx; cases hx
    | app h hc hr =>
      rename_i tr0 r s c β tr' b prog
      have := (gen h).1
      rw [hc] at this
      have hadv := this.step (app_run_adv _ _ this.std _ _ hr)
      obtain ⟨ha, pk, sk, hm⟩ := this
      obtain ⟨rfl, raw, rest, hread, rfl⟩ := client_key hkp h hm
      obtain ⟨h1, -, h3⟩ := hadv.1.sealAt i x hx
      refine ⟨raw, rest ++ readsOf tr', by rw [readsOf_append, hread]; rfl, ?_, h3⟩
      rw [h1]
      have hk := (app_run_adv _ _ ((encInit_std _ _).adv ha) _ _ hr).key
      show L.beforenm _ _ = .ok b.2.enc.key
      rw [hk]
      exact (hL _ (List.mem_append.2 (.inl hm))).symm
  · intro cfg kp tr hkp h hL i x hx
    have gen : ∀ {tr r s}, Call (Server.handshake cfg) Server.init tr r s → SReady tr s := by
      intro tr r s h
      cases r with
      | ok u => exact (server_chan cfg).run_ok (P := SNew) ⟨rfl, rfl, rfl⟩ h
      | error e => exact (server_chan cfg).run_error (P := SNew) ⟨rfl, rfl, rfl⟩ h
    cases h with
    | none h hn =>
      have := (gen h).1
      rw [hn] at this
      rw [this.1] at hx; cases hx
    | app h hc hr =>
      rename_i tr0 r s c β tr' b prog
      have := (gen h).1
      rw [hc] at this
      have hadv := this.step (app_run_adv _ _ this.std _ _ hr)
      obtain ⟨ha, pk, sk, hm⟩ := this
      obtain ⟨rfl, raw, rest, hread, rfl⟩ := server_key hkp h hm
      obtain ⟨h1, -, h3⟩ := hadv.1.sealAt i x hx
      refine ⟨raw, rest ++ readsOf tr', by rw [readsOf_append, hread]; rfl, ?_, h3⟩
      rw [h1]
      have hk := (app_run_adv _ _ ((encInit_std _ _).adv ha) _ _ hr).key
      show L.beforenm _ _ = .ok b.2.enc.key
      rw [hk]
      exact (hL _ (List.mem_append.2 (.inl hm))).symm

/-- The hypotheses are met by the sessions of `C48_reused`. -/
example : ∃ (L : Lib) (cfg : ClientCfg) (kp : KeyPair) (tr : List (Ev env)), cfg.encKp = some kp ∧
    ClientTrace cfg tr ∧ (∀ ev ∈ tr, AnsweredBy L ev) ∧ seals tr ≠ [] := by
  obtain ⟨tr, tr', x, y, h1, h2, h3, h4, h5, -⟩ := C48_reused toy_honest
    ⟨_, some _, false, []⟩ rfl rfl rfl ⟨0, 0, 0, 0, 0⟩ ⟨0, 0, 0, 0, 1⟩ (by decide)
  exact ⟨toyLib, _, _, tr, rfl, h1, fun ev hev => h3 ev (List.mem_append.2 (.inl hev)), List.ne_nil_of_mem h4⟩

end Salt.Props
