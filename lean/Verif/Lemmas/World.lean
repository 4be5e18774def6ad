import Verif.Spec.World
import Verif.Lemmas.SessionChan
import Verif.Props.Session2

/-!
# Lemmas for sessions on a network that an attacker controls
-/

set_option linter.unusedSimpArgs false

namespace Salt

open Spec Props

/-! ### The calls of an application -/

/-- Not an operation that occurs only in handshakes. -/
def EnvOp.appOnly : EnvOp → Prop
  | .sign _ _ | .signOpen _ _ | .hash _ | .beforenm _ _ => False
  | _ => True

theorem Enc_read_appOnly : OpsIn (S := env) EnvOp.appOnly Enc.read := by
  unfold Enc.read Enc.fetch Enc.unwrap Enc.decrypt; opsin trivial

theorem Enc_encryptAll_appOnly (l : Bool) (ms : List Bytes) :
    OpsIn (S := env) EnvOp.appOnly (Enc.encryptAll l ms) := by
  induction ms with
  | nil => unfold Enc.encryptAll; opsin trivial
  | cons m ms ih =>
    unfold Enc.encryptAll Enc.encrypt; opsin trivial
    exact ih

theorem Enc_write_appOnly (ms : List Bytes) (l : Bool) : OpsIn (S := env) EnvOp.appOnly (Enc.write ms l) := by
  unfold Enc.write; opsin trivial
  exact Enc_encryptAll_appOnly _ _

theorem App_read_appOnly : OpsIn (S := env) EnvOp.appOnly App.read := by
  unfold App.read; opsin trivial
  exact Enc_read_appOnly

theorem App_write_appOnly (ms : List Bytes) (l : Bool) : OpsIn (S := env) EnvOp.appOnly (App.write ms l) := by
  unfold App.write; opsin trivial
  all_goals exact Enc_write_appOnly _ _

theorem callAll_appOnly (ops : List AppOp) (s : AppSt) :
    wp (callAll appOps ops s) fun tr _ => ∀ ev ∈ tr, EnvOp.appOnly ev.op := by
  induction ops generalizing s with
  | nil => simp [callAll]
  | cons op ops ih =>
    have key : ∀ {α : Type} (m : Py env AppSt α), OpsIn (S := env) EnvOp.appOnly m → ∀ (f : Except Err α → Done),
        wp ((m s).bind fun (r, s') => (callAll appOps ops s').bind fun (ds, s'') => .ret (f r :: ds, s''))
          fun tr _ => ∀ ev ∈ tr, EnvOp.appOnly ev.op := by
      intro α m hm f
      simp only [wp_bind]
      refine wp_mono _ (hm s) ?_
      rintro tr ⟨r, s'⟩ h
      refine wp_mono _ (ih s') ?_
      rintro tr' ⟨ds, s''⟩ h'
      simp only [wp_ret, List.append_nil, List.mem_append]
      rintro ev (he | he)
      · exact h ev he
      · exact h' ev (by simpa using he)
    cases op with
    | read => exact key _ App_read_appOnly _
    | write ms l => exact key _ (App_write_appOnly ms l) _

/-- Whatever an application program does, it does by a sequence of calls. -/
theorem app_run_calls {β : Type} (prog : IT appSig β) (s : AppSt) {tr : List (Ev env)} {b : β × AppSt}
    (h : Exec (App.run prog s) tr b) : ∃ ops ds, Exec (callAll appOps ops s) tr (ds, b.2) ∧ Did prog ds b.1 := by
  induction prog generalizing s tr with
  | ret x =>
    simp only [App.run, Exec_ret] at h
    obtain ⟨rfl, rfl⟩ := h
    exact ⟨[], [], .ret _, rfl, rfl⟩
  | op e k ih =>
    simp only [App.run, Exec_bind] at h
    obtain ⟨tr1, ⟨r, s1⟩, tr2, rfl, h1, h2⟩ := h
    obtain ⟨ops, ds, h3, h4⟩ := ih _ _ h2
    cases e with
    | read =>
      refine ⟨.read :: ops, .read r :: ds, ?_, r, ds, rfl, h4⟩
      simp only [callAll, Exec_bind]
      exact ⟨tr1, _, tr2, rfl, h1, tr2, _, [], by simp, h3, .ret _⟩
    | write ms l =>
      refine ⟨.write ms l :: ops, .write ms l r :: ds, ?_, r, ds, rfl, h4⟩
      simp only [callAll, Exec_bind]
      exact ⟨tr1, _, tr2, rfl, h1, tr2, _, [], by simp, h3, .ret _⟩

/-! ### What a writer has sent -/

/-- First byte of an app or multi packet. -/
def AppHead (p : Bytes) : Prop := p.head? = some 5 ∨ p.head? = some 11

theorem appPackets_head (t : Nat) (ms : List Bytes) : ∀ p ∈ appPackets t ms, AppHead p := by
  intro p hp
  unfold appPackets at hp
  split at hp
  · simp only [List.mem_singleton] at hp
    subst hp; exact .inr rfl
  · obtain ⟨m, -, rfl⟩ := List.mem_map.1 hp
    exact .inl rfl

/-- What the write calls have sealed: the pending M4, if it got that far, then packets of the messages. -/
def Sent (s : AppSt) (ds : List Done) (sealed : List Bytes) : Prop :=
  ∃ pre rest msgs, sealed = pre ++ rest ∧ (pre = [] ∨ ∃ f t, m4Of s = some f ∧ pre = [f t]) ∧
    (∀ p ∈ rest, AppHead p) ∧ CarryAll rest msgs ∧ msgs.Sublist (triedMsgs ds) ∧
    (FailsLast ds → msgs <+: triedMsgs ds)

theorem triedMsgs_none {ds : List Done} (h : ∀ ms l r, Done.write ms l r ∉ ds) : triedMsgs ds = [] := by
  induction ds with
  | nil => rfl
  | cons d ds ih =>
    cases d with
    | read r => exact ih fun ms l r hm => h ms l r (List.mem_cons_of_mem _ hm)
    | write ms l r => exact absurd (List.mem_cons_self ..) (h ms l r)

theorem prefix_pending {s : AppSt} {t : Nat} {ps q : List Bytes} (h : q <+: pending s t ++ ps) :
    q = [] ∨ ∃ q', q = pending s t ++ q' ∧ q' <+: ps := by
  rw [pending_eq] at *
  revert h
  cases m4Of s with
  | none =>
    intro h
    simp only [Option.map_none, Option.toList_none, List.nil_append] at *
    exact .inr ⟨q, rfl, h⟩
  | some f =>
    intro h
    simp only [Option.map_some, Option.toList_some, List.cons_append, List.nil_append] at *
    cases q with
    | nil => exact .inl rfl
    | cons a q =>
      rw [List.cons_prefix_cons] at h
      exact .inr ⟨q, by rw [h.1], h.2⟩

theorem pending_pre (s : AppSt) (t : Nat) : pending s t = [] ∨ ∃ f u, m4Of s = some f ∧ pending s t = [f u] := by
  rw [pending_eq]
  cases m4Of s with
  | none => exact .inl rfl
  | some f => exact .inr ⟨f, t, rfl, rfl⟩

theorem appAll_sent (ops : List AppOp) (s : AppSt) (hs : Std s.enc) (hsw : ShortWrites ops) :
    wp (callAll appOps ops s) fun tr b => Sent s b.1 ((seals tr).map (·.msg)) := by
  induction ops generalizing s with
  | nil =>
    simp only [callAll, wp_ret, seals, List.map_nil]
    exact ⟨[], [], [], rfl, .inl rfl, by simp, .nil, by simp, by simp⟩
  | cons op ops ih =>
    have hsw' : ShortWrites ops := fun ms l hm => hsw ms l (List.mem_cons_of_mem _ hm)
    cases op with
    | read =>
      simp only [callAll, wp_bind, appOps]
      refine wp_mono _ (App_read_wp s hs) ?_
      rintro tr ⟨r, s'⟩ ⟨ha, hse, hb, -, -, -⟩
      refine wp_mono _ (ih s' (hs.adv ha) hsw') ?_
      rintro tr' ⟨ds, s''⟩ ⟨pre, rest, msgs, h1, h2, h3, h4, h5, h6⟩
      simp only [wp_ret, List.append_nil] at *
      have hm4 : m4Of s' = m4Of s := by simp [m4Of, hb]
      refine ⟨pre, rest, msgs, ?_, hm4 ▸ h2, h3, h4, h5, h6⟩
      rw [seals_append, hse, List.nil_append, h1]
    | write ms l =>
      simp only [callAll, wp_bind, appOps]
      refine wp_mono _ (App_write_wp ms l s hs) ?_
      rintro tr ⟨r, s'⟩ ⟨ha, -, -, hr⟩
      refine wp_mono _ (ih s' (hs.adv ha) hsw') ?_
      rintro tr' ⟨ds, s''⟩ ⟨pre, rest, msgs, h1, h2, h3, h4, h5, h6⟩
      simp only [wp_ret, List.append_nil] at *
      have hc := fun t => appPackets_carry t ms (hsw ms l (List.mem_cons_self ..))
      -- what is known of the later calls
      have late : ∀ e, r = .error e → FailsLast (.write ms l r :: ds) → msgs = [] := by
        rintro e rfl hf
        have hn : ∀ ms l r, Done.write ms l r ∉ ds := hf
        rw [triedMsgs_none hn] at h5
        simpa using h5
      rcases hr with ⟨e, rfl, hb⟩ | ⟨t, -, hb, hr⟩
      · simp only [Prod.mk.injEq] at hb
        obtain ⟨rfl, rfl⟩ := hb
        refine ⟨pre, rest, msgs, ?_, h2, h3, h4, ?_, fun hf => ?_⟩
        · rw [seals_append]; exact h1
        · exact h5.trans (List.sublist_append_right _ _)
        · rw [late e rfl hf]; simp
      · have hm : m4Of s' = none := by simp [m4Of, hb]
        have hpre : pre = [] := by
          rcases h2 with h2 | ⟨f, t, hf, -⟩
          · exact h2
          · rw [hm] at hf; simp at hf
        subst hpre
        rw [List.nil_append] at h1
        rcases hr with ⟨hse, -⟩ | ⟨hbad, -, hp⟩
        · refine ⟨pending s t, appPackets t ms ++ rest, ms ++ msgs, ?_, pending_pre s t, ?_, ?_, ?_, fun hf => ?_⟩
          · rw [seals_append, List.map_append, hse, h1, List.append_assoc]
          · intro p hp
            rcases List.mem_append.1 hp with hp | hp
            · exact appPackets_head t ms p hp
            · exact h3 p hp
          · exact CarryAll.append (hc t) h4
          · exact h5.append_left ms
          · cases r with
            | ok u => exact (List.prefix_append_right_inj _).2 (h6 hf)
            | error e => rw [late e rfl hf, List.append_nil]; exact List.prefix_append _ _
        · have herr : ∃ e, r = .error e := by
            cases r with
            | ok u => exact absurd rfl hbad
            | error e => exact ⟨e, rfl⟩
          obtain ⟨e, rfl⟩ := herr
          rcases prefix_pending hp with hq | ⟨q, hq, hqp⟩
          · refine ⟨[], rest, msgs, ?_, .inl rfl, h3, h4, ?_, fun hf => ?_⟩
            · rw [seals_append, List.map_append, hq, h1]
            · exact h5.trans (List.sublist_append_right _ _)
            · rw [late e rfl hf]; simp
          · obtain ⟨ms', hm'⟩ := CarryAll.of_prefix hqp (hc t)
            have hpm := CarryAll.prefix hqp hm' (hc t)
            refine ⟨pending s t, q ++ rest, ms' ++ msgs, ?_, pending_pre s t, ?_, ?_, ?_, fun hf => ?_⟩
            · rw [seals_append, List.map_append, hq, h1, List.append_assoc]
            · intro p hp
              rcases List.mem_append.1 hp with hp | hp
              · exact appPackets_head t ms p (hqp.subset hp)
              · exact h3 p hp
            · exact CarryAll.append hm' h4
            · exact hpm.sublist.append h5
            · rw [late e rfl hf, List.append_nil]
              exact hpm.trans (List.prefix_append _ _)

/-! ### What a reader has returned -/

theorem appAll_read (ops : List AppOp) (s : AppSt) (hs : Std s.enc) :
    wp (callAll appOps ops s) fun tr b => ∀ msgs, CarryAll ((opens tr).map (·.msg)) msgs →
      (readMsgs b.1 ++ b.2.readQ).Sublist (s.readQ ++ msgs) := by
  induction ops generalizing s with
  | nil =>
    simp only [callAll, wp_ret, opens, readMsgs, List.map_nil]
    intro msgs h
    exact List.sublist_append_left _ _
  | cons op ops ih =>
    cases op with
    | read =>
      simp only [callAll, wp_bind, appOps]
      refine wp_mono _ (App_read_wp s hs) ?_
      rintro tr ⟨r, s'⟩ ⟨ha, -, -, -, -, hr⟩
      refine wp_mono _ (ih s' (hs.adv ha)) ?_
      rintro tr' ⟨ds, s''⟩ h
      simp only [wp_ret, List.append_nil] at *
      intro msgs hc
      rw [opens_append, List.map_append] at hc
      rw [readMsgs_cons]
      cases r with
      | error e =>
        obtain ⟨hq, hq', ho⟩ := hr
        simp only [readMsgs, List.nil_append, hq]
        rcases ho with ho | ⟨x, hx, -⟩
        · rw [ho] at hc
          have := h msgs hc
          rwa [hq', List.nil_append] at this
        · rw [hx] at hc
          generalize hps : (opens tr').map (·.msg) = ps at hc
          cases hc with
          | cons hcar hrest =>
            have hrest : CarryAll ps _ := hrest
            have := h _ (hps ▸ hrest)
            rw [hq', List.nil_append] at this
            exact this.trans (List.sublist_append_right _ _)
      | ok m =>
        simp only [readMsgs, List.cons_append, List.nil_append]
        rcases hr with ⟨hq, htr, -⟩ | ⟨hq, x, t, hx, hp⟩
        · rw [htr] at hc
          have := h msgs hc
          rw [hq]
          exact this.cons_cons m
        · rw [hx] at hc
          generalize hps : (opens tr').map (·.msg) = ps at hc
          cases hc with
          | cons hcar hrest =>
            obtain ⟨t', m', q', rfl, hp'⟩ := carries_parse hcar
            rw [hp'] at hp
            simp only [Except.ok.injEq, Prod.mk.injEq] at hp
            obtain ⟨-, rfl, rfl⟩ := hp
            have hrest : CarryAll ps _ := hrest
            have := h _ (hps ▸ hrest)
            rw [hq]
            exact this.cons_cons _
    | write ms l =>
      simp only [callAll, wp_bind, appOps]
      refine wp_mono _ (App_write_wp ms l s hs) ?_
      rintro tr ⟨r, s'⟩ ⟨ha, ho, hq, -⟩
      refine wp_mono _ (ih s' (hs.adv ha)) ?_
      rintro tr' ⟨ds, s''⟩ h
      simp only [wp_ret, List.append_nil] at *
      intro msgs hc
      rw [opens_append, ho, List.nil_append] at hc
      rw [readMsgs_cons, ← hq]
      exact h msgs hc

/-! ### Handshakes -/

theorem Cut.past {f g tr : List (Ev env)} {e : Ev env} (hf : ∀ a ∈ f, a.op ≠ e.op) (h : Cut (f ++ g) tr)
    (he : e ∈ tr) : ∃ tr', tr = f ++ tr' ∧ Cut g tr' ∧ e ∈ tr' := by
  induction f generalizing tr with
  | nil => exact ⟨tr, rfl, h, he⟩
  | cons a f ih =>
    rcases h.cons_inv with rfl | ⟨x, rfl⟩ | ⟨tr', rfl, h'⟩
    · simp at he
    · simp only [List.mem_singleton] at he
      exact absurd (congrArg Ev.op he).symm (hf a (List.mem_cons_self ..))
    · rcases List.mem_cons.1 he with he | he
      · exact absurd (congrArg Ev.op he).symm (hf a (List.mem_cons_self ..))
      · obtain ⟨tr'', rfl, h2, h3⟩ := ih (fun b hb => hf b (List.mem_cons_of_mem _ hb)) h' he
        exact ⟨tr'', rfl, h2, h3⟩

theorem Cut.seals {f tr : List (Ev env)} (h : Cut f tr) : seals tr <+: seals f := by
  induction h with
  | stop _ => simp [Spec.seals]
  | raised op r e full => cases op <;> simp [Spec.seals]
  | next ev _ ih =>
    rename_i full tr _
    rw [show ev :: tr = [ev] ++ tr from rfl, show ev :: full = [ev] ++ full from rfl, seals_append, seals_append]
    exact (List.prefix_append_right_inj _).2 ih

theorem field_mid (pre mid post : Bytes) {off n : Nat} (h1 : pre.length = off) (h2 : mid.length = n) :
    field (pre ++ mid ++ post) off n = mid := by
  subst h1 h2
  simp [field, List.append_assoc]

theorem field_m1 (t : Nat) (pk : Bytes) (h : pk.length = 32) : field (Spec.m1 t pk none) 10 32 = pk := by
  have := field_mid ([0x53, 0x43, 0x76, 0x32, 1, 0] ++ le32 t) pk [] (off := 10) rfl h
  simpa [Spec.m1] using this

theorem field_m2 (a b : Bool) (t : Nat) (pk : Bytes) (h : pk.length = 32) :
    field (Spec.m2 a b t pk) 6 32 = pk := by
  have := field_mid ([2, (if a then 1 else 0) + (if b then 128 else 0)] ++ le32 t) pk [] (off := 6) rfl h
  simpa [Spec.m2] using this

theorem field_m4 (t : Nat) (pk sig : Bytes) (h : pk.length = 32) : field (Spec.m4 t pk sig) 6 32 = pk :=
  field_mid ([4, 0] ++ le32 t) pk sig (off := 6) rfl h

theorem field_m3 (t : Nat) (pk sig : Bytes) (h : pk.length = 32) : field (Spec.m3 t pk sig) 6 32 = pk :=
  field_mid ([3, 0] ++ le32 t) pk sig (off := 6) rfl h

theorem Exec_bind_py {σ α β : Type} {m : Py env σ α} {f : α → Py env σ β} {s s' : σ} {tr : List (Ev env)}
    {r : Except Err β} (h : Exec ((m >>= f) s) tr (r, s')) :
    (∃ e, r = .error e ∧ Exec (m s) tr (.error e, s')) ∨
    ∃ tr1 a s1 tr2, tr = tr1 ++ tr2 ∧ Exec (m s) tr1 (.ok a, s1) ∧ Exec (f a s1) tr2 (r, s') := by
  rw [Py.bind_run, Exec_bind] at h
  obtain ⟨tr1, ⟨r1, s1⟩, tr2, rfl, h1, h2⟩ := h
  cases r1 with
  | error e =>
    simp only [Exec_ret, Prod.mk.injEq] at h2
    obtain ⟨rfl, rfl, rfl⟩ := h2
    exact .inl ⟨e, rfl, by simpa using h1⟩
  | ok a => exact .inr ⟨tr1, a, s1, tr2, rfl, h1, h2⟩

/-- Not a computation of a session key. -/
def EnvOp.noKey : EnvOp → Prop
  | .beforenm _ _ => False
  | _ => True

theorem client_pub {cfg : ClientCfg} {kp : KeyPair} (hkp : cfg.encKp = some kp) {s s' : ClientSt}
    {tr : List (Ev env)} {r : Except Err Unit} (h : Call (Client.handshake cfg) s tr r s') {pk sk : Bytes}
    {x : Except Err Bytes} (hm : ⟨EnvOp.beforenm pk sk, x⟩ ∈ tr) : kp.pub.length = 32 := by
  refine Decidable.byContradiction fun hne => ?_
  unfold Call Client.handshake at h
  rcases Exec_bind_py h with ⟨e, -, h⟩ | ⟨tr0, kp', s0, tr1, rfl, h0, h⟩
  · unfold Client.validate at h
    rw [hkp] at h
    simp at h
  unfold Client.validate at h0
  rw [hkp] at h0
  simp only [Py.pure_run, Exec_ret, Prod.mk.injEq, Except.ok.injEq] at h0
  obtain ⟨rfl, rfl, rfl⟩ := h0
  have key : ∀ {tr b}, Exec (Client.doM1 kp s) tr b → (⟨EnvOp.beforenm pk sk, x⟩ : Ev env) ∉ tr ∧ ∃ e, b.1 = .error e := by
    intro tr b hx
    rw [c_doM1_run, Exec_op] at hx
    obtain ⟨r, tr, rfl, hx⟩ := hx
    cases r with
    | error e =>
      simp only [Exec_ret] at hx
      obtain ⟨rfl, rfl⟩ := hx
      exact ⟨by simp, e, rfl⟩
    | ok t =>
      simp only [if_neg hne, Exec_ret] at hx
      obtain ⟨rfl, rfl⟩ := hx
      exact ⟨by simp, _, rfl⟩
  rcases Exec_bind_py h with ⟨e, -, h⟩ | ⟨tr1, a, s1, tr2, rfl, h1, h⟩
  · exact (key h).1 (by simpa using hm)
  · obtain ⟨-, e, he⟩ := key h1
    simp at he

theorem server_pub {cfg : ServerCfg} {kp : KeyPair} (hkp : cfg.encKp = some kp) {s s' : ServerSt}
    {tr : List (Ev env)} {r : Except Err Unit} (h : Call (Server.handshake cfg) s tr r s') {pk sk : Bytes}
    {x : Except Err Bytes} (hm : ⟨EnvOp.beforenm pk sk, x⟩ ∈ tr) : kp.pub.length = 32 := by
  refine Decidable.byContradiction fun hne => ?_
  have hv : ∀ {s tr b}, Exec (Server.validate cfg s) tr b → tr = [] ∧ b = (.ok kp, s) := by
    intro s tr b h
    unfold Server.validate at h
    rw [hkp] at h
    simp only [Py.pure_run, Exec_ret] at h
    exact ⟨h.1, h.2.symm⟩
  have h1op : OpsIn (S := env) EnvOp.noKey (Server.doM1 cfg) := by
    unfold Server.doM1; opsin trivial
  have h2op : ∀ raw, OpsIn (S := env) EnvOp.noKey (Server.doA2 cfg raw) := by
    intro raw; unfold Server.doA2; opsin trivial
  have key : ∀ {s tr b}, Exec (Server.doM2 cfg kp s) tr b →
      (⟨EnvOp.beforenm pk sk, x⟩ : Ev env) ∉ tr ∧ ∃ e, b.1 = .error e := by
    intro s tr b hx
    rw [s_doM2_run, Exec_op] at hx
    obtain ⟨r, tr, rfl, hx⟩ := hx
    cases r with
    | error e =>
      simp only [Exec_ret] at hx
      obtain ⟨rfl, rfl⟩ := hx
      exact ⟨by simp, e, rfl⟩
    | ok t =>
      simp only [if_neg hne, Exec_ret] at hx
      obtain ⟨rfl, rfl⟩ := hx
      exact ⟨by simp, _, rfl⟩
  unfold Call Server.handshake at h
  rcases Exec_bind_py h with ⟨e, -, g⟩ | ⟨tr0, kp', s0, tr1, htr, h0, g0⟩
  · have := (hv g).2; simp at this
  clear h
  have hkp' := hv h0
  simp only [Prod.mk.injEq, Except.ok.injEq] at hkp'
  obtain ⟨rfl, rfl, rfl⟩ := hkp'
  rw [List.nil_append] at htr
  subst htr
  rcases Exec_bind_py g0 with ⟨e, -, g⟩ | ⟨tr1, o, s1, tr2, htr, h1, g1⟩
  · exact h1op _ _ _ g _ hm
  clear g0
  have hm : (⟨EnvOp.beforenm pk sk, x⟩ : Ev env) ∈ tr2 := by
    rw [htr] at hm
    rcases List.mem_append.1 hm with hm | hm
    · exact absurd hm fun hm => h1op _ _ _ h1 _ hm
    · exact hm
  cases o with
  | some raw =>
    simp only [] at g1
    rcases Exec_bind_py g1 with ⟨e, -, g⟩ | ⟨tr3, _, s2, tr4, rfl, h3, g⟩
    · exact h2op _ _ _ _ g _ hm
    · simp only [Py.modifySt_run, Exec_ret] at g
      obtain ⟨rfl, -⟩ := g
      exact h2op _ _ _ _ h3 _ (by simpa using hm)
  | none =>
    simp only [] at g1
    rcases Exec_bind_py g1 with ⟨e, -, g⟩ | ⟨tr3, _, s2, tr4, rfl, h3, g2⟩
    · have := (hv g).2; simp at this
    obtain ⟨rfl, -⟩ := hv h3
    rw [List.nil_append] at hm
    rcases Exec_bind_py g2 with ⟨e, -, g⟩ | ⟨tr5, a, s3, tr6, rfl, h5, g⟩
    · exact (key g).1 hm
    · obtain ⟨-, e, he⟩ := key h5
      simp at he

/-! ### The channel after a handshake -/

/-- There is no channel yet, and nothing was signed. -/
def SBefore (tr : List (Ev env)) (s : ServerSt) : Prop := s.chan = none ∧ ∀ m sk x, ⟨EnvOp.sign m sk, x⟩ ∉ tr

/-- There is a channel, with nothing pending. -/
def SAfter (_ : List (Ev env)) (s : ServerSt) : Prop := ∃ c, s.chan = some c ∧ c.bufferedM4 = none ∧ c.readQ = []

/-- One of the two. -/
def SMid (tr : List (Ev env)) (s : ServerSt) : Prop := SBefore tr s ∨ SAfter tr s

theorem SBefore.snoc {tr : List (Ev env)} {s : ServerSt} (h : SBefore tr s) (e : EnvOp)
    (he : ∀ m sk, e ≠ .sign m sk) (r : Except Err (EnvOp.Resp e)) : SBefore (tr ++ [⟨e, r⟩]) s := by
  refine ⟨h.1, fun m sk x hm => ?_⟩
  rcases List.mem_append.1 hm with hm | hm
  · exact h.2 m sk x hm
  · simp only [List.mem_singleton] at hm
    exact he m sk (congrArg Ev.op hm).symm

theorem sa_onEnc_pres {α : Type} {m : Py env EncSt α} : Pres SAfter (Server.onEnc m) := by
  refine Tri.zoom ?_ ?_
  · intro _ _ h _; exact h
  · rintro tr0 s c ⟨c', hc', h1, h2⟩ hc
    rintro tr c'' ⟨rfl, rfl⟩
    rw [hc, Option.some.injEq] at hc'
    subst hc'
    simp only [App.onEnc, wp_bind]
    rintro tr' ⟨r, e⟩ hx
    cases r <;> simp only [wp_ret, List.append_nil] <;> exact ⟨_, rfl, h1, h2⟩

theorem sb_create_tri (kp : KeyPair) :
    Tri SBefore (Server.createEncryptedChannel kp) (fun _ => SAfter) (fun _ => SMid) := by
  unfold Server.createEncryptedChannel
  refine Tri.bind (Q := fun _ => SBefore) (Pres.getSt.tri fun _ _ h => .inl h) fun s => ?_
  split
  · exact Tri.raise _ fun _ _ h => .inl h
  · refine Tri.bind (Q := fun _ => SBefore) ?_ fun k => ?_
    · refine Tri.conseq (shared_tri (I := SBefore) _ _ ?_) (fun _ _ h => h) (fun _ _ _ h => h.1)
        fun _ _ _ h => .inl h
      exact fun _ _ _ h => h.snoc _ (by simp) _
    · refine Tri.bind (Q := fun _ => SBefore) (Tri.modifySt _ fun _ _ h => h) fun _ => ?_
      refine Tri.bind (Q := fun a tr s => a = encInit k .server ∧ SBefore tr s) (Tri.lift _ ?_ ?_)
        fun e => Tri.modifySt _ ?_
      · intro a ha tr s h
        rw [Enc_init_eq] at ha
        split at ha <;> simp only [Except.ok.injEq, reduceCtorEq] at ha
        exact ⟨ha.symm, h⟩
      · intro _ _ tr s h; exact .inl h
      · rintro tr s ⟨rfl, h⟩
        exact ⟨_, rfl, rfl, rfl⟩

theorem sb_chan (cfg : ServerCfg) : Tri SBefore (Server.handshake cfg) (fun _ => SMid) (fun _ => SMid) := by
  have hv : Tri SBefore (Server.validate cfg) (fun _ => SBefore) (fun _ => SMid) := by
    unfold Server.validate
    split
    · exact (Pres.raise _).tri fun _ _ h => .inl h
    · exact (Pres.pure _).tri fun _ _ h => .inl h
  have h1 : Pres SBefore (Server.doM1 cfg) := by
    unfold Server.doM1
    pres
    all_goals try simp only []
    all_goals pres
    all_goals exact Pres.call _ fun _ _ _ h => h.snoc _ (by simp) _
  have h2 : ∀ raw, Pres SBefore (Server.doA2 cfg raw) := by
    intro raw
    unfold Server.doA2
    pres
    all_goals exact Pres.call _ fun _ _ _ h => h.snoc _ (by simp) _
  have h3 : ∀ kp, Pres SBefore (Server.doM2 cfg kp) := by
    intro kp
    unfold Server.doM2
    pres
    all_goals exact Pres.call _ fun _ _ _ h => h.snoc _ (by simp) _
  have h4 : Pres SAfter (Server.doM3 cfg) := by
    unfold Server.doM3 Server.doM3Head
    pres
    all_goals first
      | exact sa_onEnc_pres
      | exact Pres.call _ fun _ _ _ h => h
  have h5 : Pres SAfter Server.doM4 := by
    unfold Server.doM4
    pres
    · exact sa_onEnc_pres
    · exact Pres.call _ fun _ _ _ h => h
  have h6 : Pres SAfter Server.validateSignature2 := by
    unfold Server.validateSignature2
    pres
    all_goals exact Pres.call _ fun _ _ _ h => h
  unfold Server.handshake
  refine Tri.bind hv fun kp => ?_
  refine Tri.bind (h1.tri fun _ _ h => .inl h) fun ok => ?_
  split
  · refine Tri.bind ((h2 _).tri fun _ _ h => .inl h) fun _ => ?_
    exact Tri.modifySt _ fun _ s h => .inl h
  · refine Tri.bind hv fun _ => ?_
    refine Tri.bind ((h3 kp).tri fun _ _ h => .inl h) fun _ => ?_
    refine Tri.bind (sb_create_tri kp) fun _ => ?_
    have := Pres.bind h4 fun _ => Pres.bind h5 fun _ => h6
    exact this.conseq (fun _ _ h => h) (fun _ _ _ h => .inr h) fun _ _ _ h => .inr h

/-- There is no channel yet, and nothing was signed. -/
def CBefore (tr : List (Ev env)) (s : ClientSt) : Prop := s.chan = none ∧ ∀ m sk x, ⟨EnvOp.sign m sk, x⟩ ∉ tr

/-- There is a channel, with nothing pending. -/
def CAfter (_ : List (Ev env)) (s : ClientSt) : Prop := ∃ c, s.chan = some c ∧ c.bufferedM4 = none ∧ c.readQ = []

/-- One of the two. -/
def CMid (tr : List (Ev env)) (s : ClientSt) : Prop := CBefore tr s ∨ CAfter tr s

theorem CBefore.snoc {tr : List (Ev env)} {s : ClientSt} (h : CBefore tr s) (e : EnvOp)
    (he : ∀ m sk, e ≠ .sign m sk) (r : Except Err (EnvOp.Resp e)) : CBefore (tr ++ [⟨e, r⟩]) s := by
  refine ⟨h.1, fun m sk x hm => ?_⟩
  rcases List.mem_append.1 hm with hm | hm
  · exact h.2 m sk x hm
  · simp only [List.mem_singleton] at hm
    exact he m sk (congrArg Ev.op hm).symm

theorem ca_onEnc_pres {α : Type} {m : Py env EncSt α} : Pres CAfter (Client.onEnc m) := by
  refine Tri.zoom ?_ ?_
  · intro _ _ h _; exact h
  · rintro tr0 s c ⟨c', hc', h1, h2⟩ hc
    rintro tr c'' ⟨rfl, rfl⟩
    rw [hc, Option.some.injEq] at hc'
    subst hc'
    simp only [App.onEnc, wp_bind]
    rintro tr' ⟨r, e⟩ hx
    cases r <;> simp only [wp_ret, List.append_nil] <;> exact ⟨_, rfl, h1, h2⟩

theorem cb_create_tri (kp : KeyPair) :
    Tri CBefore (Client.createEncryptedChannel kp) (fun _ => CAfter) (fun _ => CMid) := by
  unfold Client.createEncryptedChannel
  refine Tri.bind (Q := fun _ => CBefore) (Pres.getSt.tri fun _ _ h => .inl h) fun s => ?_
  split
  · exact Tri.raise _ fun _ _ h => .inl h
  · refine Tri.bind (Q := fun _ => CBefore) ?_ fun k => ?_
    · refine Tri.conseq (shared_tri (I := CBefore) _ _ ?_) (fun _ _ h => h) (fun _ _ _ h => h.1)
        fun _ _ _ h => .inl h
      exact fun _ _ _ h => h.snoc _ (by simp) _
    · refine Tri.bind (Q := fun _ => CBefore) (Tri.modifySt _ fun _ _ h => h) fun _ => ?_
      refine Tri.bind (Q := fun a tr s => a = encInit k .client ∧ CBefore tr s) (Tri.lift _ ?_ ?_)
        fun e => Tri.modifySt _ ?_
      · intro a ha tr s h
        rw [Enc_init_eq] at ha
        split at ha <;> simp only [Except.ok.injEq, reduceCtorEq] at ha
        exact ⟨ha.symm, h⟩
      · intro _ _ tr s h; exact .inl h
      · rintro tr s ⟨rfl, h⟩
        exact ⟨_, rfl, rfl, rfl⟩

/-- If the client handshake raises. -/
theorem cb_chan (cfg : ClientCfg) : Tri CBefore (Client.handshake cfg) (fun _ _ _ => True) (fun _ => CMid) := by
  have h1 : ∀ kp, Pres CBefore (Client.doM1 kp) := by
    intro kp
    unfold Client.doM1
    pres
    all_goals exact Pres.call _ fun _ _ _ h => h.snoc _ (by simp) _
  have h2 : Pres CBefore Client.doM2 := by
    unfold Client.doM2
    pres
    all_goals exact Pres.call _ fun _ _ _ h => h.snoc _ (by simp) _
  have h3 : Pres CAfter Client.doM3 := by
    unfold Client.doM3
    pres
    · exact ca_onEnc_pres
    · exact Pres.call _ fun _ _ _ h => h
  have h4 : Pres CAfter Client.validateSignature1 := by
    unfold Client.validateSignature1
    pres
    all_goals exact Pres.call _ fun _ _ _ h => h
  have h5 : Tri CAfter (Client.doM4 cfg) (fun _ _ _ => True) (fun _ => CAfter) := by
    rintro tr0 s ⟨c, hc, h⟩
    rw [c_doM4_run cfg s c hc]
    have hs : CAfter [] s := ⟨c, hc, h⟩
    rw [wp_op]
    rintro (e | t)
    · simp only [wp_ret]; exact hs
    · simp only []
      split
      · rw [wp_op]
        rintro (e | sm)
        · simp only [wp_ret]; exact hs
        · simp only []
          split
          · split
            · simp
            · simp only [wp_bind]
              rintro tr ⟨r, e⟩ hx
              cases r <;> simp only [wp_ret, List.append_nil]
              exact ⟨_, rfl, h⟩
          · simp only [wp_ret]; exact hs
      · simp only [wp_ret]; exact hs
  unfold Client.handshake Client.validate
  refine Tri.bind (Q := fun _ => CBefore) ?_ fun kp => ?_
  · split
    · exact (Pres.raise _).tri fun _ _ h => .inl h
    · exact (Pres.pure _).tri fun _ _ h => .inl h
  refine Tri.bind ((h1 kp).tri fun _ _ h => .inl h) fun _ => ?_
  refine Tri.bind (h2.tri fun _ _ h => .inl h) fun ok => ?_
  split
  · exact Tri.pure' _ fun _ _ _ => trivial
  · refine Tri.bind (cb_create_tri kp) fun _ => ?_
    refine Tri.bind (Q := fun _ => CAfter) (h3.tri fun _ _ h => .inr h) fun _ => ?_
    refine Tri.bind (Q := fun _ => CAfter) (h4.tri fun _ _ h => .inr h) fun _ => ?_
    exact h5.conseq (fun _ _ h => h) (fun _ _ _ h => h) fun _ _ _ h => .inr h

/-! ### What is known of a session with a channel -/

/-- What a client handshake that created a channel has done, whether it completed or not. -/
structure CFacts (cfg : ClientCfg) (tr : List (Ev env)) (s' : ClientSt) (c : AppSt) (kp : KeyPair) (m1 m2 : Bytes) :
    Prop where
  enc : cfg.encKp = some kp
  pub : kp.pub.length = 32
  w1 : (writesOf tr).head? = some ([m1], false)
  r2 : (readsOf tr).head? = some m2
  f1 : field m1 10 32 = kp.pub
  key : KeyIn (field m2 6 32) kp.sec c.enc.key tr
  adv : Adv (encInit c.enc.key .client) tr c.enc
  sess : c.enc.key = s'.sessionKey
  q : c.readQ = []
  m4 : (m4Of c = none ∧ (seals tr = [] ∨ ∃ t sig, (seals tr).map (·.msg) = [Spec.m4 t cfg.sigKp.pub sig])) ∨
    (seals tr = [] ∧ ∃ f, m4Of c = some f ∧ ∀ t, ∃ sig, f t = Spec.m4 t cfg.sigKp.pub sig)

theorem client_facts {cfg : ClientCfg} {tr : List (Ev env)} {r : Except Err Unit} {s' : ClientSt} {c : AppSt}
    (h : Call (Client.handshake cfg) Client.init tr r s') (hc : s'.chan = some c) :
    ∃ kp m1 m2, CFacts cfg tr s' c kp m1 m2 := by
  cases hkp : cfg.encKp with
  | none =>
    simp only [Call, Client.handshake, Py.bind_run, Client.validate, hkp, Py.raise_run, IT.ret_bind,
      Exec_ret, Prod.mk.injEq] at h
    rw [← h.2.2] at hc
    simp [Client.init] at hc
  | some kp =>
    have hready : CReady tr s' := by
      have := client_chan cfg [] Client.init ⟨rfl, rfl, rfl⟩ tr _ h
      cases r <;> exact this
    have hadv := hready.1
    rw [hc] at hadv
    obtain ⟨hadv, pk, sk, hbm⟩ := hadv
    have hpub := client_pub hkp h hbm
    obtain ⟨p, hcut⟩ := client_cut hkp h
    have hsplit : clientPre kp p ++ clientPost cfg p = (clientPre kp p).take 6 ++
        ((clientPre kp p).drop 6 ++ clientPost cfg p) := by
      rw [← List.append_assoc, List.take_append_drop]
    have hmem := hcut.mem_ok hbm
    have hpk : pk = field p.raw2 6 32 ∧ sk = kp.sec := by
      simp [clientPre, clientPost] at hmem
      exact ⟨hmem.1.1, hmem.1.2⟩
    obtain ⟨rfl, rfl⟩ := hpk
    have hsl := hcut.seals
    have hcut' := hcut
    rw [hsplit] at hcut'
    obtain ⟨tr', rfl, -, -⟩ := hcut'.past (by simp [clientPre]) hbm
    have hse : seals (clientPre kp p ++ clientPost cfg p) =
        [⟨Spec.m4 p.t4 cfg.sigKp.pub (p.sm.take 64), Spec.nonce 1, p.k, p.c4⟩] := by
      simp [clientPre, clientPost, seals]
    rw [hse] at hsl
    have hm4 : c.readQ = [] ∧ ((m4Of c = none ∧ (seals ((clientPre kp p).take 6 ++ tr') = [] ∨
        ∃ t sig, (seals ((clientPre kp p).take 6 ++ tr')).map (·.msg) = [Spec.m4 t cfg.sigKp.pub sig])) ∨
        (seals ((clientPre kp p).take 6 ++ tr') = [] ∧
          ∃ f, m4Of c = some f ∧ ∀ t, ∃ sig, f t = Spec.m4 t cfg.sigKp.pub sig)) := by
      have hs2 : seals ((clientPre kp p).take 6 ++ tr') = [] ∨
          ∃ t sig, (seals ((clientPre kp p).take 6 ++ tr')).map (·.msg) = [Spec.m4 t cfg.sigKp.pub sig] := by
        rw [List.prefix_cons_iff] at hsl
        rcases hsl with hsl | ⟨l, hsl, hl⟩
        · exact .inl hsl
        · have : l = [] := by simpa using hl
          subst this
          exact .inr ⟨_, _, by rw [hsl]; rfl⟩
      cases r with
      | error e =>
        have := cb_chan cfg [] Client.init ⟨rfl, by simp⟩ _ _ h
        rcases this with hb | ⟨c', hc', h1, h2⟩
        · have := hb.1; simp only [hc] at this; simp at this
        · simp only [hc, Option.some.injEq] at hc'
          subst hc'
          exact ⟨h2, .inl ⟨by simp [m4Of, h1], hs2⟩⟩
      | ok u =>
        obtain ⟨kp', t1, h1, raw2, m2, h2, k, p3, m3, m3p, x, t4, sm, tail, -, -, -, -, -, -, -, -, -,
          -, -, -, htr, -, -, -, -, -, -, -, hend⟩ := (client_ok h).ex
        rcases hend with ⟨-, rfl, hch⟩ | ⟨-, hch, -⟩
        · rw [hc, Option.some.injEq] at hch
          subst hch
          refine ⟨rfl, .inr ⟨by rw [htr]; simp [seals], _, rfl, fun t => ?_⟩⟩
          exact ⟨_, m4_setTime _ _ _ _⟩
        · rw [hc, Option.some.injEq] at hch
          subst hch
          exact ⟨rfl, .inl ⟨rfl, hs2⟩⟩
    refine ⟨kp, Spec.m1 p.t1 kp.pub none, p.raw2, hkp, hpub, rfl, rfl, field_m1 _ _ hpub, hbm, hadv, hready.2 _ hc,
      hm4.1, hm4.2⟩

/-- What a server handshake that created a channel has done, whether it completed or not. -/
structure SFacts (cfg : ServerCfg) (tr : List (Ev env)) (s' : ServerSt) (c : AppSt) (kp : KeyPair) (m1 : Bytes) :
    Prop where
  enc : cfg.encKp = some kp
  pub : kp.pub.length = 32
  r1 : (readsOf tr).head? = some m1
  key : KeyIn (field m1 10 32) kp.sec c.enc.key tr
  adv : Adv (encInit c.enc.key .server) tr c.enc
  sess : c.enc.key = s'.sessionKey
  q : c.readQ = []
  m4 : m4Of c = none
  m3 : seals tr = [] ∨ ∃ t sig, (seals tr).map (·.msg) = [Spec.m3 t cfg.sigKp.pub sig]

theorem server_facts {cfg : ServerCfg} {tr : List (Ev env)} {r : Except Err Unit} {s' : ServerSt} {c : AppSt}
    (h : Call (Server.handshake cfg) Server.init tr r s') (hc : s'.chan = some c) :
    ∃ kp m1, SFacts cfg tr s' c kp m1 := by
  cases hkp : cfg.encKp with
  | none =>
    simp only [Call, Server.handshake, Py.bind_run, Server.validate, hkp, Py.raise_run, IT.ret_bind,
      Exec_ret, Prod.mk.injEq] at h
    rw [← h.2.2] at hc
    simp [Server.init] at hc
  | some kp =>
    have hready : SReady tr s' := by
      have := server_chan cfg [] Server.init ⟨rfl, rfl, rfl⟩ tr _ h
      cases r <;> exact this
    have hmid : SMid tr s' := by
      have := sb_chan cfg [] Server.init ⟨rfl, by simp⟩ tr _ h
      cases r <;> exact this
    have hadv := hready.1
    rw [hc] at hadv
    obtain ⟨hadv, pk, sk, hbm⟩ := hadv
    have hpub := server_pub hkp h hbm
    have hq : c.bufferedM4 = none ∧ c.readQ = [] := by
      rcases hmid with hb | ⟨c', hc', h1⟩
      · have := hb.1; rw [hc] at this; simp at this
      · rw [hc, Option.some.injEq] at hc'
        subst hc'; exact h1
    cases server_cut hkp h with
    | bad => simp at hbm
    | a1 => simp at hbm
    | refuse p e m' hm' hf hk hcut hd he =>
      obtain ⟨ev, h1, h2⟩ := hcut.mem_op hbm
      simp only [serverRefuse, serverHead, List.cons_append, List.nil_append, List.mem_cons,
        List.not_mem_nil, or_false] at h1
      rcases h1 with rfl | rfl | rfl | rfl | rfl <;> simp at h2
    | shake p hcut hd hm =>
      have hmem := hcut.mem_ok hbm
      have hpk : pk = field p.raw1 10 32 ∧ sk = kp.sec := by
        cases hb : cfg.bufferM2 <;>
        · simp [serverFull, hb, serverHead, serverPlain, serverBuffered, serverTail] at hmem
          exact ⟨hmem.1.1, hmem.1.2⟩
      obtain ⟨rfl, rfl⟩ := hpk
      have hsl := hcut.seals
      have hse : ∃ t n k x, seals (serverFull cfg kp p) = [⟨Spec.m3 t cfg.sigKp.pub (p.sm.take 64), n, k, x⟩] := by
        cases hb : cfg.bufferM2 <;>
        · simp [serverFull, hb, serverHead, serverPlain, serverBuffered, serverTail, seals]
          exact ⟨_, rfl⟩
      obtain ⟨t, n, k, x, hse⟩ := hse
      rw [hse] at hsl
      have hs2 : seals tr = [] ∨ ∃ t sig, (seals tr).map (·.msg) = [Spec.m3 t cfg.sigKp.pub sig] := by
        rw [List.prefix_cons_iff] at hsl
        rcases hsl with hsl | ⟨l, hsl, hl⟩
        · exact .inl hsl
        · have : l = [] := by simpa using hl
          subst this
          exact .inr ⟨_, _, by rw [hsl]; rfl⟩
      have hr1 : (readsOf tr).head? = some p.raw1 := by
        have hsplit : serverFull cfg kp p = serverHead p ++
            ((if cfg.bufferM2 then serverBuffered cfg kp p else serverPlain cfg kp p) ++ serverTail p) := by
          simp [serverFull]
        rw [hsplit] at hcut
        obtain ⟨tr', rfl, -, -⟩ := hcut.past (by simp [serverHead]) hbm
        rfl
      exact ⟨kp, p.raw1, hkp, hpub, hr1, hbm, hadv, hready.2 _ hc, hq.2, by simp [m4Of, hq.1], hs2⟩

/-! ### From one application to the other -/

theorem deliver {F : Bytes → Prop} {k : Bytes} {rw rr : Role} (hrole : rw ≠ rr) {hsW appW hsR appR : List (Ev env)}
    {cW cW' cR cR' : AppSt} {opsW opsR : List AppOp} {dW dR : List Done} {x0 : Sealed}
    (haW : Adv (encInit k rw) hsW cW.enc) (haR : Adv (encInit k rr) hsR cR.enc)
    (hW : Exec (callAll appOps opsW cW) appW (dW, cW')) (hR : Exec (callAll appOps opsR cR) appR (dR, cR'))
    (hq : cR.readQ = []) (hsw : ShortWrites opsW)
    (hx0 : opens hsR = [x0]) (hh : ¬ AppHead x0.msg)
    (hF : (m4Of cW = none ∧ (seals hsW = [] ∨ ∃ m, F m ∧ (seals hsW).map (·.msg) = [m])) ∨
      (seals hsW = [] ∧ ∃ f, m4Of cW = some f ∧ ∀ t, F (f t)))
    (hint : ∀ x ∈ opens (hsR ++ appR), x ∈ seals (hsR ++ appR) ∨ x ∈ seals (hsW ++ appW)) :
    F x0.msg ∧ (readMsgs dR).Sublist (triedMsgs dW) ∧
      (ChecksOk appR → FailsLast dW → readMsgs dR <+: triedMsgs dW) := by
  have sW : Std cW.enc := (encInit_std _ _).adv haW
  have sR : Std cR.enc := (encInit_std _ _).adv haR
  have aW := haW.trans (appAll_wp opsW cW sW _ _ hW).1
  have aR := haR.trans (appAll_wp opsR cR sR _ _ hR).1
  have hpre := opens_prefix aR aW (by cases rw <;> cases rr <;> simp_all [encInit])
    (by cases rw <;> cases rr <;> simp_all [encInit]) hint
  obtain ⟨pre, rest, msgs, h1, h2, h3, h4, h5, h6⟩ := appAll_sent opsW cW sW hsw _ _ hW
  have hp := hpre.map (·.msg)
  rw [opens_append, seals_append, List.map_append, List.map_append, hx0, h1] at hp
  obtain ⟨fl, hfl, hflF⟩ : ∃ fl, (seals hsW).map (·.msg) ++ (pre ++ rest) = fl ++ rest ∧
      (fl = [] ∨ ∃ m, F m ∧ fl = [m]) := by
    rcases hF with ⟨hn, hs⟩ | ⟨hs, f, hf, hF⟩
    · have hpe : pre = [] := by
        rcases h2 with h2 | ⟨f, t, hf, -⟩
        · exact h2
        · rw [hn] at hf; simp at hf
      subst hpe
      rcases hs with hs | ⟨m, hm, hs⟩
      · exact ⟨[], by simp [hs], .inl rfl⟩
      · exact ⟨[m], by rw [hs]; rfl, .inr ⟨m, hm, rfl⟩⟩
    · rcases h2 with rfl | ⟨f', t, hf', rfl⟩
      · exact ⟨[], by simp [hs], .inl rfl⟩
      · rw [hf, Option.some.injEq] at hf'
        subst hf'
        exact ⟨[f t], by simp [hs], .inr ⟨_, hF t, rfl⟩⟩
  rw [hfl] at hp
  simp only [List.map_cons, List.map_nil, List.cons_append, List.nil_append] at hp
  rcases hflF with rfl | ⟨m, hm, rfl⟩
  · cases hrest : rest with
    | nil => rw [hrest] at hp; simp at hp
    | cons a rest' =>
      rw [hrest, List.nil_append, List.cons_prefix_cons] at hp
      exact absurd (h3 a (by rw [hrest]; simp)) (hp.1 ▸ hh)
  · rw [List.cons_append, List.nil_append, List.cons_prefix_cons] at hp
    obtain ⟨hm0, hA⟩ := hp
    obtain ⟨ms', hm'⟩ := CarryAll.of_prefix hA h4
    have hpm := CarryAll.prefix hA hm' h4
    refine ⟨hm0 ▸ hm, ?_, fun hck hfl => ?_⟩
    · have := appAll_read opsR cR sR _ _ hR ms' hm'
      rw [hq, List.nil_append] at this
      exact (List.sublist_append_left _ _).trans (this.trans (hpm.sublist.trans h5))
    · have := (appAll_wp opsR cR sR _ _ hR).2.2.2.2 hck ms' hm'
      rw [hq, List.nil_append] at this
      have hr : readMsgs dR <+: ms' := this ▸ List.prefix_append _ _
      exact hr.trans (hpm.trans (h6 hfl))

end Salt
