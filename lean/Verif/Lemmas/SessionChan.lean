import Verif.Props.AppChannel
import Verif.Lemmas.SessionRun

/-!
# The channel of a session

Along every handshake, completed or not, the encryptions and decryptions are those of one encrypted
channel that starts from the initial nonces under the key computed in the handshake.
-/

set_option linter.unusedSimpArgs false

namespace Salt

open Spec Props

/-- What `tr` has done to the channel `c` of a session. -/
def Ready (role : Role) (tr : List (Ev env)) (c : Option AppSt) : Prop :=
  match c with
  | none => Inert tr
  | some c => Adv (encInit c.enc.key role) tr c.enc ∧
      ∃ pk sk, (⟨.beforenm pk sk, .ok c.enc.key⟩ : Ev env) ∈ tr

theorem Inert.append {a b : List (Ev env)} (ha : Inert a) (hb : Inert b) : Inert (a ++ b) := by
  refine ⟨?_, ?_⟩
  · rw [seals_append, ha.1, hb.1]; rfl
  · rw [opens_append, ha.2, hb.2]; rfl

theorem Ready.more {role : Role} {tr tr' : List (Ev env)} {c : Option AppSt} (h : Ready role tr c)
    (h' : Inert tr') : Ready role (tr ++ tr') c := by
  cases c with
  | none => exact Inert.append h h'
  | some c =>
    obtain ⟨ha, pk, sk, hm⟩ := h
    exact ⟨ha.trans (.inert h' rfl rfl rfl rfl rfl), pk, sk, by simp [hm]⟩

theorem encInit_std (k : Bytes) (role : Role) : Std (encInit k role) := ⟨rfl, rfl⟩

theorem Ready.std {role : Role} {tr : List (Ev env)} {c : AppSt} (h : Ready role tr (some c)) :
    Std c.enc := (encInit_std _ _).adv h.1

/-- A step of the channel. -/
theorem Ready.step {role : Role} {tr tr' : List (Ev env)} {c c' : AppSt} (h : Ready role tr (some c))
    (h' : Adv c.enc tr' c'.enc) : Ready role (tr ++ tr') (some c') := by
  obtain ⟨ha, pk, sk, hm⟩ := h
  have hk := h'.key
  refine ⟨?_, pk, sk, by rw [hk]; simp [hm]⟩
  rw [hk]
  exact ha.trans h'

/-! ### Methods preserving an invariant -/

/-- `m` preserves `I`, whether it returns or raises. -/
def Pres {σ α : Type} (I : List (Ev env) → σ → Prop) (m : Py env σ α) : Prop :=
  Tri I m (fun _ => I) (fun _ => I)

namespace Pres

variable {σ α β : Type} {I : List (Ev env) → σ → Prop}

theorem bind {m : Py env σ α} {f : α → Py env σ β} (h : Pres I m) (h' : ∀ a, Pres I (f a)) :
    Pres I (m >>= f) := Tri.bind h h'

theorem pure (a : α) : Pres I (Pure.pure a : Py env σ α) := Tri.pure' a fun _ _ h => h

theorem raise (e : Err) : Pres I (Py.raise e : Py env σ α) := Tri.raise e fun _ _ h => h

theorem lift (x : Except Err α) : Pres I (Py.lift x : Py env σ α) :=
  Tri.lift x (fun _ _ _ _ h => h) fun _ _ _ _ h => h

theorem getSt : Pres I (Py.getSt : Py env σ σ) := Tri.getSt.post fun _ _ _ h => h.2

theorem modifySt (f : σ → σ) (h : ∀ tr s, I tr s → I tr (f s)) : Pres I (Py.modifySt f : Py env σ Unit) :=
  Tri.modifySt f h

theorem call (e : EnvOp) (h : ∀ tr s r, I tr s → I (tr ++ [⟨e, r⟩]) s) : Pres I (Py.env e) :=
  Tri.call (S := env) e (fun _ _ _ hi => h _ _ _ hi) fun _ _ _ hi => h _ _ _ hi

theorem onError {m : Py env σ α} {f : Err → Py env σ α} (h : Pres I m) (h' : ∀ e, Pres I (f e)) :
    Pres I (Py.onError m f) := Tri.onError h h'

theorem tri {m : Py env σ α} (h : Pres I m) {J : List (Ev env) → σ → Prop} (hj : ∀ tr s, I tr s → J tr s) :
    Tri I m (fun _ => I) (fun _ => J) := h.conseq (fun _ _ h => h) (fun _ _ _ h => h) fun _ _ _ h => hj _ _ h

end Pres

/-- Walks through a method, leaving the steps that matter. -/
macro "pres" : tactic => `(tactic|
  repeat' first
    | exact Pres.pure _ | exact Pres.raise _ | exact Pres.lift _ | exact Pres.getSt
    | exact Pres.modifySt _ fun _ _ h => h
    | (refine Pres.bind ?_ fun _ => ?_) | (refine Pres.onError ?_ fun _ => ?_)
    | split)

/-- A call that is neither an encryption nor a decryption keeps a session invariant. -/
theorem Ready.snoc {role : Role} {tr : List (Ev env)} {c : Option AppSt} (h : Ready role tr c) (e : EnvOp)
    (r : Except Err (EnvOp.Resp e)) (hi : Inert [⟨e, r⟩]) : Ready role (tr ++ [⟨e, r⟩]) c := h.more hi

theorem shared_tri {σ : Type} {I : List (Ev env) → σ → Prop} (sk pk : Bytes)
    (h : ∀ tr s r, I tr s → I (tr ++ [⟨.beforenm pk sk, r⟩]) s) :
    Tri I (computeSharedKey sk pk : Py env σ Bytes)
      (fun k tr s => I tr s ∧ (⟨.beforenm pk sk, .ok k⟩ : Ev env) ∈ tr) (fun _ => I) := by
  unfold computeSharedKey
  split
  · exact Tri.raise _ fun _ _ h => h
  · split
    · exact Tri.raise _ fun _ _ h => h
    · refine Tri.call (S := env) _ (fun _ _ _ hi => ⟨h _ _ _ hi, ?_⟩) (fun _ _ _ hi => h _ _ _ hi)
      simp

theorem enc_read_adv (e : EncSt) (h : Std e) : wp (Enc.read e) fun tr b => Adv e tr b.2 :=
  wp_mono _ (Enc_read_wp e h.1 h.2) fun _ _ h => h.1

theorem enc_write_adv (ms : List Bytes) (l : Bool) (e : EncSt) (h : Std e) :
    wp (Enc.write ms l e) fun tr b => Adv e tr b.2 :=
  wp_mono _ (Enc_write_wp l ms e h.1) fun _ _ h => h.1

/-! ### The client -/

/-- The session invariant. -/
def CReady (tr : List (Ev env)) (s : ClientSt) : Prop :=
  Ready .client tr s.chan ∧ ∀ c, s.chan = some c → c.enc.key = s.sessionKey

/-- The session before there is a channel. -/
def CNew (tr : List (Ev env)) (s : ClientSt) : Prop := s.chan = none ∧ Inert tr

theorem CNew.ready {tr : List (Ev env)} {s : ClientSt} (h : CNew tr s) : CReady tr s := by
  unfold CReady Ready; rw [h.1]; exact ⟨h.2, by simp⟩

theorem c_onEnc_pres {α : Type} {m : Py env EncSt α}
    (hm : ∀ e, Std e → wp (m e) fun tr b => Adv e tr b.2) : Pres CReady (Client.onEnc m) := by
  refine Tri.zoom ?_ ?_
  · intro _ _ h _; exact h
  · intro tr0 s c h hc
    rintro tr c' ⟨rfl, rfl⟩
    unfold CReady at h
    rw [hc] at h
    simp only [App.onEnc, wp_bind]
    intro tr' b hx
    have := hm _ h.1.std _ _ hx
    rcases b with ⟨r, e⟩
    have hk : e.key = s.sessionKey := this.key.trans (h.2 _ rfl)
    cases r <;> simp only [wp_ret, List.append_nil] <;>
      exact ⟨h.1.step (c' := { c' with enc := e }) this, by simp [hk]⟩

theorem c_create_tri (kp : KeyPair) :
    Tri CNew (Client.createEncryptedChannel kp) (fun _ => CReady) (fun _ => CReady) := by
  have hres : ∀ (k : Bytes) (pk sk : Bytes), Tri (S := env)
      (fun tr s => CNew tr s ∧ (⟨.beforenm pk sk, .ok k⟩ : Ev env) ∈ tr)
      (do Py.modifySt fun s => { s with sessionKey := k }
          let enc ← Py.lift (Enc.init k .client)
          Py.modifySt fun (s : ClientSt) => { s with chan := some (App.init enc) })
      (fun _ => CReady) (fun _ => CReady) := by
    intro k pk sk
    refine Tri.bind (Q := fun _ tr s => CNew tr s ∧ s.sessionKey = k ∧
      (⟨.beforenm pk sk, .ok k⟩ : Ev env) ∈ tr) (Tri.modifySt _ fun _ _ h => ⟨h.1, rfl, h.2⟩) fun _ => ?_
    refine Tri.bind (Q := fun a tr s => a = encInit k .client ∧ CNew tr s ∧ s.sessionKey = k ∧
      (⟨.beforenm pk sk, .ok k⟩ : Ev env) ∈ tr) (Tri.lift _ ?_ ?_) fun e => Tri.modifySt _ ?_
    · intro a ha tr s h
      rw [Enc_init_eq] at ha
      split at ha <;> simp only [Except.ok.injEq, reduceCtorEq] at ha
      exact ⟨ha.symm, h⟩
    · intro _ _ tr s h; exact h.1.ready
    · rintro tr s ⟨rfl, h1, h2, h3⟩
      refine ⟨⟨.inert h1.2 rfl rfl rfl rfl rfl, pk, sk, h3⟩, ?_⟩
      simp [h2, App.init, encInit]
  unfold Client.createEncryptedChannel
  refine Tri.bind (Q := fun _ => CNew) (Pres.getSt.tri fun _ _ h => h.ready) fun s => ?_
  split
  · exact Tri.raise _ fun _ _ h => h.ready
  · rename_i m2 _
    refine Tri.bind (((shared_tri _ _ ?_)).conseq (fun _ _ h => h) (fun _ _ _ h => h)
      (fun _ _ _ h => CNew.ready h)) fun k => hres k _ _
    exact fun _ _ _ h => ⟨h.1, h.2.append ⟨rfl, rfl⟩⟩

theorem CReady.more {tr : List (Ev env)} {s : ClientSt} (h : CReady tr s) {tr' : List (Ev env)}
    (h' : Inert tr') : CReady (tr ++ tr') s := ⟨h.1.more h', h.2⟩

theorem c_doM1_pres (kp : KeyPair) : Pres CNew (Client.doM1 kp) := by
  unfold Client.doM1
  pres
  all_goals exact Pres.call _ fun _ _ _ h => ⟨h.1, h.2.append ⟨rfl, rfl⟩⟩

theorem c_doM2_pres : Pres CNew Client.doM2 := by
  unfold Client.doM2
  pres
  all_goals exact Pres.call _ fun _ _ _ h => ⟨h.1, h.2.append ⟨rfl, rfl⟩⟩

theorem c_doM3_pres : Pres CReady Client.doM3 := by
  unfold Client.doM3
  pres
  · exact c_onEnc_pres enc_read_adv
  · exact Pres.call _ fun _ _ _ h => h.more ⟨rfl, rfl⟩

theorem c_validate1_pres : Pres CReady Client.validateSignature1 := by
  unfold Client.validateSignature1
  pres
  all_goals exact Pres.call _ fun _ _ _ h => h.more ⟨rfl, rfl⟩

theorem c_doM4_pres (cfg : ClientCfg) : Pres CReady (Client.doM4 cfg) := by
  unfold Client.doM4
  pres
  · exact Pres.call _ fun _ _ _ h => h.more ⟨rfl, rfl⟩
  · exact Pres.call _ fun _ _ _ h => h.more ⟨rfl, rfl⟩
  · refine Tri.zoom ?_ ?_
    · intro _ _ h _; exact h
    · intro tr0 s c h hc
      refine Tri.modifySt _ ?_
      rintro tr c' ⟨rfl, rfl⟩
      unfold CReady at h
      rw [hc] at h
      exact ⟨⟨h.1.1, h.1.2⟩, by simpa using h.2⟩
  · exact c_onEnc_pres (enc_write_adv _ _)

theorem client_chan (cfg : ClientCfg) :
    Tri CNew (Client.handshake cfg) (fun _ => CReady) (fun _ => CReady) := by
  unfold Client.handshake Client.validate
  refine Tri.bind (Q := fun _ => CNew) ?_ fun kp => ?_
  · split
    · exact (Pres.raise _).tri fun _ _ h => h.ready
    · exact (Pres.pure _).tri fun _ _ h => h.ready
  refine Tri.bind ((c_doM1_pres kp).tri fun _ _ h => h.ready) fun _ => ?_
  refine Tri.bind (c_doM2_pres.tri fun _ _ h => h.ready) fun ok => ?_
  split
  · exact Tri.pure' _ fun _ _ h => h.ready
  · refine Tri.bind (c_create_tri kp) fun _ => ?_
    refine Pres.bind c_doM3_pres fun _ => Pres.bind c_validate1_pres fun _ => c_doM4_pres cfg

/-! ### The server -/

/-- The session invariant. -/
def SReady (tr : List (Ev env)) (s : ServerSt) : Prop :=
  Ready .server tr s.chan ∧ ∀ c, s.chan = some c → c.enc.key = s.sessionKey

/-- The session before there is a channel. -/
def SNew (tr : List (Ev env)) (s : ServerSt) : Prop := s.chan = none ∧ Inert tr

theorem SNew.ready {tr : List (Ev env)} {s : ServerSt} (h : SNew tr s) : SReady tr s := by
  unfold SReady Ready; rw [h.1]; exact ⟨h.2, by simp⟩

theorem s_onEnc_pres {α : Type} {m : Py env EncSt α}
    (hm : ∀ e, Std e → wp (m e) fun tr b => Adv e tr b.2) : Pres SReady (Server.onEnc m) := by
  refine Tri.zoom ?_ ?_
  · intro _ _ h _; exact h
  · intro tr0 s c h hc
    rintro tr c' ⟨rfl, rfl⟩
    unfold SReady at h
    rw [hc] at h
    simp only [App.onEnc, wp_bind]
    intro tr' b hx
    have := hm _ h.1.std _ _ hx
    rcases b with ⟨r, e⟩
    have hk : e.key = s.sessionKey := this.key.trans (h.2 _ rfl)
    cases r <;> simp only [wp_ret, List.append_nil] <;>
      exact ⟨h.1.step (c' := { c' with enc := e }) this, by simp [hk]⟩

theorem s_create_tri (kp : KeyPair) :
    Tri SNew (Server.createEncryptedChannel kp) (fun _ => SReady) (fun _ => SReady) := by
  have hres : ∀ (k : Bytes) (pk sk : Bytes), Tri (S := env)
      (fun tr s => SNew tr s ∧ (⟨.beforenm pk sk, .ok k⟩ : Ev env) ∈ tr)
      (do Py.modifySt fun s => { s with sessionKey := k }
          let enc ← Py.lift (Enc.init k .server)
          Py.modifySt fun (s : ServerSt) => { s with chan := some (App.init enc) })
      (fun _ => SReady) (fun _ => SReady) := by
    intro k pk sk
    refine Tri.bind (Q := fun _ tr s => SNew tr s ∧ s.sessionKey = k ∧
      (⟨.beforenm pk sk, .ok k⟩ : Ev env) ∈ tr) (Tri.modifySt _ fun _ _ h => ⟨h.1, rfl, h.2⟩) fun _ => ?_
    refine Tri.bind (Q := fun a tr s => a = encInit k .server ∧ SNew tr s ∧ s.sessionKey = k ∧
      (⟨.beforenm pk sk, .ok k⟩ : Ev env) ∈ tr) (Tri.lift _ ?_ ?_) fun e => Tri.modifySt _ ?_
    · intro a ha tr s h
      rw [Enc_init_eq] at ha
      split at ha <;> simp only [Except.ok.injEq, reduceCtorEq] at ha
      exact ⟨ha.symm, h⟩
    · intro _ _ tr s h; exact h.1.ready
    · rintro tr s ⟨rfl, h1, h2, h3⟩
      refine ⟨⟨.inert h1.2 rfl rfl rfl rfl rfl, pk, sk, h3⟩, ?_⟩
      simp [h2, App.init, encInit]
  unfold Server.createEncryptedChannel
  refine Tri.bind (Q := fun _ => SNew) (Pres.getSt.tri fun _ _ h => h.ready) fun s => ?_
  split
  · exact Tri.raise _ fun _ _ h => h.ready
  · rename_i m2 _
    refine Tri.bind (((shared_tri _ _ ?_)).conseq (fun _ _ h => h) (fun _ _ _ h => h)
      (fun _ _ _ h => SNew.ready h)) fun k => hres k _ _
    exact fun _ _ _ h => ⟨h.1, h.2.append ⟨rfl, rfl⟩⟩

theorem SReady.more {tr : List (Ev env)} {s : ServerSt} (h : SReady tr s) {tr' : List (Ev env)}
    (h' : Inert tr') : SReady (tr ++ tr') s := ⟨h.1.more h', h.2⟩

theorem s_doM1_pres (cfg : ServerCfg) : Pres SNew (Server.doM1 cfg) := by
  unfold Server.doM1
  pres
  all_goals try simp only []
  all_goals pres
  all_goals exact Pres.call _ fun _ _ _ h => ⟨h.1, h.2.append ⟨rfl, rfl⟩⟩

theorem s_doA2_pres (cfg : ServerCfg) (raw : Bytes) : Pres SNew (Server.doA2 cfg raw) := by
  unfold Server.doA2
  pres
  all_goals exact Pres.call _ fun _ _ _ h => ⟨h.1, h.2.append ⟨rfl, rfl⟩⟩

theorem s_doM2_pres (cfg : ServerCfg) (kp : KeyPair) : Pres SNew (Server.doM2 cfg kp) := by
  unfold Server.doM2
  pres
  all_goals exact Pres.call _ fun _ _ _ h => ⟨h.1, h.2.append ⟨rfl, rfl⟩⟩

theorem enc_m3_adv (m : Bytes) (e : EncSt) (h : Std e) :
    wp ((do
      let c ← Enc.encrypt m
      Py.modifySt Enc.advanceWrite
      return Enc.wrap c false : Py env EncSt Bytes) e) fun tr b => Adv e tr b.2 := by
  simp only [Py.bind_run, Enc.encrypt, Py.getSt_run, IT.ret_bind, Py.lift_run]
  rw [h.1, nonceBytes_eq]
  by_cases hlt : e.writeNonce < 2 ^ 64
  · rw [if_pos hlt]
    simp only [IT.ret_bind, Py.call_run, IT.op_bind, wp_op]
    intro r
    cases r with
    | error x => simp only [IT.ret_bind, wp_ret]; exact .inert ⟨rfl, rfl⟩ rfl rfl rfl rfl rfl
    | ok c =>
      simp only [IT.ret_bind, Py.modifySt_run, Py.pure_run, wp_ret, Enc.advanceWrite]
      refine ⟨rfl, rfl, rfl, rfl, rfl, ?_, by simp [opens]⟩
      intro i x hx
      simp only [seals] at hx
      cases i with
      | zero => simp at hx; subst hx; exact ⟨rfl, by simpa using hlt, rfl⟩
      | succ i => simp at hx
  · rw [if_neg hlt]
    simp only [IT.ret_bind, wp_ret]; exact .refl _

theorem s_doM3_pres (cfg : ServerCfg) : Pres SReady (Server.doM3 cfg) := by
  unfold Server.doM3 Server.doM3Head
  pres
  all_goals first
    | exact s_onEnc_pres (enc_m3_adv _)
    | exact Pres.call _ fun _ _ _ h => h.more ⟨rfl, rfl⟩

theorem s_doM4_pres : Pres SReady Server.doM4 := by
  unfold Server.doM4
  pres
  · exact s_onEnc_pres enc_read_adv
  · exact Pres.call _ fun _ _ _ h => h.more ⟨rfl, rfl⟩

theorem s_validate2_pres : Pres SReady Server.validateSignature2 := by
  unfold Server.validateSignature2
  pres
  all_goals exact Pres.call _ fun _ _ _ h => h.more ⟨rfl, rfl⟩

theorem server_chan (cfg : ServerCfg) :
    Tri SNew (Server.handshake cfg) (fun _ => SReady) (fun _ => SReady) := by
  have hv : Tri SNew (Server.validate cfg) (fun _ => SNew) (fun _ => SReady) := by
    unfold Server.validate
    split
    · exact (Pres.raise _).tri fun _ _ h => h.ready
    · exact (Pres.pure _).tri fun _ _ h => h.ready
  unfold Server.handshake
  refine Tri.bind hv fun kp => ?_
  refine Tri.bind ((s_doM1_pres cfg).tri fun _ _ h => h.ready) fun ok => ?_
  split
  · refine Tri.bind ((s_doA2_pres cfg _).tri fun _ _ h => h.ready) fun _ => ?_
    exact Tri.modifySt _ fun _ s h => SNew.ready (s := { s with isDone := true }) h
  · refine Tri.bind hv fun _ => ?_
    refine Tri.bind ((s_doM2_pres cfg kp).tri fun _ _ h => h.ready) fun _ => ?_
    refine Tri.bind (s_create_tri kp) fun _ => ?_
    exact Pres.bind (s_doM3_pres cfg) fun _ => Pres.bind s_doM4_pres fun _ => s_validate2_pres

/-! ### After the handshake -/

theorem app_op_adv (e : AppOp) (s : AppSt) (h : Std s.enc) :
    wp (App.handle e s) fun tr b => Adv s.enc tr b.2.enc := by
  cases e with
  | read => exact wp_mono _ (App_read_wp s h) fun _ _ h => h.1
  | write ms l => exact wp_mono _ (App_write_wp ms l s h) fun _ _ h => h.1

theorem app_run_adv {β : Type} (prog : IT appSig β) (s : AppSt) (h : Std s.enc) :
    wp (App.run prog s) fun tr b => Adv s.enc tr b.2.enc := by
  induction prog generalizing s with
  | ret b => simp only [App.run, wp_ret]; exact .refl _
  | op e k ih =>
    simp only [App.run, wp_bind]
    intro tr b hx
    have ha := app_op_adv e s h tr b hx
    intro tr' b' hx'
    exact ha.trans (ih _ b.2 (h.adv ha) tr' b' hx')

end Salt
