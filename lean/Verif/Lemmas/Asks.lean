import Verif.Spec.Asks
import Verif.Lemmas.SessionChan
import Verif.Lemmas.Raises

/-! # The library calls of sessions -/

set_option linter.unusedSimpArgs false

namespace Salt

open Spec Props

/-- The operations of a channel: everything but the calls of the handshake to the library. -/
def ChanOp : EnvOp → Prop
  | .sign _ _ | .signOpen _ _ | .beforenm _ _ => False
  | .box _ n k => n.length = 24 ∧ k.length = 32
  | .boxOpen _ n k => n.length = 24 ∧ k.length = 32
  | _ => True

/-- The property of traces survives the operations of a channel. -/
def Lasts (J : List (Ev env) → Prop) : Prop := ∀ tr e r, J tr → ChanOp e → J (tr ++ [⟨e, r⟩])

/-- The attributes of the encrypted channel that are used as arguments. -/
def EncOk (e : EncSt) : Prop := e.sessionNonce = zeros 8 ∧ e.key.length = 32

section
variable {J : List (Ev env) → Prop}

theorem nonceBytes_length {v : Nat} {s n : Bytes} (hs : s = zeros 8) (h : nonceBytes v s = .ok n) : n.length = 24 := by
  subst hs
  rw [nonceBytes_eq] at h
  split at h
  · rw [← Except.ok.inj h]; exact nonce_length _
  · simp at h

theorem enc_encrypt_asks (hJ : Lasts J) (m : Bytes) : Pres (fun tr e => J tr ∧ EncOk e) (Enc.encrypt m) := by
  unfold Enc.encrypt
  refine Tri.bind Tri.getSt fun s => ?_
  refine Tri.bind (Q := fun n tr s' => (s = s' ∧ J tr ∧ EncOk s') ∧ n.length = 24)
    (Tri.lift _ (fun n hn tr s' h => ⟨h, nonceBytes_length (by rw [h.1]; exact h.2.2.1) hn⟩) fun _ _ _ _ h => h.2) fun n => ?_
  refine Tri.call (S := env) _ (fun a tr s' h => ?_) fun a tr s' h => ?_
  all_goals
    obtain ⟨⟨rfl, h1, h2⟩, h3⟩ := h
    exact ⟨hJ _ _ _ h1 ⟨h3, h2.2⟩, h2⟩

theorem enc_decrypt_asks (hJ : Lasts J) (m : Bytes) : Pres (fun tr e => J tr ∧ EncOk e) (Enc.decrypt m) := by
  unfold Enc.decrypt
  refine Pres.onError ?_ fun e => by pres
  refine Tri.bind Tri.getSt fun s => ?_
  refine Tri.bind (Q := fun n tr s' => (s = s' ∧ J tr ∧ EncOk s') ∧ n.length = 24)
    (Tri.lift _ (fun n hn tr s' h => ⟨h, nonceBytes_length (by rw [h.1]; exact h.2.2.1) hn⟩) fun _ _ _ _ h => h.2) fun n => ?_
  refine Tri.call (S := env) _ (fun a tr s' h => ?_) fun a tr s' h => ?_
  all_goals
    obtain ⟨⟨rfl, h1, h2⟩, h3⟩ := h
    exact ⟨hJ _ _ _ h1 ⟨h3, h2.2⟩, h2⟩

theorem enc_read_asks (hJ : Lasts J) : Pres (fun tr e => J tr ∧ EncOk e) Enc.read := by
  unfold Enc.read
  refine Pres.bind ?_ fun raw => Pres.bind ?_ fun body => Pres.bind (enc_decrypt_asks hJ _) fun _ =>
    Pres.bind (Pres.modifySt _ fun _ _ h => ⟨h.1, h.2⟩) fun _ => Pres.pure _
  · unfold Enc.fetch
    pres
    all_goals first
      | exact Pres.call _ fun _ _ _ h => ⟨hJ _ _ _ h.1 trivial, h.2⟩
      | exact Pres.modifySt _ fun _ _ h => ⟨h.1, h.2⟩
  · unfold Enc.unwrap
    pres
    all_goals exact Pres.modifySt _ fun _ _ h => ⟨h.1, h.2⟩

theorem enc_encryptAll_asks (hJ : Lasts J) (l : Bool) (ms : List Bytes) :
    Pres (fun tr e => J tr ∧ EncOk e) (Enc.encryptAll l ms) := by
  induction ms with
  | nil => exact Pres.pure _
  | cons m ms ih =>
    refine Pres.bind (enc_encrypt_asks hJ m) fun _ => Pres.bind (Pres.modifySt _ fun _ _ h => ⟨h.1, h.2⟩) fun _ => ?_
    exact Pres.bind ih fun _ => Pres.pure _

theorem enc_write_asks (hJ : Lasts J) (ms : List Bytes) (l : Bool) :
    Pres (fun tr e => J tr ∧ EncOk e) (Enc.write ms l) :=
  Pres.bind (enc_encryptAll_asks hJ l ms) fun _ => Pres.call _ fun _ _ _ h => ⟨hJ _ _ _ h.1 trivial, h.2⟩

theorem app_onEnc_asks {α : Type} {m : Py env EncSt α} (h : Pres (fun tr e => J tr ∧ EncOk e) m) :
    Pres (fun tr s => J tr ∧ EncOk s.enc) (App.onEnc m) := by
  intro tr0 s hs
  simp only [App.onEnc, wp_bind]
  refine wp_mono _ (h tr0 s.enc hs) ?_
  rintro tr ⟨r, e⟩ h'
  cases r <;> simpa using h'

theorem app_read_asks (hJ : Lasts J) : Pres (fun tr s => J tr ∧ EncOk s.enc) App.read := by
  unfold App.read
  pres
  all_goals first
    | exact app_onEnc_asks (enc_read_asks hJ)
    | exact Pres.call _ fun _ _ _ h => ⟨hJ _ _ _ h.1 trivial, h.2⟩
    | exact Pres.modifySt _ fun _ _ h => ⟨h.1, h.2⟩

theorem app_write_asks (hJ : Lasts J) (ms : List Bytes) (l : Bool) :
    Pres (fun tr s => J tr ∧ EncOk s.enc) (App.write ms l) := by
  unfold App.write
  pres
  all_goals first
    | exact app_onEnc_asks (enc_write_asks hJ _ _)
    | exact Pres.call _ fun _ _ _ h => ⟨hJ _ _ _ h.1 trivial, h.2⟩
    | exact Pres.modifySt _ fun _ _ h => ⟨h.1, h.2⟩

theorem app_run_asks {β : Type} (hJ : Lasts J) (prog : IT appSig β) (s : AppSt) (tr0 : List (Ev env)) (h0 : J tr0)
    (hs : EncOk s.enc) : wp (App.run prog s) fun tr _ => J (tr0 ++ tr) := by
  induction prog generalizing s tr0 with
  | ret b => simpa [App.run] using h0
  | op e k ih =>
    simp only [App.run, wp_bind]
    have hp : Pres (fun tr s => J tr ∧ EncOk s.enc) (App.handle e) := by
      cases e with
      | read => exact app_read_asks hJ
      | write ms l => exact app_write_asks hJ ms l
    refine wp_mono _ (hp tr0 s ⟨h0, hs⟩) ?_
    rintro tr ⟨r, s'⟩ h
    have h : J (tr0 ++ tr) ∧ EncOk s'.enc := by cases r <;> exact h
    refine wp_mono _ (ih r s' _ h.1 h.2) ?_
    intro tr' b h'
    rwa [List.append_assoc] at h'

end

/-! ### Traces -/

/-- Every operation has the property, and the keys offered were read. -/
def Asks (Q : EnvOp → Prop) (offered : Bytes → Option Bytes) (tr : List (Ev env)) : Prop :=
  (∀ ev ∈ tr, Q ev.op) ∧ KeysRead offered tr

theorem readsOf_mono {tr tr' : List (Ev env)} {m : Bytes} (h : (readsOf tr).head? = some m) : (readsOf (tr ++ tr')).head? = some m := by
  rw [readsOf_append, List.head?_append, h]; rfl

theorem Asks.snoc {Q : EnvOp → Prop} {f : Bytes → Option Bytes} {tr : List (Ev env)} (h : Asks Q f tr) {e : EnvOp}
    {r : Except Err (EnvOp.Resp e)} (hq : Q e)
    (hk : ∀ pk sk, e = .beforenm pk sk → ∃ raw, (readsOf tr).head? = some raw ∧ f raw = some pk) : Asks Q f (tr ++ [⟨e, r⟩]) := by
  constructor
  · intro ev hev
    rcases List.mem_append.1 hev with hev | hev
    · exact h.1 ev hev
    · rw [List.mem_singleton.1 hev]; exact hq
  · intro ev hev pk sk he
    rcases List.mem_append.1 hev with hev | hev
    · obtain ⟨raw, h1, h2⟩ := h.2 ev hev pk sk he
      exact ⟨raw, readsOf_mono h1, h2⟩
    · rw [List.mem_singleton.1 hev] at he
      obtain ⟨raw, h1, h2⟩ := hk pk sk he
      exact ⟨raw, readsOf_mono h1, h2⟩

theorem asks_lasts {Q : EnvOp → Prop} (hQ : ∀ e, ChanOp e → Q e) {f : Bytes → Option Bytes} : Lasts (Asks Q f) := by
  intro tr e r h hc
  refine h.snoc (hQ e hc) ?_
  rintro pk sk rfl
  exact hc.elim

theorem clientAsks_chan (cfg : ClientCfg) (e : EnvOp) (h : ChanOp e) : ClientAsks cfg e := by
  cases e <;> first | trivial | exact h | exact h.elim

theorem serverAsks_chan (cfg : ServerCfg) (e : EnvOp) (h : ChanOp e) : ServerAsks cfg e := by
  cases e <;> first | trivial | exact h | exact h.elim

theorem shared_asks {σ : Type} {I I' : List (Ev env) → σ → Prop} (sk pk : Bytes) (hi : ∀ tr s, I tr s → I' tr s)
    (h : ∀ tr s r, sk.length = 32 → pk.length = 32 → I tr s → I' (tr ++ [⟨.beforenm pk sk, r⟩]) s) :
    Tri I (computeSharedKey sk pk : Py env σ Bytes) (fun _ => I') (fun _ => I') := by
  unfold computeSharedKey
  split
  · exact Tri.raise _ fun _ _ h => hi _ _ h
  · rename_i h1
    split
    · exact Tri.raise _ fun _ _ h => hi _ _ h
    · rename_i h2
      exact Tri.call (S := env) _ (fun _ _ _ hh => h _ _ _ (Decidable.not_not.1 h1) (Decidable.not_not.1 h2) hh)
        fun _ _ _ hh => h _ _ _ (Decidable.not_not.1 h1) (Decidable.not_not.1 h2) hh

theorem encInit_ok' {key : Bytes} {role : Role} {e : EncSt} (h : Enc.init key role = .ok e) : EncOk e := by
  obtain ⟨h1, rfl⟩ := init_ok h
  exact ⟨rfl, h1⟩

/-! ### The client -/

/-- The invariant of a client: `A` is what holds of the trace, and the packets kept came out of the constructors. -/
structure CI (cfg : ClientCfg) (tr : List (Ev env)) (s : ClientSt) : Prop where
  asks : Asks (ClientAsks cfg) offeredByServer tr
  m2 : ∀ p, s.m2 = some p → ∃ raw, (readsOf tr).head? = some raw ∧ M2.ctor raw = .ok p
  m3 : ∀ p, s.m3 = some p → ∃ raw, M34.ctor .m3 raw = .ok p
  chan : ∀ c, s.chan = some c → EncOk c.enc

section
variable {cfg : ClientCfg}

theorem CI.snoc {tr : List (Ev env)} {s : ClientSt} (h : CI cfg tr s) {e : EnvOp} (r : Except Err (EnvOp.Resp e))
    (hq : ClientAsks cfg e) (hk : ∀ pk sk, e = .beforenm pk sk → ∃ raw, (readsOf tr).head? = some raw ∧ offeredByServer raw = some pk) :
    CI cfg (tr ++ [⟨e, r⟩]) s :=
  ⟨h.asks.snoc hq hk, fun p hp => (h.m2 p hp).imp fun _ h => ⟨readsOf_mono h.1, h.2⟩, h.m3, h.chan⟩

theorem CI.io {tr : List (Ev env)} {s : ClientSt} (h : CI cfg tr s) {e : EnvOp} (r : Except Err (EnvOp.Resp e))
    (hc : ChanOp e) : CI cfg (tr ++ [⟨e, r⟩]) s := by
  refine h.snoc r (clientAsks_chan cfg e hc) ?_
  rintro pk sk rfl
  exact hc.elim

theorem c_onEnc_asks {α : Type} {m : Py env EncSt α}
    (hm : ∀ J, Lasts J → Pres (fun tr e => J tr ∧ EncOk e) m) : Pres (CI cfg) (Client.onEnc m) := by
  refine Tri.zoom (fun _ _ h _ => h) ?_
  intro tr0 s c h hc
  refine (app_onEnc_asks (hm (fun tr => ∀ c', EncOk c'.enc → CI cfg tr { s with chan := some c' }) ?_)).conseq ?_ ?_ ?_
  · intro tr e r hh hce c' hc'
    exact (hh c' hc').io r hce
  · rintro tr c' ⟨rfl, rfl⟩
    refine ⟨fun c' hc' => ⟨h.asks, h.m2, h.m3, ?_⟩, h.chan _ hc⟩
    rintro c'' hc''
    cases hc''
    exact hc'
  · exact fun _ tr c' hh => hh.1 c' hh.2
  · exact fun _ tr c' hh => hh.1 c' hh.2

theorem c_doM1_asks (kp : KeyPair) : Pres (fun tr s => CI cfg tr s ∧ readsOf tr = []) (Client.doM1 kp) := by
  unfold Client.doM1
  pres
  all_goals first
    | exact Pres.call _ fun _ _ _ h => ⟨h.1.io _ trivial, by rw [readsOf_append, h.2]; rfl⟩
    | exact Pres.modifySt _ fun _ _ h => ⟨⟨h.1.asks, h.1.m2, h.1.m3, h.1.chan⟩, h.2⟩

theorem c_doM2_asks : Tri (fun tr s => CI cfg tr s ∧ readsOf tr = []) Client.doM2
    (fun b tr s => CI cfg tr s ∧ (b = true → ∀ p, s.m2 = some p → M2.noSuchServer p = 0)) (fun _ => CI cfg) := by
  unfold Client.doM2
  refine Tri.bind (Q := fun raw tr s => CI cfg tr s ∧ (readsOf tr).head? = some raw)
    (Tri.call (S := env) _ (fun a tr s h => ⟨h.1.io (e := .read) _ trivial, ?_⟩) fun _ _ _ h => h.1.io (e := .read) _ trivial) fun raw => ?_
  · rw [readsOf_append, h.2]; simp [readsOf]
  refine Tri.bind (Q := fun p tr s => (CI cfg tr s ∧ (readsOf tr).head? = some raw) ∧ M2.ctor raw = .ok p)
    (Tri.lift _ (fun p hp _ _ h => ⟨h, hp⟩) fun _ _ _ _ h => h.1) fun p => ?_
  refine Tri.bind (Q := fun _ tr s => CI cfg tr s ∧ s.m2 = some p) (Tri.modifySt _ ?_) fun _ => ?_
  · rintro tr s ⟨⟨h1, h2⟩, h3⟩
    refine ⟨⟨h1.asks, ?_, h1.m3, h1.chan⟩, rfl⟩
    rintro p' hp'
    cases hp'
    exact ⟨raw, h2, h3⟩
  split
  · refine Tri.bind (Q := fun _ => CI cfg) (Tri.modifySt _ ?_) fun _ => Tri.pure' _ fun _ _ h => ⟨h, by simp⟩
    rintro tr s ⟨h, -⟩
    exact ⟨h.asks, by simp, h.m3, h.chan⟩
  · have hcall : ∀ e, ChanOp e → Tri (fun tr s => CI cfg tr s ∧ s.m2 = some p) (Py.env e)
        (fun _ tr s => CI cfg tr s ∧ s.m2 = some p) (fun _ => CI cfg) := fun e he =>
      Tri.call (S := env) e (fun _ _ _ h => ⟨h.1.io _ he, h.2⟩) fun _ _ _ h => h.1.io _ he
    refine Tri.bind (hcall _ trivial) fun _ => Tri.bind (hcall _ trivial) fun h => ?_
    refine Tri.bind (Q := fun _ tr s => CI cfg tr s ∧ s.m2 = some p)
      (Tri.modifySt _ fun _ _ h => ⟨⟨h.1.asks, h.1.m2, h.1.m3, h.1.chan⟩, h.2⟩) fun _ => ?_
    split
    · exact Tri.raise _ fun _ _ h => h.1
    · rename_i h0
      refine Tri.pure' _ fun tr s h => ⟨h.1, fun _ p' hp' => ?_⟩
      rw [h.2] at hp'
      cases hp'
      exact Decidable.not_not.1 h0

theorem c_create_asks (kp : KeyPair) (hkp : cfg.encKp = some kp) :
    Tri (fun tr s => CI cfg tr s ∧ ∀ p, s.m2 = some p → M2.noSuchServer p = 0) (Client.createEncryptedChannel kp)
      (fun _ => CI cfg) (fun _ => CI cfg) := by
  unfold Client.createEncryptedChannel
  refine Tri.bind Tri.getSt fun s => ?_
  split
  · exact Tri.raise _ fun _ _ h => h.2.1
  · rename_i p hp
    refine Tri.bind (Q := fun _ => CI cfg) (shared_asks _ _ (fun _ _ h => h.2.1) ?_) fun k => ?_
    · rintro tr s' r h1 h2 ⟨rfl, h3, h4⟩
      refine h3.snoc _ ⟨h2, h1, kp, hkp, rfl⟩ ?_
      intro pk sk he
      cases he
      obtain ⟨raw, hr, hc⟩ := h3.m2 p hp
      refine ⟨raw, hr, ?_⟩
      have hf := m2_fields hc
      unfold offeredByServer
      rw [if_pos (by rw [← hf.2.2.2.2]; exact h4 p hp), hf.2.2.2.1]
    · refine Tri.bind (Q := fun _ => CI cfg) (Tri.modifySt _ fun _ _ h => ⟨h.asks, h.m2, h.m3, h.chan⟩) fun _ => ?_
      refine Tri.bind (Q := fun e tr s => CI cfg tr s ∧ EncOk e)
        (Tri.lift _ (fun e he _ _ h => ⟨h, encInit_ok' he⟩) fun _ _ _ _ h => h) fun e => ?_
      refine Tri.modifySt _ fun tr s h => ⟨h.1.asks, h.1.m2, h.1.m3, ?_⟩
      intro c hc
      cases hc
      exact h.2

theorem c_doM3_asks : Pres (CI cfg) Client.doM3 := by
  unfold Client.doM3
  refine Pres.bind (c_onEnc_asks fun J hJ => enc_read_asks hJ) fun raw => ?_
  split
  · exact Pres.raise _
  · refine Tri.bind (Q := fun p tr s => CI cfg tr s ∧ M34.ctor .m3 raw = .ok p)
      (Tri.lift _ (fun p hp _ _ h => ⟨h, hp⟩) fun _ _ _ _ h => h) fun p => ?_
    refine Tri.bind (Q := fun _ => CI cfg) (Tri.modifySt _ ?_) fun _ => ?_
    · rintro tr s ⟨h, hp⟩
      refine ⟨h.asks, h.m2, ?_, h.chan⟩
      rintro p' hp'
      cases hp'
      exact ⟨raw, hp⟩
    · exact Pres.bind (Pres.call _ fun _ _ _ h => h.io _ trivial) fun _ => Pres.pure _

theorem c_validate1_asks : Pres (CI cfg) Client.validateSignature1 := by
  unfold Client.validateSignature1
  refine Tri.bind Tri.getSt fun s => ?_
  split
  · exact Tri.raise _ fun _ _ h => h.2
  · rename_i p hp
    refine Tri.onError (M := fun _ => CI cfg) ?_ fun e => by
      split
      · exact Tri.raise _ fun _ _ h => h
      · exact Tri.raise _ fun _ _ h => h
    have key : ∀ tr s' (r : Except Err Bytes), s = s' ∧ CI cfg tr s' → CI cfg (tr ++ [⟨.signOpen (M34.signature p ++ sig1Prefix ++ s.m1Hash ++ s.m2Hash)
        (M34.sigKey p), r⟩]) s' := by
      rintro tr s' r ⟨rfl, h⟩
      obtain ⟨raw, hr⟩ := h.m3 p hp
      have hf := m34_fields 3 rfl hr
      refine h.snoc (e := .signOpen _ _) r ⟨?_, M34.signature p, s.m1Hash ++ s.m2Hash, ?_, ?_⟩ (by intro _ _ he; cases he)
      · rw [hf.2.2.1]; exact field_length _ _ _
      · rw [hf.2.2.2]; exact field_length _ _ _
      · simp only [List.append_assoc]; rfl
    refine Tri.bind (Q := fun _ => CI cfg) (Tri.call (S := env) _ (fun _ _ _ h => key _ _ _ h) fun _ _ _ h => key _ _ _ h)
      fun _ => Tri.pure' _ fun _ _ h => h

theorem c_doM4_asks : Pres (CI cfg) (Client.doM4 cfg) := by
  unfold Client.doM4
  pres
  all_goals first
    | exact c_onEnc_asks fun J hJ => enc_write_asks hJ _ _
    | exact Pres.modifySt _ fun _ _ h => ⟨h.asks, h.m2, h.m3, h.chan⟩
    | exact Pres.call _ fun _ _ _ h => h.io _ trivial
    | skip
  · refine Pres.call _ fun _ _ _ h => h.snoc (e := .sign _ _) _ ⟨rfl, _, List.append_assoc _ _ _⟩ (by intro _ _ he; cases he)
  · refine Tri.zoom (fun _ _ h _ => h) ?_
    intro tr0 s c h hc
    refine Tri.modifySt _ ?_
    rintro tr c' ⟨rfl, rfl⟩
    refine ⟨h.asks, h.m2, h.m3, ?_⟩
    intro c'' hc''
    cases hc''
    exact h.chan c' hc

theorem client_asks : Tri (fun tr s => CI cfg tr s ∧ readsOf tr = []) (Client.handshake cfg) (fun _ => CI cfg) (fun _ => CI cfg) := by
  unfold Client.handshake
  refine Tri.bind (Q := fun kp tr s => (CI cfg tr s ∧ readsOf tr = []) ∧ cfg.encKp = some kp) ?_ fun kp => ?_
  · unfold Client.validate
    split
    · exact Tri.raise _ fun _ _ h => h.1
    · rename_i kp hkp
      exact Tri.pure' _ fun _ _ h => ⟨h, hkp⟩
  refine Tri.intro_pre fun tr0 s0 h => ?_
  refine Tri.bind ((c_doM1_asks kp).conseq ?_ (fun _ _ _ h => h) fun _ _ _ h => h.1) fun _ => Tri.bind c_doM2_asks fun b => ?_
  · rintro tr s ⟨rfl, rfl⟩; exact h.1
  split
  · exact Tri.pure' _ fun _ _ h => h.1
  · rename_i hb
    refine Tri.bind ((c_create_asks kp h.2).pre fun tr s hh => ⟨hh.1, hh.2 ?_⟩) fun _ => ?_
    · simpa using hb
    · exact Pres.bind c_doM3_asks fun _ => Pres.bind c_validate1_asks fun _ => c_doM4_asks

theorem clientSession_asks {β : Type} (prog : IT appSig β) : wp (clientSession cfg prog) fun tr _ => Asks (ClientAsks cfg) offeredByServer tr := by
  unfold clientSession
  rw [wp_bind]
  refine wp_mono _ (client_asks (cfg := cfg) [] Client.init ⟨⟨⟨by simp, by simp [KeysRead]⟩, by simp [Client.init], by simp [Client.init], by simp [Client.init]⟩, rfl⟩) ?_
  rintro tr ⟨r, s⟩ h
  have h : CI cfg tr s := by cases r <;> simpa using h
  unfold clientAfter
  cases r with
  | error e => simpa using h.asks
  | ok u =>
    simp only []
    cases hc : s.chan with
    | none => simpa using h.asks
    | some c =>
      simp only [wp_bind]
      refine wp_mono _ (app_run_asks (asks_lasts (clientAsks_chan cfg)) prog c tr h.asks (h.chan c hc)) ?_
      intro tr' b h'
      simpa using h'

end

/-! ### The server -/

/-- The invariant of a server. -/
structure SI (cfg : ServerCfg) (tr : List (Ev env)) (s : ServerSt) : Prop where
  asks : Asks (ServerAsks cfg) offeredByClient tr
  m1 : ∀ p, s.m1 = some p → ∃ raw, (readsOf tr).head? = some raw ∧ M1.ctor raw = .ok p
  m4 : ∀ p, s.m4 = some p → ∃ raw, M34.ctor .m4 raw = .ok p
  chan : ∀ c, s.chan = some c → EncOk c.enc

section
variable {cfg : ServerCfg}

theorem SI.snoc {tr : List (Ev env)} {s : ServerSt} (h : SI cfg tr s) {e : EnvOp} (r : Except Err (EnvOp.Resp e))
    (hq : ServerAsks cfg e) (hk : ∀ pk sk, e = .beforenm pk sk → ∃ raw, (readsOf tr).head? = some raw ∧ offeredByClient raw = some pk) :
    SI cfg (tr ++ [⟨e, r⟩]) s :=
  ⟨h.asks.snoc hq hk, fun p hp => (h.m1 p hp).imp fun _ h => ⟨readsOf_mono h.1, h.2⟩, h.m4, h.chan⟩

theorem SI.io {tr : List (Ev env)} {s : ServerSt} (h : SI cfg tr s) {e : EnvOp} (r : Except Err (EnvOp.Resp e))
    (hc : ChanOp e) : SI cfg (tr ++ [⟨e, r⟩]) s := by
  refine h.snoc r (serverAsks_chan cfg e hc) ?_
  rintro pk sk rfl
  exact hc.elim

theorem s_onEnc_asks {α : Type} {m : Py env EncSt α}
    (hm : ∀ J, Lasts J → Pres (fun tr e => J tr ∧ EncOk e) m) : Pres (SI cfg) (Server.onEnc m) := by
  refine Tri.zoom (fun _ _ h _ => h) ?_
  intro tr0 s c h hc
  refine (app_onEnc_asks (hm (fun tr => ∀ c', EncOk c'.enc → SI cfg tr { s with chan := some c' }) ?_)).conseq ?_ ?_ ?_
  · intro tr e r hh hce c' hc'
    exact (hh c' hc').io r hce
  · rintro tr c' ⟨rfl, rfl⟩
    refine ⟨fun c' hc' => ⟨h.asks, h.m1, h.m4, ?_⟩, h.chan _ hc⟩
    rintro c'' hc''
    cases hc''
    exact hc'
  · exact fun _ tr c' hh => hh.1 c' hh.2
  · exact fun _ tr c' hh => hh.1 c' hh.2

theorem s_doM1_asks : Tri (fun tr s => SI cfg tr s ∧ readsOf tr = []) (Server.doM1 cfg) (fun _ => SI cfg) (fun _ => SI cfg) := by
  unfold Server.doM1
  refine Tri.bind (Q := fun raw tr s => SI cfg tr s ∧ (readsOf tr).head? = some raw)
    (Tri.call (S := env) _ (fun a tr s h => ⟨h.1.io (e := .read) _ trivial, ?_⟩) fun _ _ _ h => h.1.io (e := .read) _ trivial) fun raw => ?_
  · rw [readsOf_append, h.2]; simp [readsOf]
  split
  · refine Tri.bind (Q := fun _ => SI cfg) (Tri.modifySt _ fun _ _ h => ⟨h.1.asks, by simp, h.1.m4, h.1.chan⟩) fun _ => Pres.pure _
  · exact Tri.raise _ fun _ _ h => h.1
  · rename_i p hp
    refine Tri.bind (Q := fun _ => SI cfg) (Tri.modifySt _ ?_) fun _ => ?_
    · rintro tr s ⟨h1, h2⟩
      refine ⟨h1.asks, ?_, h1.m4, h1.chan⟩
      rintro p' hp'
      cases hp'
      exact ⟨raw, h2, hp⟩
    · pres
      all_goals try simp only []
      all_goals pres
      all_goals first
        | exact Pres.call _ fun _ _ _ h => h.io _ trivial
        | exact Pres.modifySt _ fun _ _ h => ⟨h.asks, h.m1, h.m4, h.chan⟩

theorem s_doA2_asks (raw : Bytes) : Pres (SI cfg) (Server.doA2 cfg raw) := by
  unfold Server.doA2
  pres
  all_goals exact Pres.call _ fun _ _ _ h => h.io _ trivial

theorem s_doM2_asks (kp : KeyPair) : Pres (SI cfg) (Server.doM2 cfg kp) := by
  unfold Server.doM2
  pres
  all_goals first
    | exact Pres.call _ fun _ _ _ h => h.io _ trivial
    | exact Pres.modifySt _ fun _ _ h => ⟨h.asks, h.m1, h.m4, h.chan⟩

theorem s_create_asks (kp : KeyPair) (hkp : cfg.encKp = some kp) : Pres (SI cfg) (Server.createEncryptedChannel kp) := by
  unfold Server.createEncryptedChannel
  refine Tri.bind Tri.getSt fun s => ?_
  split
  · exact Tri.raise _ fun _ _ h => h.2
  · rename_i p hp
    refine Tri.bind (Q := fun _ => SI cfg) (shared_asks _ _ (fun _ _ h => h.2) ?_) fun k => ?_
    · rintro tr s' r h1 h2 ⟨rfl, h3⟩
      refine h3.snoc _ ⟨h2, h1, kp, hkp, rfl⟩ ?_
      intro pk sk he
      cases he
      obtain ⟨raw, hr, hc⟩ := h3.m1 p hp
      exact ⟨raw, hr, by rw [(m1_fields hc).2.2.1]; rfl⟩
    · refine Tri.bind (Q := fun _ => SI cfg) (Tri.modifySt _ fun _ _ h => ⟨h.asks, h.m1, h.m4, h.chan⟩) fun _ => ?_
      refine Tri.bind (Q := fun e tr s => SI cfg tr s ∧ EncOk e)
        (Tri.lift _ (fun e he _ _ h => ⟨h, encInit_ok' he⟩) fun _ _ _ _ h => h) fun e => ?_
      refine Tri.modifySt _ fun tr s h => ⟨h.1.asks, h.1.m1, h.1.m4, ?_⟩
      intro c hc
      cases hc
      exact h.2

theorem enc_m3_asks {J : List (Ev env) → Prop} (hJ : Lasts J) (m : Bytes) : Pres (fun tr e => J tr ∧ EncOk e)
    (do
      let c ← Enc.encrypt m
      Py.modifySt Enc.advanceWrite
      return Enc.wrap c false : Py env EncSt Bytes) :=
  Pres.bind (enc_encrypt_asks hJ m) fun _ => Pres.bind (Pres.modifySt _ fun _ _ h => ⟨h.1, h.2⟩) fun _ => Pres.pure _

theorem s_doM3_asks : Pres (SI cfg) (Server.doM3 cfg) := by
  unfold Server.doM3 Server.doM3Head
  pres
  all_goals first
    | exact s_onEnc_asks fun J hJ => enc_m3_asks hJ _
    | exact Pres.modifySt _ fun _ _ h => ⟨h.asks, h.m1, h.m4, h.chan⟩
    | exact Pres.call _ fun _ _ _ h => h.io _ trivial
    | exact Pres.call _ fun _ _ _ h => h.snoc (e := .sign _ _) _ ⟨rfl, _, List.append_assoc _ _ _⟩ (by intro _ _ he; cases he)

theorem s_doM4_asks : Pres (SI cfg) Server.doM4 := by
  unfold Server.doM4
  refine Pres.bind (s_onEnc_asks fun J hJ => enc_read_asks hJ) fun raw => ?_
  refine Tri.bind (Q := fun p tr s => SI cfg tr s ∧ M34.ctor .m4 raw = .ok p)
    (Tri.lift _ (fun p hp _ _ h => ⟨h, hp⟩) fun _ _ _ _ h => h) fun p => ?_
  refine Tri.bind (Q := fun _ => SI cfg) (Tri.modifySt _ ?_) fun _ => ?_
  · rintro tr s ⟨h, hp⟩
    refine ⟨h.asks, h.m1, ?_, h.chan⟩
    rintro p' hp'
    cases hp'
    exact ⟨raw, hp⟩
  · exact Pres.bind (Pres.call _ fun _ _ _ h => h.io _ trivial) fun _ =>
      Pres.modifySt _ fun _ _ h => ⟨h.asks, h.m1, h.m4, h.chan⟩

theorem s_validate2_asks : Pres (SI cfg) Server.validateSignature2 := by
  unfold Server.validateSignature2
  refine Tri.bind Tri.getSt fun s => ?_
  split
  · exact Tri.raise _ fun _ _ h => h.2
  · rename_i p hp
    refine Tri.onError (M := fun _ => SI cfg) ?_ fun e => by
      split
      · exact Tri.raise _ fun _ _ h => h
      · exact Tri.raise _ fun _ _ h => h
    have key : ∀ tr s' (r : Except Err Bytes), s = s' ∧ SI cfg tr s' → SI cfg (tr ++ [⟨.signOpen (M34.signature p ++ sig2Prefix ++ s.m1Hash ++ s.m2Hash)
        (M34.sigKey p), r⟩]) s' := by
      rintro tr s' r ⟨rfl, h⟩
      obtain ⟨raw, hr⟩ := h.m4 p hp
      have hf := m34_fields 4 rfl hr
      refine h.snoc (e := .signOpen _ _) r ⟨?_, M34.signature p, s.m1Hash ++ s.m2Hash, ?_, ?_⟩ (by intro _ _ he; cases he)
      · rw [hf.2.2.1]; exact field_length _ _ _
      · rw [hf.2.2.2]; exact field_length _ _ _
      · simp only [List.append_assoc]; rfl
    refine Tri.bind (Q := fun _ => SI cfg) (Tri.call (S := env) _ (fun _ _ _ h => key _ _ _ h) fun _ _ _ h => key _ _ _ h)
      fun _ => Tri.pure' _ fun _ _ h => h

theorem server_asks : Tri (fun tr s => SI cfg tr s ∧ readsOf tr = []) (Server.handshake cfg) (fun _ => SI cfg) (fun _ => SI cfg) := by
  have hv : Tri (SI cfg) (Server.validate cfg) (fun kp tr s => SI cfg tr s ∧ cfg.encKp = some kp) (fun _ => SI cfg) := by
    unfold Server.validate
    split
    · exact Tri.raise _ fun _ _ h => h
    · rename_i kp hkp
      exact Tri.pure' _ fun _ _ h => ⟨h, hkp⟩
  unfold Server.handshake
  refine Tri.bind (Q := fun kp tr s => (SI cfg tr s ∧ readsOf tr = []) ∧ cfg.encKp = some kp) ?_ fun kp => Tri.intro_pre fun tr0 s0 h => ?_
  · unfold Server.validate
    split
    · exact Tri.raise _ fun _ _ h => h.1
    · rename_i kp hkp
      exact Tri.pure' _ fun _ _ h => ⟨h, hkp⟩
  refine Tri.bind (s_doM1_asks.pre ?_) fun o => ?_
  · rintro tr s ⟨rfl, rfl⟩; exact h.1
  split
  · exact Pres.bind (s_doA2_asks _) fun _ => Pres.modifySt _ fun _ _ h => ⟨h.asks, h.m1, h.m4, h.chan⟩
  · refine Tri.bind (hv.post fun _ _ _ h => h.1) fun _ => ?_
    refine Pres.bind (s_doM2_asks kp) fun _ => Pres.bind (s_create_asks kp h.2) fun _ => ?_
    exact Pres.bind s_doM3_asks fun _ => Pres.bind s_doM4_asks fun _ => s_validate2_asks

theorem serverSession_asks {β : Type} (prog : IT appSig β) : wp (serverSession cfg prog) fun tr _ => Asks (ServerAsks cfg) offeredByClient tr := by
  unfold serverSession
  rw [wp_bind]
  refine wp_mono _ (server_asks (cfg := cfg) [] Server.init ⟨⟨⟨by simp, by simp [KeysRead]⟩, by simp [Server.init], by simp [Server.init], by simp [Server.init]⟩, rfl⟩) ?_
  rintro tr ⟨r, s⟩ h
  have h : SI cfg tr s := by cases r <;> simpa using h
  unfold serverAfter
  cases r with
  | error e => simpa using h.asks
  | ok u =>
    simp only []
    cases hc : s.chan with
    | none => simpa using h.asks
    | some c =>
      simp only [wp_bind]
      refine wp_mono _ (app_run_asks (asks_lasts (serverAsks_chan cfg)) prog c tr h.asks (h.chan c hc)) ?_
      intro tr' b h'
      simpa using h'

end

/-! ### Other libraries -/

theorem withLib_congr {L L' : Lib} {Q : EnvOp → Prop} (hL : ∀ e, Q e → SameAnswer L L' e) {β : Type} (t : IT env β)
    (h : ∀ tr b, Exec t tr b → ∀ ev ∈ tr, Q ev.op) : withLib L t = withLib L' t := by
  induction t with
  | ret b => rfl
  | op e k ih =>
    have hq : Q e := by
      obtain ⟨tr, b, hx⟩ := Exec_total (k (.error .valueError))
      exact h _ _ (.op e k _ tr b hx) _ List.mem_cons_self
    have hk : ∀ r, withLib L (k r) = withLib L' (k r) := fun r =>
      ih r fun tr b hx ev hev => h _ _ (.op e k r tr b hx) ev (List.mem_cons_of_mem _ hev)
    have hs := hL e hq
    cases e <;> simp only [withLib, hk] <;> (simp only [SameAnswer] at hs; rw [hs])

theorem party_congr {L L' : Lib} {Q : EnvOp → Prop} (hL : ∀ e, Q e → SameAnswer L L' e) (c : Clock) {β : Type} (t : IT env β)
    (h : ∀ tr b, Exec t tr b → ∀ ev ∈ tr, Q ev.op) (i : Nat) : party L c t i = party L' c t i := by
  induction t generalizing i with
  | ret b => rfl
  | op e k ih =>
    have hq : Q e := by
      obtain ⟨tr, b, hx⟩ := Exec_total (k (.error .valueError))
      exact h _ _ (.op e k _ tr b hx) _ List.mem_cons_self
    have hk : ∀ r i, party L c (k r) i = party L' c (k r) i := fun r =>
      ih r fun tr b hx ev hev => h _ _ (.op e k r tr b hx) ev (List.mem_cons_of_mem _ hev)
    have hs := hL e hq
    cases e <;> simp only [party, hk] <;> (simp only [SameAnswer] at hs; rw [hs])

theorem answered_congr {L L' : Lib} {ev : Ev env} (hs : SameAnswer L L' ev.op) (h : AnsweredBy L ev) : AnsweredBy L' ev := by
  obtain ⟨e, r⟩ := ev
  cases e <;> first | trivial | exact h.trans hs

end Salt
