import Verif.Spec.Broken
import Verif.Lemmas.NetLog
import Verif.Lemmas.Rounds
import Verif.Lemmas.Prog

/-!
# What an exception of the channel does

In a handshake it ends the handshake. A read of the application leaves everything unchanged, a write as if it had succeeded.
-/

set_option linter.unusedSimpArgs false

namespace Salt

open Spec

/-- The operations of the channel. -/
def EnvOp.isChan : EnvOp → Bool
  | .read | .write _ _ => true
  | _ => false

/-- No operation of the channel is performed. -/
def Silent {β : Type} : IT env β → Prop
  | .ret _ => True
  | .op e k => EnvOp.isChan e = false ∧ ∀ r, Silent (k r)

/-- An exception of the channel ends the method. -/
def Clean {α σ : Type} : IT env (Except Err α × σ) → Prop
  | .ret _ => True
  | .op e k => (EnvOp.isChan e = true → ∀ x, ∃ s, k (.error x) = .ret (.error x, s)) ∧ ∀ r, Clean (k r)

section
variable {σ τ α β γ : Type}

theorem Silent.clean {t : IT env (Except Err α × σ)} (h : Silent t) : Clean t := by
  induction t with
  | ret => trivial
  | op e k ih => exact ⟨by simp [h.1], fun r => ih r (h.2 r)⟩

theorem Silent.bind {t : IT env β} {f : β → IT env γ} (h : Silent t) (hf : ∀ b, Silent (f b)) : Silent (t.bind f) := by
  induction t with
  | ret b => exact hf b
  | op e k ih => exact ⟨h.1, fun r => ih r (h.2 r)⟩

theorem Clean.bind {t : IT env (Except Err α × σ)} {f : Except Err α × σ → IT env (Except Err β × τ)} (h : Clean t)
    (he : ∀ e s, ∃ s', f (.error e, s) = .ret (.error e, s')) (hf : ∀ a s, Clean (f (.ok a, s))) : Clean (t.bind f) := by
  induction t with
  | ret b =>
    obtain ⟨r, s⟩ := b
    cases r with
    | error e => obtain ⟨s', h⟩ := he e s; simp only [IT.bind, h]; trivial
    | ok a => exact hf a s
  | op e k ih =>
    refine ⟨fun hc x => ?_, fun r => ih r (h.2 r)⟩
    obtain ⟨s, hs⟩ := h.1 hc x
    obtain ⟨s', h'⟩ := he x s
    exact ⟨s', by show (k (.error x)).bind f = _; rw [hs]; exact h'⟩

/-- For methods. -/
def SilentM (m : Py env σ α) : Prop := ∀ s, Silent (m s)

/-- For methods. -/
def CleanM (m : Py env σ α) : Prop := ∀ s, Clean (m s)

theorem SilentM.clean {m : Py env σ α} (h : SilentM m) : CleanM m := fun s => (h s).clean

theorem SilentM.bind {m : Py env σ α} {f : α → Py env σ β} (h : SilentM m) (hf : ∀ a, SilentM (f a)) : SilentM (m >>= f) := by
  intro s
  refine (h s).bind ?_
  rintro ⟨r, s'⟩
  cases r with
  | error e => trivial
  | ok a => exact hf a s'

theorem SilentM.onError {m : Py env σ α} {f : Err → Py env σ α} (h : SilentM m) (hf : ∀ a, SilentM (f a)) :
    SilentM (Py.onError m f) := by
  intro s
  refine (h s).bind ?_
  rintro ⟨r, s'⟩
  cases r with
  | error e => exact hf e s'
  | ok a => trivial

theorem SilentM.zoom {get : σ → Option τ} {set : τ → σ → σ} {m : Py env τ α} (h : SilentM m) :
    SilentM (Py.zoom get set m) := by
  intro s
  unfold Py.zoom
  split
  · trivial
  · exact (h _).bind fun _ => trivial

theorem SilentM.appEnc {m : Py env EncSt α} (h : SilentM m) : SilentM (App.onEnc m) :=
  fun s => (h s.enc).bind fun _ => trivial

theorem SilentM.pure (a : α) : SilentM (Pure.pure a : Py env σ α) := fun _ => trivial
theorem SilentM.raise (e : Err) : SilentM (Py.raise e : Py env σ α) := fun _ => trivial
theorem SilentM.lift (x : Except Err α) : SilentM (Py.lift x : Py env σ α) := fun _ => trivial
theorem SilentM.get : SilentM (Py.getSt : Py env σ σ) := fun _ => trivial
theorem SilentM.modify (f : σ → σ) : SilentM (Py.modifySt f : Py env σ Unit) := fun _ => trivial
theorem SilentM.ofEnv {e : EnvOp} (h : EnvOp.isChan e = false) : SilentM (Py.env e : Py env σ _) := fun _ => ⟨h, fun _ => trivial⟩

theorem CleanM.ofEnv (e : EnvOp) : CleanM (Py.env e : Py env σ _) := fun s => ⟨fun _ _ => ⟨s, rfl⟩, fun _ => trivial⟩

theorem CleanM.bind {m : Py env σ α} {f : α → Py env σ β} (h : CleanM m) (hf : ∀ a, CleanM (f a)) : CleanM (m >>= f) :=
  fun s => Clean.bind (h s) (fun _ s' => ⟨s', rfl⟩) fun a s' => hf a s'

theorem CleanM.zoom {get : σ → Option τ} {set : τ → σ → σ} {m : Py env τ α} (h : CleanM m) :
    CleanM (Py.zoom get set m) := by
  intro s
  unfold Py.zoom
  split
  · trivial
  · exact Clean.bind (h _) (fun _ _ => ⟨_, rfl⟩) fun _ _ => trivial

theorem CleanM.appEnc {m : Py env EncSt α} (h : CleanM m) : CleanM (App.onEnc m) :=
  fun s => Clean.bind (h s.enc) (fun _ _ => ⟨_, rfl⟩) fun _ _ => trivial

end

/-- Decompose a method. -/
macro "silent" : tactic => `(tactic| repeat' (first
  | assumption
  | exact SilentM.pure _
  | exact SilentM.raise _
  | exact SilentM.lift _
  | exact SilentM.get
  | exact SilentM.modify _
  | exact SilentM.ofEnv rfl
  | refine SilentM.bind ?_ fun _ => ?_
  | refine SilentM.onError ?_ fun _ => ?_
  | refine SilentM.zoom ?_
  | refine SilentM.appEnc ?_
  | split))

/-- Decompose a method. -/
macro "clean" : tactic => `(tactic| repeat' (first
  | assumption
  | exact (SilentM.pure _).clean
  | exact (SilentM.raise _).clean
  | exact (SilentM.lift _).clean
  | exact (SilentM.get).clean
  | exact (SilentM.modify _).clean
  | exact CleanM.ofEnv _
  | refine CleanM.bind ?_ fun _ => ?_
  | refine (SilentM.onError ?_ fun _ => ?_).clean
  | refine CleanM.zoom ?_
  | refine CleanM.appEnc ?_
  | exact SilentM.pure _
  | exact SilentM.raise _
  | exact SilentM.lift _
  | exact SilentM.get
  | exact SilentM.modify _
  | exact SilentM.ofEnv rfl
  | refine SilentM.bind ?_ fun _ => ?_
  | split))

theorem sharedKey_silent {σ : Type} (a b : Bytes) : SilentM (computeSharedKey a b : Py env σ Bytes) := by
  unfold computeSharedKey; silent

theorem encrypt_silent (m : Bytes) : SilentM (Enc.encrypt m) := by unfold Enc.encrypt; silent

theorem decrypt_silent (m : Bytes) : SilentM (Enc.decrypt m) := by unfold Enc.decrypt; silent

theorem unwrap_silent (m : Bytes) : SilentM (Enc.unwrap m) := by unfold Enc.unwrap; silent

theorem encryptAll_silent (l : Bool) (ms : List Bytes) : SilentM (Enc.encryptAll l ms) := by
  induction ms with
  | nil => exact SilentM.pure _
  | cons m ms ih =>
    have := encrypt_silent m
    unfold Enc.encryptAll; silent

theorem encRead_clean : CleanM Enc.read := by
  have h1 : CleanM Enc.fetch := by unfold Enc.fetch; clean
  have h2 := fun m => (unwrap_silent m).clean
  have h3 := fun m => (decrypt_silent m).clean
  unfold Enc.read
  refine h1.bind fun _ => (h2 _).bind fun _ => (h3 _).bind fun _ => ?_
  clean

theorem encWrite_clean (ms : List Bytes) (l : Bool) : CleanM (Enc.write ms l) :=
  (encryptAll_silent l ms).clean.bind fun _ => CleanM.ofEnv _

theorem client_clean (cfg : ClientCfg) : CleanM (Client.handshake cfg) := by
  have h1 : CleanM (Client.validate cfg) := by unfold Client.validate; clean
  have h2 : ∀ k, CleanM (Client.doM1 k) := fun k => by unfold Client.doM1; clean
  have h3 : CleanM Client.doM2 := by unfold Client.doM2; clean
  have h4 : ∀ k, CleanM (Client.createEncryptedChannel k) := fun k => by
    have := fun a b => (sharedKey_silent (σ := ClientSt) a b).clean
    unfold Client.createEncryptedChannel
    refine CleanM.bind (SilentM.get).clean fun _ => ?_
    split
    · exact (SilentM.raise _).clean
    · refine (this _ _).bind fun _ => ?_
      clean
  have h5 : CleanM Client.doM3 := by
    have := encRead_clean
    unfold Client.doM3 Client.onEnc; clean
  have h6 : CleanM Client.validateSignature1 := by unfold Client.validateSignature1; clean
  have h7 : CleanM (Client.doM4 cfg) := by
    have := fun ms l => encWrite_clean ms l
    unfold Client.doM4 Client.onEnc
    refine CleanM.bind (CleanM.ofEnv _) fun _ => CleanM.bind (SilentM.lift _).clean fun _ => ?_
    refine CleanM.bind (SilentM.get).clean fun _ => CleanM.bind (CleanM.ofEnv _) fun _ => ?_
    refine CleanM.bind (SilentM.lift _).clean fun _ => CleanM.bind (SilentM.modify _).clean fun _ => ?_
    split
    · clean
    · exact CleanM.zoom (CleanM.appEnc (this _ _))
  unfold Client.handshake
  refine h1.bind fun _ => (h2 _).bind fun _ => h3.bind fun _ => ?_
  split
  · clean
  · exact (h4 _).bind fun _ => h5.bind fun _ => h6.bind fun _ => h7

theorem server_clean (cfg : ServerCfg) : CleanM (Server.handshake cfg) := by
  have h1 : CleanM (Server.validate cfg) := by unfold Server.validate; clean
  have h2 : CleanM (Server.doM1 cfg) := by
    unfold Server.doM1; clean
    dsimp only; clean
  have h3 : ∀ k, CleanM (Server.doM2 cfg k) := fun k => by unfold Server.doM2; clean
  have h4 : ∀ k, CleanM (Server.createEncryptedChannel k) := fun k => by
    have := fun a b => (sharedKey_silent (σ := ServerSt) a b).clean
    unfold Server.createEncryptedChannel
    refine CleanM.bind (SilentM.get).clean fun _ => ?_
    split
    · exact (SilentM.raise _).clean
    · refine (this _ _).bind fun _ => ?_
      clean
  have h5 : CleanM (Server.doM3 cfg) := by
    have h := fun m => (encrypt_silent m).clean
    have h' : CleanM (Server.doM3Head cfg) := by unfold Server.doM3Head; clean
    unfold Server.doM3 Server.onEnc
    refine h'.bind fun ⟨_, _⟩ => ?_
    refine CleanM.bind (SilentM.lift _).clean fun _ => CleanM.bind (SilentM.get).clean fun _ => ?_
    refine CleanM.bind (CleanM.ofEnv _) fun _ => CleanM.bind (SilentM.lift _).clean fun _ => ?_
    refine CleanM.bind (CleanM.zoom (CleanM.appEnc ((h _).bind fun _ => ?_))) fun _ => CleanM.ofEnv _
    clean
  have h6 : CleanM Server.doM4 := by
    have := encRead_clean
    unfold Server.doM4 Server.onEnc; clean
  have h7 : CleanM Server.validateSignature2 := by unfold Server.validateSignature2; clean
  have h8 : ∀ c, CleanM (Server.doA2 cfg c) := fun c => by unfold Server.doA2; clean
  unfold Server.handshake
  refine h1.bind fun _ => h2.bind fun o => ?_
  cases o with
  | some c => exact (h8 c).bind fun _ => (SilentM.modify _).clean
  | none => exact h1.bind fun _ => (h3 _).bind fun _ => (h4 _).bind fun _ => h5.bind fun _ => h6.bind fun _ => h7

end Salt
