import Verif.Spec.Again
import Verif.Lemmas.SessionOk2
import Verif.Lemmas.SessionRun

/-!
# Two runs of a method that only differ in attributes
-/

set_option linter.unusedSimpArgs false

namespace Salt

open Spec

variable {S : Sig} {σ τ α β γ δ : Type}

/-- Two programs that make the same calls, and whose results are related. -/
inductive Par (R : α → β → Prop) : IT S α → IT S β → Prop
  | ret (a : α) (b : β) : R a b → Par R (.ret a) (.ret b)
  | op (e : S.Op) (k : Except Err (S.Resp e) → IT S α) (k' : Except Err (S.Resp e) → IT S β) :
      (∀ r, Par R (k r) (k' r)) → Par R (.op e k) (.op e k')

theorem Par.bind {R : α → β → Prop} {Q : γ → δ → Prop} {t : IT S α} {t' : IT S β} {f : α → IT S γ} {g : β → IT S δ}
    (h : Par R t t') (hf : ∀ a b, R a b → Par Q (f a) (g b)) : Par Q (t.bind f) (t'.bind g) := by
  induction h with
  | ret a b h => exact hf _ _ h
  | op e k k' _ ih => exact .op _ _ _ ih

theorem Par.mono {R Q : α → β → Prop} {t : IT S α} {t' : IT S β} (h : Par R t t') (hq : ∀ a b, R a b → Q a b) :
    Par Q t t' := by
  induction h with
  | ret a b h => exact .ret _ _ (hq _ _ h)
  | op e k k' _ ih => exact .op _ _ _ ih

theorem Par.refl {R : α → α → Prop} (t : IT S α) (h : ∀ a, R a a) : Par R t t := by
  induction t with
  | ret a => exact .ret _ _ (h a)
  | op e k ih => exact .op _ _ _ ih

theorem Par.swap {R : α → β → Prop} {t : IT S α} {t' : IT S β} (h : Par R t t') : Par (fun b a => R a b) t' t := by
  induction h with
  | ret a b h => exact .ret _ _ h
  | op e k k' _ ih => exact .op _ _ _ ih

theorem Par.exec {R : α → β → Prop} {t : IT S α} {t' : IT S β} (h : Par R t t') {tr : List (Ev S)} {a : α}
    (he : Exec t tr a) : ∃ b, Exec t' tr b ∧ R a b := by
  induction h generalizing tr with
  | ret a' b h =>
    cases he
    exact ⟨b, .ret _, h⟩
  | op e k k' _ ih =>
    cases he with
    | op _ _ r tr _ he =>
      obtain ⟨b, h1, h2⟩ := ih r he
      exact ⟨b, .op _ _ _ _ _ h1, h2⟩

/-- How two runs of a method end. -/
def ParPost (Q : α → σ → σ → Prop) (E : σ → σ → Prop) (a b : Except Err α × σ) : Prop :=
  a.1 = b.1 ∧ match a.1 with
    | .ok x => Q x a.2 b.2
    | .error _ => E a.2 b.2

/-- Two runs of the method, from attributes related by `P`. -/
def Par2 (P : σ → σ → Prop) (m : Py S σ α) (Q : α → σ → σ → Prop) (E : σ → σ → Prop) : Prop :=
  ∀ x y, P x y → Par (ParPost Q E) (m x) (m y)

namespace Par2

variable {P : σ → σ → Prop} {Q : α → σ → σ → Prop} {R : β → σ → σ → Prop} {E : σ → σ → Prop}

theorem bind {m : Py S σ α} {f : α → Py S σ β} (h1 : Par2 P m Q E) (h2 : ∀ a, Par2 (Q a) (f a) R E) :
    Par2 P (m >>= f) R E := by
  intro x y h
  rw [Py.bind_run, Py.bind_run]
  refine (h1 x y h).bind ?_
  rintro ⟨r, x'⟩ ⟨r', y'⟩ ⟨hr, h⟩
  cases hr
  cases r with
  | error e => exact .ret _ _ ⟨rfl, h⟩
  | ok a => exact h2 a x' y' h

theorem pre {P' : σ → σ → Prop} {m : Py S σ α} (h : Par2 P m Q E) (hp : ∀ x y, P' x y → P x y) : Par2 P' m Q E :=
  fun x y h' => h x y (hp _ _ h')

theorem assume {A : Prop} {m : Py S σ α} (h : A → Par2 P m Q E) : Par2 (fun x y => A ∧ P x y) m Q E :=
  fun x y h' => h h'.1 x y h'.2

theorem pure {a : α} (h : ∀ x y, P x y → Q a x y) : Par2 P (Pure.pure a : Py S σ α) Q E :=
  fun x y hp => .ret _ _ ⟨rfl, h x y hp⟩

theorem raise {e : Err} (h : ∀ x y, P x y → E x y) : Par2 P (Py.raise e : Py S σ α) Q E :=
  fun x y hp => .ret _ _ ⟨rfl, h x y hp⟩

theorem lift {v : Except Err α} (h : ∀ a x y, v = .ok a → P x y → Q a x y) (he : ∀ x y, P x y → E x y) :
    Par2 P (Py.lift v : Py S σ α) Q E := fun x y hp => by
  cases v with
  | error e => exact .ret _ _ ⟨rfl, he x y hp⟩
  | ok a => exact .ret _ _ ⟨rfl, h a x y rfl hp⟩

theorem modify {f : σ → σ} {Q : Unit → σ → σ → Prop} (h : ∀ x y, P x y → Q () (f x) (f y)) :
    Par2 P (Py.modifySt f : Py S σ Unit) Q E := fun x y hp => .ret _ _ ⟨rfl, h x y hp⟩

theorem call {e : S.Op} {Q : S.Resp e → σ → σ → Prop} (h : ∀ a x y, P x y → Q a x y) (he : ∀ x y, P x y → E x y) :
    Par2 P (Py.call e : Py S σ (S.Resp e)) Q E := fun x y hp => .op _ _ _ fun r => by
  cases r with
  | error e => exact .ret _ _ ⟨rfl, he x y hp⟩
  | ok a => exact .ret _ _ ⟨rfl, h a x y hp⟩

/-- Reading attributes that are the same. -/
theorem get {f : σ → Py S σ α} (h : ∀ x y, P x y → Par (ParPost Q E) (f x x) (f y y)) :
    Par2 P (Py.getSt >>= f) Q E := fun x y hp => by
  rw [Py.bind_run, Py.bind_run]
  exact h x y hp

theorem onError {m : Py S σ α} {g : Err → Py S σ α} {E' : σ → σ → Prop} (h1 : Par2 P m Q E')
    (h2 : ∀ e, Par2 E' (g e) Q E) : Par2 P (Py.onError m g) Q E := by
  intro x y h
  refine (h1 x y h).bind ?_
  rintro ⟨r, x'⟩ ⟨r', y'⟩ ⟨hr, h⟩
  cases hr
  cases r with
  | error e => exact h2 e x' y' h
  | ok a => exact .ret _ _ ⟨rfl, h⟩

/-- A method of an object that is the same in both. -/
theorem zoom {get : σ → Option τ} {set : τ → σ → σ} {m : Py S τ α} (hg : ∀ x y, P x y → get x = get y)
    (hn : ∀ x y, P x y → E x y) (hq : ∀ a c x y, P x y → Q a (set c x) (set c y))
    (he : ∀ c x y, P x y → E (set c x) (set c y)) : Par2 P (Py.zoom get set m) Q E := by
  intro x y h
  unfold Py.zoom
  rw [hg x y h]
  cases get y with
  | none => exact .ret _ _ ⟨rfl, hn _ _ h⟩
  | some c =>
    refine (Par.refl (m c) (R := fun a b => a = b) fun _ => rfl).bind ?_
    rintro ⟨r, c'⟩ _ rfl
    cases r with
    | error e => exact .ret _ _ ⟨rfl, he _ _ _ h⟩
    | ok a => exact .ret _ _ ⟨rfl, hq _ _ _ _ h⟩

theorem sameCalls {m : Py env σ α} {Q : α → σ → σ → Prop} {E : σ → σ → Prop} {s t : σ} (h : Par2 P m Q E) (hp : P s t) :
    SameCalls m s t fun r x y => match r with
      | .ok a => Q a x y
      | .error _ => E x y := by
  refine ⟨fun tr r x hx => ?_, fun tr r y hy => ?_⟩
  · obtain ⟨⟨r', y⟩, h1, h2, h3⟩ := (h s t hp).exec hx
    cases h2
    exact ⟨y, h1, h3⟩
  · obtain ⟨⟨r', x⟩, h1, h2, h3⟩ := (h s t hp).swap.exec hy
    cases h2
    exact ⟨x, h1, h3⟩

end Par2

theorem Spec.SameCalls.mono {m : Py env σ α} {s t : σ} {R R' : Except Err α → σ → σ → Prop} (h : SameCalls m s t R)
    (hr : ∀ r x y, R r x y → R' r x y) : SameCalls m s t R' :=
  ⟨fun tr r x hx => (h.1 tr r x hx).imp fun _ hy => ⟨hy.1, hr _ _ _ hy.2⟩,
    fun tr r y hy => (h.2 tr r y hy).imp fun _ hx => ⟨hx.1, hr _ _ _ hx.2⟩⟩

/-! ### The client -/

/-- Attributes assigned so far are the same in both. -/
structure CAgree (n : Nat) (old x y : ClientSt) : Prop where
  mixed : ClientMixed old y x
  m1 : 1 ≤ n → x.m1 = y.m1 ∧ x.m1Hash = y.m1Hash
  m2 : 2 ≤ n → x.m2 = y.m2 ∧ x.m2Hash = y.m2Hash
  chan : 3 ≤ n → x.sessionKey = y.sessionKey ∧ x.chan = y.chan
  m3 : 4 ≤ n → x.m3 = y.m3
  m4 : 5 ≤ n → x.m4 = y.m4

theorem ClientMixed.start (s y : ClientSt) : ClientMixed s y s :=
  ⟨.inr rfl, .inr rfl, .inr rfl, .inr rfl, .inr rfl, .inr rfl, .inr rfl, .inr rfl⟩

theorem m2_type {raw : Bytes} {p : Packet} (h : M2.ctor raw = .ok p) : M2.packetType p = PacketType.m2.value :=
  (m2_fields h).2.1

theorem client_again (cfg : ClientCfg) (s : ClientSt) :
    Par2 (CAgree 0 s) (Client.handshake cfg) (fun _ x y => x = y) (fun x y => ClientMixed s y x) := by
  have em : ∀ n x y, CAgree n s x y → ClientMixed s y x := fun _ _ _ h => h.mixed
  unfold Client.handshake
  refine Par2.bind (Q := fun _ => CAgree 0 s) ?_ fun kp => ?_
  · unfold Client.validate
    cases cfg.encKp with
    | none => exact Par2.raise (em 0)
    | some kp => exact Par2.pure fun _ _ h => h
  refine Par2.bind (Q := fun _ => CAgree 1 s) ?_ fun _ => ?_
  · unfold Client.doM1
    refine Par2.bind (Q := fun _ => CAgree 0 s) (Par2.call (fun _ _ _ h => h) (em 0)) fun t => ?_
    refine Par2.bind (Q := fun _ => CAgree 0 s) (Par2.lift (fun _ _ _ _ h => h) (em 0)) fun m1 => ?_
    refine Par2.bind (Q := fun _ x y => CAgree 0 s x y ∧ x.m1 = y.m1) (Par2.modify fun x y h => ?_) fun _ => ?_
    · exact ⟨{ h with mixed := { h.mixed with m1 := .inl rfl }, m1 := by simp, m2 := by simp, chan := by simp, m3 := by simp, m4 := by simp }, rfl⟩
    refine Par2.bind (Q := fun _ x y => CAgree 0 s x y ∧ x.m1 = y.m1) (Par2.call (fun _ _ _ h => h) fun _ _ h => h.1.mixed) fun hh => ?_
    refine Par2.bind (Q := fun _ => CAgree 1 s) (Par2.modify fun x y h => ?_) fun _ => ?_
    · exact { mixed := { h.1.mixed with m1Hash := .inl rfl }, m1 := fun _ => ⟨h.2, rfl⟩, m2 := by simp, chan := by simp, m3 := by simp, m4 := by simp }
    exact Par2.call (fun _ _ _ h => h) (em 1)
  refine Par2.bind (Q := fun b x y => b = true ∧ CAgree 2 s x y) ?_ fun b => ?_
  · unfold Client.doM2
    refine Par2.bind (Q := fun _ => CAgree 1 s) (Par2.call (fun _ _ _ h => h) (em 1)) fun chunk => ?_
    refine Par2.bind (Q := fun p x y => M2.ctor chunk = .ok p ∧ CAgree 1 s x y) (Par2.lift (fun _ _ _ e h => ⟨e, h⟩) (em 1)) fun m2 => ?_
    refine Par2.assume fun hm2 => ?_
    have ht := m2_type hm2
    refine Par2.bind (Q := fun _ x y => CAgree 1 s x y ∧ x.m2 = y.m2) (Par2.modify fun x y h => ?_) fun _ => ?_
    · exact ⟨{ mixed := { h.mixed with m2 := .inl rfl }, m1 := h.m1, m2 := by simp, chan := by simp, m3 := by simp, m4 := by simp }, rfl⟩
    rw [if_neg (by simpa using ht)]
    refine Par2.bind (Q := fun _ x y => CAgree 1 s x y ∧ x.m2 = y.m2) (Par2.call (fun _ _ _ h => h) fun _ _ h => h.1.mixed) fun _ => ?_
    refine Par2.bind (Q := fun _ x y => CAgree 1 s x y ∧ x.m2 = y.m2) (Par2.call (fun _ _ _ h => h) fun _ _ h => h.1.mixed) fun hh => ?_
    refine Par2.bind (Q := fun _ => CAgree 2 s) (Par2.modify fun x y h => ?_) fun _ => ?_
    · exact { mixed := { h.1.mixed with m2Hash := .inl rfl }, m1 := fun _ => h.1.m1 (by omega), m2 := fun _ => ⟨h.2, rfl⟩, chan := by simp, m3 := by simp, m4 := by simp }
    split
    · exact Par2.raise (em 2)
    · exact Par2.pure fun _ _ h => ⟨rfl, h⟩
  refine Par2.assume fun hb => ?_
  rw [if_neg (by simp [hb])]
  refine Par2.bind (Q := fun _ => CAgree 3 s) ?_ fun _ => ?_
  · unfold Client.createEncryptedChannel
    refine Par2.get fun x y h => ?_
    rw [(h.m2 (by omega)).1]
    cases y.m2 with
    | none => exact .ret _ _ ⟨rfl, h.mixed⟩
    | some m2 =>
      have : Par2 (CAgree 2 s) (do
          let key ← computeSharedKey kp.sec (M2.serverEncKey m2)
          Py.modifySt fun s => { s with sessionKey := key }
          let enc ← Py.lift (Enc.init key .client)
          Py.modifySt fun s => { s with chan := some (App.init enc) } : Py env ClientSt Unit) (fun _ => CAgree 3 s)
          (fun x y => ClientMixed s y x) := by
        refine Par2.bind (Q := fun _ => CAgree 2 s) ?_ fun key => ?_
        · unfold computeSharedKey
          split
          · exact Par2.raise (em 2)
          split
          · exact Par2.raise (em 2)
          · exact Par2.call (fun _ _ _ h => h) (em 2)
        refine Par2.bind (Q := fun _ x y => CAgree 2 s x y ∧ x.sessionKey = y.sessionKey) (Par2.modify fun x y h => ?_) fun _ => ?_
        · exact ⟨{ mixed := { h.mixed with sessionKey := .inl rfl }, m1 := h.m1, m2 := h.m2, chan := by simp, m3 := by simp, m4 := by simp }, rfl⟩
        refine Par2.bind (Q := fun _ x y => CAgree 2 s x y ∧ x.sessionKey = y.sessionKey) (Par2.lift (fun _ _ _ _ h => h) fun _ _ h => h.1.mixed) fun enc => ?_
        refine Par2.modify fun x y h => ?_
        exact { mixed := { h.1.mixed with chan := .inl rfl }, m1 := fun _ => h.1.m1 (by omega), m2 := fun _ => h.1.m2 (by omega), chan := fun _ => ⟨h.2, rfl⟩, m3 := by simp, m4 := by simp }
      exact this x y h
  have hset : ∀ n, 3 ≤ n → ∀ (c : AppSt) (x y : ClientSt), CAgree n s x y →
      CAgree n s { x with chan := some c } { y with chan := some c } := fun n hn c x y h =>
    { h with mixed := { h.mixed with chan := .inl rfl }, chan := fun _ => ⟨(h.chan hn).1, rfl⟩ }
  refine Par2.bind (Q := fun _ => CAgree 4 s) ?_ fun _ => ?_
  · unfold Client.doM3
    refine Par2.bind (Q := fun _ => CAgree 3 s) ?_ fun chunk => ?_
    · exact Par2.zoom (fun x y h => (h.chan (by omega)).2) (em 3) (fun _ c x y h => hset 3 (by omega) c x y h)
        fun c x y h => (hset 3 (by omega) c x y h).mixed
    split
    · exact Par2.raise (em 3)
    refine Par2.bind (Q := fun _ => CAgree 3 s) (Par2.lift (fun _ _ _ _ h => h) (em 3)) fun m3 => ?_
    refine Par2.bind (Q := fun _ => CAgree 4 s) (Par2.modify fun x y h => ?_) fun _ => ?_
    · exact { mixed := { h.mixed with m3 := .inl rfl }, m1 := fun _ => h.m1 (by omega), m2 := fun _ => h.m2 (by omega), chan := fun _ => h.chan (by omega), m3 := fun _ => rfl, m4 := by simp }
    refine Par2.bind (Q := fun _ => CAgree 4 s) (Par2.call (fun _ _ _ h => h) (em 4)) fun _ => ?_
    exact Par2.pure fun _ _ h => h
  refine Par2.bind (Q := fun _ => CAgree 4 s) ?_ fun _ => ?_
  · unfold Client.validateSignature1
    refine Par2.get fun x y h => ?_
    rw [(h.m1 (by omega)).2, (h.m2 (by omega)).2, h.m3 (by omega)]
    cases y.m3 with
    | none => exact .ret _ _ ⟨rfl, h.mixed⟩
    | some m3 =>
      refine Par2.onError (P := CAgree 4 s) (Q := fun _ => CAgree 4 s) (E' := CAgree 4 s) ?_ (fun e => ?_) x y h
      · exact Par2.bind (Q := fun _ => CAgree 4 s) (Par2.call (fun _ _ _ h => h) fun _ _ h => h) fun _ =>
          Par2.pure fun _ _ h => h
      · split <;> exact Par2.raise (em 4)
  unfold Client.doM4
  refine Par2.bind (Q := fun _ => CAgree 4 s) (Par2.call (fun _ _ _ h => h) (em 4)) fun t => ?_
  refine Par2.bind (Q := fun _ => CAgree 4 s) (Par2.lift (fun _ _ _ _ h => h) (em 4)) fun m4 => ?_
  refine Par2.get fun x y h => ?_
  rw [(h.m1 (by omega)).2, (h.m2 (by omega)).2]
  refine (Par2.bind (P := CAgree 4 s) (Q := fun _ => CAgree 4 s) (Par2.call (fun _ _ _ h => h) (em 4)) fun sm => ?_) x y h
  refine Par2.bind (Q := fun _ => CAgree 4 s) (Par2.lift (fun _ _ _ _ h => h) (em 4)) fun m4 => ?_
  refine Par2.bind (Q := fun _ => CAgree 5 s) (Par2.modify fun x y h => ?_) fun _ => ?_
  · exact { mixed := { h.mixed with m4 := .inl rfl }, m1 := fun _ => h.m1 (by omega), m2 := fun _ => h.m2 (by omega), chan := fun _ => h.chan (by omega), m3 := fun _ => h.m3 (by omega), m4 := fun _ => rfl }
  have all : ∀ x y, CAgree 5 s x y → x = y := by
    rintro ⟨⟩ ⟨⟩ h
    have h1 := h.m1 (by omega)
    have h2 := h.m2 (by omega)
    have h3 := h.chan (by omega)
    have h4 := h.m3 (by omega)
    have h5 := h.m4 (by omega)
    simp_all
  have hz : ∀ {α : Type} (m : Py env AppSt α), Par2 (CAgree 5 s)
      (Py.zoom (fun s => s.chan) (fun c s => { s with chan := some c }) m) (fun _ x y => x = y) (fun x y => ClientMixed s y x) :=
    fun m => Par2.zoom (fun x y h => (h.chan (by omega)).2) (em 5) (fun _ c x y h => all _ _ (hset 5 (by omega) c x y h))
      fun c x y h => (hset 5 (by omega) c x y h).mixed
  split
  · exact hz _
  · exact hz _

/-! ### The server -/

/-- Attributes assigned so far are the same in both. -/
structure SAgree (n : Nat) (old x y : ServerSt) : Prop where
  mixed : ServerMixed old y x
  done : x.isDone = old.isDone ∧ y.isDone = false
  m1 : 1 ≤ n → x.m1 = y.m1 ∧ x.m1Hash = y.m1Hash
  m2 : 2 ≤ n → x.m2 = y.m2
  chan : 3 ≤ n → x.sessionKey = y.sessionKey ∧ x.chan = y.chan
  m2Hash : 4 ≤ n → x.m2Hash = y.m2Hash
  m4 : 5 ≤ n → x.m4 = y.m4
  key : 6 ≤ n → x.clientSigKey = y.clientSigKey

theorem ServerMixed.start (s y : ServerSt) : ServerMixed s y s :=
  ⟨.inr rfl, .inr rfl, .inr rfl, .inr rfl, .inr rfl, .inr rfl, .inr rfl, .inr rfl, .inr rfl⟩

theorem server_again (cfg : ServerCfg) (s : ServerSt) :
    Par2 (fun x y => x = s ∧ y = Server.init) (Server.handshake cfg) (fun _ => ServerOkAgain s)
      (fun x y => ServerMixed s y x) := by
  have em : ∀ n x y, SAgree n s x y → ServerMixed s y x := fun _ _ _ h => h.mixed
  have e0 : ∀ x y, x = s ∧ y = Server.init → ServerMixed s y x := by
    rintro _ _ ⟨rfl, rfl⟩
    exact ServerMixed.start _ _
  unfold Server.handshake
  refine Par2.bind (Q := fun _ x y => x = s ∧ y = Server.init) ?_ fun kp => ?_
  · unfold Server.validate
    cases cfg.encKp with
    | none => exact Par2.raise e0
    | some kp => exact Par2.pure fun _ _ h => h
  refine Par2.bind (Q := fun o x y => match o with
    | some _ => x = { s with m1 := none } ∧ y = Server.init
    | none => SAgree 1 s x y) ?_ fun o => ?_
  · unfold Server.doM1
    refine Par2.bind (Q := fun _ x y => x = s ∧ y = Server.init) (Par2.call (fun _ _ _ h => h) e0) fun chunk => ?_
    cases hc : M1.ctor chunk with
    | error e =>
      have hr : Par2 (fun x y => x = s ∧ y = Server.init) (Py.raise e : Py env ServerSt (Option Bytes))
          (fun o x y => match o with
            | some _ => x = { s with m1 := none } ∧ y = Server.init
            | none => SAgree 1 s x y) (fun x y => ServerMixed s y x) := Par2.raise e0
      cases e
      case badPeer =>
        refine Par2.bind (Q := fun _ x y => x = { s with m1 := none } ∧ y = Server.init) (Par2.modify ?_) fun _ =>
          Par2.pure fun _ _ h => h
        rintro _ _ ⟨rfl, rfl⟩
        exact ⟨rfl, rfl⟩
      all_goals exact hr
    | ok m1 =>
      refine Par2.bind (Q := fun _ x y => SAgree 0 s x y ∧ x.m1 = y.m1) (Par2.modify ?_) fun _ => ?_
      · rintro _ _ ⟨rfl, rfl⟩
        exact ⟨{ mixed := { ServerMixed.start _ _ with m1 := .inl rfl }, done := ⟨rfl, rfl⟩, m1 := by simp, m2 := by simp, chan := by simp,
                 m2Hash := by simp, m4 := by simp, key := by simp }, rfl⟩
      refine Par2.bind (Q := fun _ x y => SAgree 0 s x y ∧ x.m1 = y.m1) (Par2.call (fun _ _ _ h => h) fun _ _ h => h.1.mixed) fun _ => ?_
      refine Par2.bind (Q := fun _ x y => SAgree 0 s x y ∧ x.m1 = y.m1) (Par2.call (fun _ _ _ h => h) fun _ _ h => h.1.mixed) fun hh => ?_
      refine Par2.bind (Q := fun _ => SAgree 1 s) (Par2.modify fun x y h => ?_) fun _ => ?_
      · exact { h.1 with mixed := { h.1.mixed with m1Hash := .inl rfl }, m1 := fun _ => ⟨h.2, rfl⟩, m2 := by simp, chan := by simp,
                         m2Hash := by simp, m4 := by simp, key := by simp }
      have jp : ∀ refuse : Bool, Par2 (SAgree 1 s) (if refuse = true then (do
            let t ← Py.env EnvOp.firstTime
            let m2 := M2.setNoSuchServer (M2.setTime M2.fresh t) 1
            let _ ← Py.env (EnvOp.write [M2.toBytes m2] true)
            Py.raise Err.noSuchServer) else Pure.pure none : Py env ServerSt (Option Bytes)) (fun o x y => match o with
            | some _ => x = { s with m1 := none } ∧ y = Server.init
            | none => SAgree 1 s x y) (fun x y => ServerMixed s y x) := by
        intro refuse
        split
        · refine Par2.bind (Q := fun _ => SAgree 1 s) (Par2.call (fun _ _ _ h => h) (em 1)) fun t => ?_
          refine Par2.bind (Q := fun _ => SAgree 1 s) (Par2.call (fun _ _ _ h => h) (em 1)) fun _ => ?_
          exact Par2.raise (em 1)
        · exact Par2.pure fun _ _ h => h
      by_cases hk : M1.serverSigKeyIncluded m1 ≠ 0
      · simp only [if_pos hk]
        refine Par2.bind (Q := fun _ => SAgree 1 s) (Par2.lift (fun _ _ _ _ h => h) (em 1)) fun k => ?_
        exact Par2.bind (Q := fun _ => SAgree 1 s) (Par2.pure fun _ _ h => h) jp
      · simp only [if_neg hk]
        exact Par2.bind (Q := fun _ => SAgree 1 s) (Par2.pure fun _ _ h => h) jp
  cases o with
  | some chunk =>
    refine Par2.bind (Q := fun _ x y => x = { s with m1 := none } ∧ y = Server.init) ?_ fun _ => Par2.modify ?_
    · have e1 : ∀ x y, x = { s with m1 := none } ∧ y = Server.init → ServerMixed s y x := by
        rintro _ _ ⟨rfl, rfl⟩
        exact { ServerMixed.start s Server.init with m1 := .inl rfl }
      unfold Server.doA2
      exact Par2.bind (Q := fun _ x y => x = { s with m1 := none } ∧ y = Server.init) (Par2.lift (fun _ _ _ _ h => h) e1)
        fun _ => Par2.call (fun _ _ _ h => h) e1
    · rintro _ _ ⟨rfl, rfl⟩
      exact .inl ⟨rfl, rfl⟩
  | none =>
  refine Par2.bind (Q := fun _ => SAgree 1 s) ?_ fun _ => ?_
  · unfold Server.validate
    cases cfg.encKp with
    | none => exact Par2.raise (em 1)
    | some kp => exact Par2.pure fun _ _ h => h
  have hash : ∀ n, (n = 2 ∨ n = 3) → ∀ (h : Bytes) x y, SAgree n s x y →
      SAgree n s { x with m2Hash := h } { y with m2Hash := h } := fun n hn h' x y h =>
    { h with mixed := { h.mixed with m2Hash := .inl rfl }, m2Hash := fun _ => rfl, m4 := by omega, key := by omega }
  refine Par2.bind (Q := fun _ x y => SAgree 2 s x y ∧ (cfg.bufferM2 = false → x.m2Hash = y.m2Hash)) ?_ fun _ => ?_
  · unfold Server.doM2
    refine Par2.bind (Q := fun _ => SAgree 1 s) (Par2.call (fun _ _ _ h => h) (em 1)) fun t => ?_
    refine Par2.bind (Q := fun _ => SAgree 1 s) (Par2.lift (fun _ _ _ _ h => h) (em 1)) fun m2 => ?_
    refine Par2.bind (Q := fun _ => SAgree 2 s) (Par2.modify fun x y h => ?_) fun _ => ?_
    · exact { h with mixed := { h.mixed with m2 := .inl rfl }, m1 := fun _ => h.m1 (by omega), m2 := fun _ => rfl, chan := by simp, m2Hash := by simp, m4 := by simp, key := by simp }
    cases hb : cfg.bufferM2 with
    | true => exact Par2.pure fun _ _ h => ⟨h, by simp⟩
    | false =>
      refine Par2.bind (Q := fun _ => SAgree 2 s) (Par2.call (fun _ _ _ h => h) (em 2)) fun _ => ?_
      refine Par2.bind (Q := fun _ => SAgree 2 s) (Par2.call (fun _ _ _ h => h) (em 2)) fun hh => ?_
      exact Par2.modify fun x y h => ⟨hash 2 (by omega) _ _ _ h, fun _ => rfl⟩
  refine Par2.bind (Q := fun _ x y => SAgree 3 s x y ∧ (cfg.bufferM2 = false → x.m2Hash = y.m2Hash)) ?_ fun _ => ?_
  · unfold Server.createEncryptedChannel
    refine Par2.get fun x y h => ?_
    rw [(h.1.m1 (by omega)).1]
    cases y.m1 with
    | none => exact .ret _ _ ⟨rfl, h.1.mixed⟩
    | some m1 =>
      refine (Par2.bind (P := fun x y => SAgree 2 s x y ∧ (cfg.bufferM2 = false → x.m2Hash = y.m2Hash))
        (Q := fun _ x y => SAgree 2 s x y ∧ (cfg.bufferM2 = false → x.m2Hash = y.m2Hash)) ?_ fun key => ?_) x y h
      · unfold computeSharedKey
        split
        · exact Par2.raise fun _ _ h => h.1.mixed
        split
        · exact Par2.raise fun _ _ h => h.1.mixed
        · exact Par2.call (fun _ _ _ h => h) fun _ _ h => h.1.mixed
      refine Par2.bind (Q := fun _ x y => (SAgree 2 s x y ∧ (cfg.bufferM2 = false → x.m2Hash = y.m2Hash)) ∧ x.sessionKey = y.sessionKey)
        (Par2.modify fun x y h => ?_) fun _ => ?_
      · exact ⟨⟨{ h.1 with mixed := { h.1.mixed with sessionKey := .inl rfl }, chan := by simp, m2Hash := by simp, m4 := by simp, key := by simp }, h.2⟩, rfl⟩
      refine Par2.bind (Q := fun _ x y => (SAgree 2 s x y ∧ (cfg.bufferM2 = false → x.m2Hash = y.m2Hash)) ∧ x.sessionKey = y.sessionKey)
        (Par2.lift (fun _ _ _ _ h => h) fun _ _ h => h.1.1.mixed) fun enc => ?_
      refine Par2.modify fun x y h => ?_
      exact ⟨{ h.1.1 with mixed := { h.1.1.mixed with chan := .inl rfl }, m1 := fun _ => h.1.1.m1 (by omega), m2 := fun _ => h.1.1.m2 (by omega), chan := fun _ => ⟨h.2, rfl⟩, m2Hash := by simp, m4 := by simp, key := by simp }, h.1.2⟩
  have hset : ∀ n, 3 ≤ n → ∀ (c : AppSt) (x y : ServerSt), SAgree n s x y →
      SAgree n s { x with chan := some c } { y with chan := some c } := fun n hn c x y h =>
    { h with mixed := { h.mixed with chan := .inl rfl }, chan := fun _ => ⟨(h.chan hn).1, rfl⟩ }
  have hz : ∀ {α : Type} (n : Nat) (hn : 3 ≤ n) (m : Py env EncSt α),
      Par2 (SAgree n s) (Server.onEnc m) (fun _ => SAgree n s) (fun x y => ServerMixed s y x) :=
    fun n hn m => Par2.zoom (fun x y h => (h.chan (by omega)).2) (em n) (fun _ c x y h => hset n hn c x y h)
      fun c x y h => (hset n hn c x y h).mixed
  refine Par2.bind (Q := fun _ => SAgree 4 s) ?_ fun _ => ?_
  · unfold Server.doM3
    refine Par2.bind (Q := fun _ => SAgree 4 s) ?_ fun p => ?_
    · unfold Server.doM3Head
      cases hb : cfg.bufferM2 with
      | false =>
        refine Par2.bind (P := fun x y => SAgree 3 s x y ∧ (false = false → x.m2Hash = y.m2Hash))
          (Q := fun _ x y => SAgree 3 s x y ∧ (false = false → x.m2Hash = y.m2Hash)) (Par2.call (fun _ _ _ h => h) fun _ _ h => h.1.mixed) fun t => ?_
        exact Par2.pure fun _ _ h => { h.1 with m1 := fun _ => h.1.m1 (by omega), m2 := fun _ => h.1.m2 (by omega), chan := fun _ => h.1.chan (by omega), m2Hash := fun _ => h.2 rfl, m4 := by simp, key := by simp }
      | true =>
        refine Par2.bind (Q := fun _ => SAgree 3 s) (Par2.call (fun _ _ _ h => h.1) fun _ _ h => h.1.mixed) fun t => ?_
        refine Par2.get fun x y h => ?_
        rw [h.m2 (by omega)]
        cases y.m2 with
        | none => exact .ret _ _ ⟨rfl, h.mixed⟩
        | some m2 =>
          refine (Par2.bind (P := SAgree 3 s) (Q := fun _ => SAgree 3 s) (Par2.modify fun x y h => ?_) fun _ => ?_) x y h
          · exact { h with mixed := { h.mixed with m2 := .inl rfl }, m2 := fun _ => rfl }
          refine Par2.bind (Q := fun _ => SAgree 3 s) (Par2.call (fun _ _ _ h => h) (em 3)) fun hh => ?_
          refine Par2.bind (Q := fun _ => SAgree 4 s) (Par2.modify fun x y h => ?_) fun _ => Par2.pure fun _ _ h => h
          exact { h with mixed := { h.mixed with m2Hash := .inl rfl }, m1 := fun _ => h.m1 (by omega), m2 := fun _ => h.m2 (by omega), chan := fun _ => h.chan (by omega), m2Hash := fun _ => rfl, m4 := by simp, key := by simp }
    obtain ⟨msgs, t⟩ := p
    refine Par2.bind (Q := fun _ => SAgree 4 s) (Par2.lift (fun _ _ _ _ h => h) (em 4)) fun m3 => ?_
    refine Par2.get fun x y h => ?_
    rw [(h.m1 (by omega)).2, h.m2Hash (by omega)]
    refine (Par2.bind (P := SAgree 4 s) (Q := fun _ => SAgree 4 s) (Par2.call (fun _ _ _ h => h) (em 4)) fun sm => ?_) x y h
    refine Par2.bind (Q := fun _ => SAgree 4 s) (Par2.lift (fun _ _ _ _ h => h) (em 4)) fun m3 => ?_
    refine Par2.bind (Q := fun _ => SAgree 4 s) (hz 4 (by omega) _) fun w => ?_
    exact Par2.call (fun _ _ _ h => h) (em 4)
  refine Par2.bind (Q := fun _ => SAgree 6 s) ?_ fun _ => ?_
  · unfold Server.doM4
    refine Par2.bind (Q := fun _ => SAgree 4 s) (hz 4 (by omega) _) fun chunk => ?_
    refine Par2.bind (Q := fun _ => SAgree 4 s) (Par2.lift (fun _ _ _ _ h => h) (em 4)) fun m4 => ?_
    refine Par2.bind (Q := fun _ => SAgree 5 s) (Par2.modify fun x y h => ?_) fun _ => ?_
    · exact { h with mixed := { h.mixed with m4 := .inl rfl }, m1 := fun _ => h.m1 (by omega), m2 := fun _ => h.m2 (by omega), chan := fun _ => h.chan (by omega), m2Hash := fun _ => h.m2Hash (by omega), m4 := fun _ => rfl, key := by simp }
    refine Par2.bind (Q := fun _ => SAgree 5 s) (Par2.call (fun _ _ _ h => h) (em 5)) fun _ => ?_
    refine Par2.modify fun x y h => ?_
    exact { h with mixed := { h.mixed with clientSigKey := .inl rfl }, m1 := fun _ => h.m1 (by omega), m2 := fun _ => h.m2 (by omega), chan := fun _ => h.chan (by omega), m2Hash := fun _ => h.m2Hash (by omega), m4 := fun _ => h.m4 (by omega), key := fun _ => rfl }
  have all : ∀ x y, SAgree 6 s x y → ServerOkAgain s x y := by
    intro x y h
    have h1 := h.m1 (by omega)
    have h2 := h.m2 (by omega)
    have h3 := h.chan (by omega)
    have h4 := h.m2Hash (by omega)
    have h5 := h.m4 (by omega)
    have h6 := h.key (by omega)
    refine .inr ⟨h.done.2, ?_⟩
    have hd := h.done.1
    cases x
    cases y
    simp_all
  unfold Server.validateSignature2
  refine Par2.get fun x y h => ?_
  rw [(h.m1 (by omega)).2, h.m2Hash (by omega), h.m4 (by omega)]
  cases y.m4 with
  | none => exact .ret _ _ ⟨rfl, h.mixed⟩
  | some m4 =>
    refine Par2.onError (P := SAgree 6 s) (Q := fun _ => ServerOkAgain s) (E' := SAgree 6 s) ?_ (fun e => ?_) x y h
    · exact Par2.bind (Q := fun _ => SAgree 6 s) (Par2.call (fun _ _ _ h => h) fun _ _ h => h) fun _ =>
        Par2.pure all
    · split <;> exact Par2.raise (em 6)

/-! ### A wrong signature, and an A1 after it -/

/-- Had the last answer of a server handshake been that the signature is bad, then the handshake had raised `BadPeer`, and
left the same attributes. -/
theorem server_forged {cfg : ServerCfg} {s s' : ServerSt} {tr : List (Ev env)} {sm pk x : Bytes}
    (h : Call (Server.handshake cfg) s (tr ++ [⟨.signOpen sm pk, .ok x⟩]) (.ok ()) s') :
    Call (Server.handshake cfg) s (tr ++ [⟨.signOpen sm pk, .error .badSignature⟩]) (.error .badPeer) s' := by
  unfold Call Server.handshake at h ⊢
  rw [Exec_py_bind_ok] at h
  obtain ⟨t0, kp, s0, u0, e0, h0, h⟩ := h
  rw [Exec_py_bind_ok] at h
  obtain ⟨t1, o, s1, u1, e1, h1, h⟩ := h
  cases o with
  | some chunk =>
    exfalso
    simp only [] at h
    rw [Exec_py_bind_ok] at h
    obtain ⟨t2, _, s2, u2, e2, h2, h⟩ := h
    obtain ⟨a1, ha, rfl, rfl⟩ := s_doA2_ok h2
    simp only [Py.modifySt_run, Exec_ret, Prod.mk.injEq] at h
    obtain ⟨rfl, -, -⟩ := h
    subst e2 e1
    rw [List.append_nil, ← List.append_assoc] at e0
    have := (List.append_inj' e0 rfl).2
    simp at this
  | none =>
    simp only [] at h
    rw [Exec_py_bind_ok] at h
    obtain ⟨t2, k2, s2, u2, e2, h2, h⟩ := h
    rw [Exec_py_bind_ok] at h
    obtain ⟨t3, k3, s3, u3, e3, h3, h⟩ := h
    rw [Exec_py_bind_ok] at h
    obtain ⟨t4, k4, s4, u4, e4, h4, h⟩ := h
    rw [Exec_py_bind_ok] at h
    obtain ⟨t5, k5, s5, u5, e5, h5, h⟩ := h
    rw [Exec_py_bind_ok] at h
    obtain ⟨t6, k6, s6, u6, e6, h6, h⟩ := h
    have hv : ∃ y, u6 = [⟨.signOpen sm pk, .ok y⟩] ∧ s6 = s' ∧
        Exec (Server.validateSignature2 s6) [⟨.signOpen sm pk, .error .badSignature⟩] (.error .badPeer, s') := by
      simp only [Server.validateSignature2, Py.bind_run, Py.getSt_run, IT.ret_bind] at h ⊢
      cases hm : s6.m4 with
      | none => simp [hm] at h
      | some m4 =>
        simp only [hm, Py.onError, Py.bind_run, Py.env, Py.call_run, IT.op_bind, IT.ret_bind, Exec_op] at h ⊢
        obtain ⟨r, v, rfl, h⟩ := h
        cases r with
        | error e =>
          exfalso
          simp only [IT.ret_bind] at h
          split at h <;> simp at h
        | ok y =>
          simp only [IT.ret_bind, Py.pure_run, Exec_ret, Prod.mk.injEq] at h
          obtain ⟨rfl, -, rfl⟩ := h
          subst e6 e5 e4 e3 e2 e1
          simp only [← List.append_assoc] at e0
          have he := (List.append_inj' e0 rfl).2
          simp only [List.cons.injEq, Ev.mk.injEq, and_true, EnvOp.signOpen.injEq] at he
          obtain ⟨⟨rfl, rfl⟩, -⟩ := he
          exact ⟨y, rfl, rfl, .error .badSignature, [], rfl, by simp⟩
    obtain ⟨y, rfl, rfl, hv⟩ := hv
    have e7 : tr = t0 ++ (t1 ++ (t2 ++ (t3 ++ (t4 ++ (t5 ++ t6))))) := by
      subst e6 e5 e4 e3 e2 e1
      simp only [← List.append_assoc] at e0 ⊢
      exact (List.append_inj' e0 rfl).1
    subst e7
    rw [Exec_py_bind_err]
    refine .inr ⟨t0, kp, s0, t1 ++ (t2 ++ (t3 ++ (t4 ++ (t5 ++ (t6 ++ [⟨.signOpen sm pk, .error .badSignature⟩]))))),
      by simp only [List.append_assoc], h0, ?_⟩
    rw [Exec_py_bind_err]
    refine .inr ⟨t1, none, s1, _, rfl, h1, ?_⟩
    simp only []
    rw [Exec_py_bind_err]
    refine .inr ⟨t2, k2, s2, _, rfl, h2, ?_⟩
    rw [Exec_py_bind_err]
    refine .inr ⟨t3, k3, s3, _, rfl, h3, ?_⟩
    rw [Exec_py_bind_err]
    refine .inr ⟨t4, k4, s4, _, rfl, h4, ?_⟩
    rw [Exec_py_bind_err]
    refine .inr ⟨t5, k5, s5, _, rfl, h5, ?_⟩
    rw [Exec_py_bind_err]
    exact .inr ⟨t6, k6, s6, _, rfl, h6, hv⟩

/-- A server whose key pair is set answers an A1. -/
theorem server_a1 {cfg : ServerCfg} {kp : KeyPair} {raw : Bytes} {e : Err} {a : Packet} (hk : cfg.encKp = some kp)
    (hm : M1.ctor raw = .error e) (ha : A1.ctor raw = .ok a) (s : ServerSt) :
    Call (Server.handshake cfg) s (serverA1 cfg raw) (.ok ()) { s with m1 := none, isDone := true } := by
  unfold Call Server.handshake
  rw [Exec_py_bind_ok]
  refine ⟨[], kp, s, serverA1 cfg raw, rfl, by simp [Server.validate, hk], ?_⟩
  rw [Exec_py_bind_ok]
  refine ⟨[⟨.read, .ok raw⟩], some raw, { s with m1 := none }, _, rfl, ?_, ?_⟩
  · rw [s_doM1_run]
    refine .op _ _ _ _ _ ?_
    simp only [hm]
    exact .ret _
  · simp only []
    rw [Exec_py_bind_ok]
    refine ⟨_, (), { s with m1 := none }, [], (List.append_nil _).symm, ?_, by simp⟩
    rw [s_doA2_run]
    simp only [ha]
    exact .op _ _ _ _ _ (.ret _)

end Salt
