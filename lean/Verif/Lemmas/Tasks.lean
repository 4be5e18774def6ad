import Verif.Spec.TaskNet
import Verif.Lemmas.NetSim

/-!
# Tasks sharing an application channel
-/

set_option linter.unusedSimpArgs false

namespace Salt

open Spec

namespace Co

variable {σ τ α β γ : Type}

/-! ### Alone, a coroutine is what the model of the channels says -/

theorem alone_bind (t : IT (sh σ) α) (f : α → IT (sh σ) β) (s : σ) :
    alone (t.bind f) s = (alone t s).bind fun p => alone (f p.1) p.2 := by
  induction t generalizing s with
  | ret a => rfl
  | op e k ih =>
    cases e with
    | get => exact ih _ _
    | put s' => exact ih _ _
    | env e => simp only [IT.op_bind, alone]; congr; funext r; exact ih r s

/-- The coroutine `m` does what the method `p` does. -/
def Means (m : Co σ α) (p : Py Salt.env σ α) : Prop := ∀ s, alone m s = p s

theorem Means.bind {m : Co σ α} {p : Py Salt.env σ α} {f : α → Co σ β} {g : α → Py Salt.env σ β} (h : Means m p)
    (h' : ∀ a, Means (f a) (g a)) : Means (m >>= f) (p >>= g) := by
  intro s
  refine (alone_bind (σ := σ) m _ s).trans ?_
  rw [h s, Py.bind_run]
  congr 1
  funext ⟨r, s'⟩
  cases r with
  | ok a => exact h' a s'
  | error e => rfl

theorem Means.pure (a : α) : Means (pure a : Co σ α) (Pure.pure a) := fun _ => rfl
theorem Means.raise (e : Err) : Means (raise e : Co σ α) (Py.raise e) := fun _ => rfl
theorem Means.lift (x : Except Err α) : Means (lift x : Co σ α) (Py.lift x) := fun _ => rfl
theorem Means.getSt : Means (getSt : Co σ σ) Py.getSt := fun _ => rfl
theorem Means.modifySt (f : σ → σ) : Means (modifySt f) (Py.modifySt f) := fun _ => rfl
theorem Means.env (e : EnvOp) : Means (env e : Co σ e.Resp) (Py.env e) := fun _ => rfl

theorem Means.onError {m : Co σ α} {p : Py Salt.env σ α} {f : Err → Co σ α} {g : Err → Py Salt.env σ α} (h : Means m p)
    (h' : ∀ a, Means (f a) (g a)) : Means (onError m f) (Py.onError p g) := by
  intro s
  refine (alone_bind (σ := σ) m _ s).trans ?_
  rw [h s]
  show _ = (p s).bind _
  congr 1
  funext ⟨r, s'⟩
  cases r with
  | ok a => rfl
  | error e => exact h' e s'

theorem Means.ite {c : Prop} [Decidable c] {m m' : Co σ α} {p p' : Py Salt.env σ α} (h : Means m p) (h' : Means m' p') :
    Means (if c then m else m') (if c then p else p') := by
  split <;> assumption

theorem alone_zoom (get : σ → τ) (set : τ → σ → σ) (hgs : ∀ t s, get (set t s) = t)
    (hss : ∀ t t' s, set t (set t' s) = set t s) (hsg : ∀ s, set (get s) s = s) (t : IT (sh τ) β) (s : σ) :
    alone (zoom get set t) s = (alone t (get s)).bind fun p => .ret (p.1, set p.2 s) := by
  induction t generalizing s with
  | ret b => simp only [zoom, alone, IT.ret_bind, hsg]
  | op e k ih =>
    cases e with
    | get => exact ih _ s
    | put t' =>
      simp only [zoom, alone]
      rw [ih, hgs]
      simp only [hss]
    | env e => simp only [zoom, alone, IT.op_bind]; congr; funext r; exact ih r s

theorem Means.onEnc {m : Co EncSt α} {p : Py Salt.env EncSt α} (h : Means m p) : Means (onEnc m) (App.onEnc p) := by
  intro s
  refine (alone_zoom AppSt.enc (fun e s => { s with enc := e }) (fun _ _ => rfl) (fun _ _ _ => rfl) (fun _ => rfl) m s).trans ?_
  rw [h]
  rfl

theorem encrypt_means (m : Bytes) : Means (encrypt m) (Enc.encrypt m) :=
  Means.getSt.bind fun _ => (Means.lift _).bind fun _ => Means.env _

theorem decrypt_means (m : Bytes) : Means (decrypt m) (Enc.decrypt m) := by
  refine Means.onError (Means.getSt.bind fun _ => (Means.lift _).bind fun _ => Means.env _) fun _ => ?_
  exact (Means.raise _).ite (Means.raise _)

theorem unwrap_means (m : Bytes) : Means (unwrap m) (Enc.unwrap m) :=
  (Means.lift _).bind fun _ => (Means.modifySt _).bind fun _ => Means.lift _

theorem fetch_means : Means fetch Enc.fetch :=
  Means.getSt.bind fun _ => ((Means.modifySt _).bind fun _ => Means.pure _).ite (Means.env _)

theorem encRead_means : Means encRead Enc.read :=
  fetch_means.bind fun _ => (unwrap_means _).bind fun _ => (decrypt_means _).bind fun _ => (Means.modifySt _).bind
    fun _ => Means.pure _

theorem encryptAll_means (l : Bool) (ms : List Bytes) : Means (encryptAll l ms) (Enc.encryptAll l ms) := by
  induction ms with
  | nil => exact Means.pure _
  | cons m ms ih =>
    exact (encrypt_means m).bind fun _ => (Means.modifySt _).bind fun _ => ih.bind fun _ => Means.pure _

theorem encWrite_means (ms : List Bytes) (l : Bool) : Means (encWrite ms l) (Enc.write ms l) :=
  (encryptAll_means l ms).bind fun _ => Means.env _

theorem read_means : Means read App.read := by
  refine Means.getSt.bind fun s => ?_
  cases s.readQ with
  | cons m q => exact (Means.modifySt _).bind fun _ => Means.pure _
  | nil =>
    refine encRead_means.onEnc.bind fun raw => (Means.lift _).bind fun ap => Means.ite ?_ ?_
    · exact (Means.lift _).bind fun _ => (Means.env _).bind fun _ => Means.lift _
    · refine (Means.lift _).bind fun mp => (Means.env _).bind fun _ => (Means.modifySt _).bind fun _ => ?_
      cases mp.opt.getD [] with
      | nil => exact Means.raise _
      | cons m _ => exact Means.pure _

theorem write_means (ms : List Bytes) (l : Bool) : Means (write ms l) (App.write ms l) := by
  refine (Means.env _).bind fun t => Means.getSt.bind fun s => ?_
  cases s.bufferedM4 with
  | some m4 => exact (Means.modifySt _).bind fun _ => (encWrite_means _ _).onEnc
  | none => exact (encWrite_means _ _).onEnc

theorem handle_means (e : AppOp) : Means (handle e) (App.handle e) := by
  cases e with
  | read => exact read_means
  | write ms l => exact write_means ms l

/-- A task that has the channel for itself is a program on the channel. -/
theorem task_alone (p : IT appSig β) (s : AppSt) : alone (task p) s = App.run p s := by
  induction p generalizing s with
  | ret b => rfl
  | op e k ih =>
    refine (alone_bind (handle e) _ s).trans ?_
    rw [handle_means e s]
    unfold App.run
    congr 1
    funext ⟨r, s'⟩
    exact ih r s'

/-! ### Blocks -/

theorem block_local {L : Lib} {c : Clock} {i j : Nat} {tr : List (Ev Salt.env)} {t : IT (sh σ) α} {s s' : σ} {b : α}
    (f : α → IT (sh σ) β) (hx : Exec (alone t s) tr (b, s')) (hl : Local L c i tr j) (hc : callsOf tr = []) :
    block L c (t.bind f) s i = block L c (f b) s' j := by
  induction t generalizing s i tr with
  | ret a =>
    simp only [alone, Exec_ret, Prod.mk.injEq] at hx
    obtain ⟨rfl, rfl, rfl⟩ := hx
    cases hl
    rfl
  | op e k ih =>
    cases e with
    | get => exact ih _ hx hl hc
    | put s1 => exact ih _ hx hl hc
    | env e =>
      simp only [alone, Exec_op] at hx
      obtain ⟨r, tr', rfl, hx⟩ := hx
      cases e with
      | read => cases hc
      | write => cases hc
      | firstTime => cases hl with
        | firstTime hl => exact ih _ hx hl hc
        | crypto _ h1 => cases h1
      | time => cases hl with
        | time hl => exact ih _ hx hl hc
        | crypto _ h1 => cases h1
      | report => cases hl with
        | report _ hl => exact ih _ hx hl hc
        | crypto _ h1 => cases h1
      | check => cases hl with
        | check _ hl => exact ih _ hx hl hc
        | crypto _ h1 => cases h1
      | sign => cases hl with | crypto _ h1 h2 hl => cases h2; exact ih _ hx hl hc
      | signOpen => cases hl with | crypto _ h1 h2 hl => cases h2; exact ih _ hx hl hc
      | hash => cases hl with | crypto _ h1 h2 hl => cases h2; exact ih _ hx hl hc
      | beforenm => cases hl with | crypto _ h1 h2 hl => cases h2; exact ih _ hx hl hc
      | box => cases hl with | crypto _ h1 h2 hl => cases h2; exact ih _ hx hl hc
      | boxOpen => cases hl with | crypto _ h1 h2 hl => cases h2; exact ih _ hx hl hc

/-- The coroutine neither reads nor writes messages. -/
def Quiet : IT (sh σ) α → Prop
  | .ret _ => True
  | .op (.env .read) _ => False
  | .op (.env (.write _ _)) _ => False
  | .op _ k => ∀ r, Quiet (k r)

/-- When the coroutine writes, it ends. -/
def WriteLast : IT (sh σ) (Except Err Unit) → Prop
  | .ret _ => True
  | .op (.env .read) _ => False
  | .op (.env (.write _ _)) k => ∀ r, k r = .ret r
  | .op _ k => ∀ r, WriteLast (k r)

theorem Quiet.bind {t : IT (sh σ) α} {f : α → IT (sh σ) β} (h : Quiet t) (h' : ∀ a, Quiet (f a)) : Quiet (t.bind f) := by
  induction t with
  | ret a => exact h' a
  | op e k ih =>
    rcases e with _ | _ | e
    · exact fun r => ih r (h r)
    · exact fun r => ih r (h r)
    · cases e <;> first | exact absurd h id | exact fun r => ih r (h r)

theorem WriteLast.bind {t : IT (sh σ) α} {f : α → IT (sh σ) (Except Err Unit)} (h : Quiet t) (h' : ∀ a, WriteLast (f a)) :
    WriteLast (t.bind f) := by
  induction t with
  | ret a => exact h' a
  | op e k ih =>
    rcases e with _ | _ | e
    · exact fun r => ih r (h r)
    · exact fun r => ih r (h r)
    · cases e <;> first | exact absurd h id | exact fun r => ih r (h r)

theorem WriteLast.zoom (get : σ → τ) (set : τ → σ → σ) {t : IT (sh τ) (Except Err Unit)} (h : WriteLast t) :
    WriteLast (zoom get set t) := by
  induction t with
  | ret a => trivial
  | op e k ih =>
    rcases e with _ | _ | e
    · exact fun r => ih _ (h _)
    · unfold Co.zoom
      intro r
      cases r with
      | ok s => exact fun r => ih _ (h _)
      | error e => exact ih _ (h _)
    · cases e with
      | read => exact absurd h id
      | write ms l =>
        intro r
        show Co.zoom get set (k r) = _
        rw [h r]; rfl
      | _ => exact fun r => ih _ (h _)

theorem Quiet.co {t : Co σ α} {f : α → Co σ β} (h : Quiet (σ := σ) (α := Except Err α) t)
    (h' : ∀ a, Quiet (σ := σ) (α := Except Err β) (f a)) :
    Quiet (σ := σ) (α := Except Err β) (t >>= f : Co σ β) := by
  refine Quiet.bind (σ := σ) (t := t) (β := Except Err β) h fun a => ?_
  cases a with
  | ok a => exact h' a
  | error e => trivial

theorem WriteLast.co {t : Co σ α} {f : α → Co σ Unit} (h : Quiet (σ := σ) (α := Except Err α) t)
    (h' : ∀ a, WriteLast (σ := σ) (f a)) : WriteLast (σ := σ) (t >>= f : Co σ Unit) := by
  refine WriteLast.bind (σ := σ) (t := t) h fun a => ?_
  cases a with
  | ok a => exact h' a
  | error e => trivial

theorem modifySt_quiet (f : σ → σ) : Quiet (σ := σ) (α := Except Err Unit) (modifySt f) := by
  intro r
  cases r with
  | ok s => exact fun _ => trivial
  | error e => trivial

theorem encryptAll_quiet (l : Bool) (ms : List Bytes) : Quiet (σ := EncSt) (α := Except Err (List Bytes)) (encryptAll l ms) := by
  induction ms with
  | nil => trivial
  | cons m ms ih =>
    refine Quiet.co ?_ fun _ => Quiet.co (modifySt_quiet _) fun _ => Quiet.co ih fun _ => trivial
    exact Quiet.co (t := getSt) (fun _ => trivial) fun _ => Quiet.co (t := lift _) trivial fun _ _ => trivial

theorem encWrite_last (ms : List Bytes) (l : Bool) : WriteLast (σ := EncSt) (encWrite ms l) :=
  WriteLast.co (encryptAll_quiet l ms) fun _ _ => rfl

theorem write_last (ms : List Bytes) (l : Bool) : WriteLast (σ := AppSt) (write ms l) := by
  refine WriteLast.co (t := env .time) (fun _ => trivial) fun t => WriteLast.co (t := getSt) (fun _ => trivial) fun s => ?_
  cases s.bufferedM4 with
  | some m4 => exact WriteLast.co (modifySt_quiet _) fun _ => WriteLast.zoom _ _ (encWrite_last _ _)
  | none => exact WriteLast.zoom _ _ (encWrite_last _ _)

theorem block_write {L : Lib} {c : Clock} {i j : Nat} {tr : List (Ev Salt.env)} {t : IT (sh σ) (Except Err Unit)}
    {s s' : σ} {b : Except Err Unit} {ps : List Bytes} {l : Bool} (f : Except Err Unit → IT (sh σ) β)
    (hx : Exec (alone t s) tr (b, s')) (hl : Local L c i tr j)
    (hc : callsOf tr = [⟨AppOp.write ps l, .ok ()⟩]) (hw : WriteLast t) :
    block L c (t.bind f) s i = (f b, s', j, ps) := by
  induction t generalizing s i tr with
  | ret a =>
    simp only [alone, Exec_ret, Prod.mk.injEq] at hx
    obtain ⟨rfl, rfl, rfl⟩ := hx
    cases hc
  | op e k ih =>
    cases e with
    | get => exact ih _ hx hl hc (hw _)
    | put s1 => exact ih _ hx hl hc (hw _)
    | env e =>
      simp only [alone, Exec_op] at hx
      obtain ⟨r, tr', rfl, hx⟩ := hx
      cases e with
      | read => cases hc
      | write ms l' =>
        rw [hw r] at hx
        simp only [alone, Exec_ret, Prod.mk.injEq] at hx
        obtain ⟨rfl, rfl, rfl⟩ := hx
        cases hc
        cases hl with
        | write _ _ _ hl =>
          cases hl
          show (IT.bind (k (.ok ())) f, _) = _
          rw [hw]
          rfl
        | crypto _ h1 => cases h1
      | firstTime => cases hl with
        | firstTime hl => exact ih _ hx hl hc (hw _)
        | crypto _ h1 => cases h1
      | time => cases hl with
        | time hl => exact ih _ hx hl hc (hw _)
        | crypto _ h1 => cases h1
      | report => cases hl with
        | report _ hl => exact ih _ hx hl hc (hw _)
        | crypto _ h1 => cases h1
      | check => cases hl with
        | check _ hl => exact ih _ hx hl hc (hw _)
        | crypto _ h1 => cases h1
      | sign => cases hl with | crypto _ h1 h2 hl => cases h2; exact ih _ hx hl hc (hw _)
      | signOpen => cases hl with | crypto _ h1 h2 hl => cases h2; exact ih _ hx hl hc (hw _)
      | hash => cases hl with | crypto _ h1 h2 hl => cases h2; exact ih _ hx hl hc (hw _)
      | beforenm => cases hl with | crypto _ h1 h2 hl => cases h2; exact ih _ hx hl hc (hw _)
      | box => cases hl with | crypto _ h1 h2 hl => cases h2; exact ih _ hx hl hc (hw _)
      | boxOpen => cases hl with | crypto _ h1 h2 hl => cases h2; exact ih _ hx hl hc (hw _)

/-- What is left of `read` when the channel below has answered. -/
def readRest (r : Except Err Bytes) : Co AppSt Bytes := onEnc (lift r >>= opened) >>= parsed

theorem block_read {L : Lib} {c : Clock} {i : Nat} {s : AppSt} (f : Except Err Bytes → IT (sh AppSt) β)
    (hq : s.readQ = []) (hp : s.enc.pushback = []) :
    block L c (IT.bind read f) s i = (.op (S := sh AppSt) (.env .read) fun r => IT.bind (readRest r) f, s, i, []) := by
  obtain ⟨⟨key, sn, rn, wn, pb, lf⟩, m4, q⟩ := s
  simp only at hq hp
  subst hq hp
  rfl

theorem read_waits {s : AppSt} (hq : s.readQ = []) (hp : s.enc.pushback = []) :
    App.read s = .op (S := Salt.env) .read fun r => alone (readRest r) s := by
  rw [← read_means s]
  obtain ⟨⟨key, sn, rn, wn, pb, lf⟩, m4, q⟩ := s
  simp only at hq hp
  subst hq hp
  rfl

end Co

end Salt
