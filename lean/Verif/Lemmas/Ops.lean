import Verif.Lemmas.SessionCut

/-!
# Which operations a method performs
-/

namespace Salt

/-- Whatever happens, `m` only performs operations satisfying `P`. -/
def OpsIn {S : Sig} {σ α : Type} (P : S.Op → Prop) (m : Py S σ α) : Prop :=
  ∀ s, wp (m s) fun tr _ => ∀ ev ∈ tr, P ev.op

namespace OpsIn

variable {S : Sig} {σ υ α β : Type} {P : S.Op → Prop}

theorem bind {m : Py S σ α} {g : α → Py S σ β} (h1 : OpsIn P m) (h2 : ∀ a, OpsIn P (g a)) :
    OpsIn P (m >>= g) := by
  intro s
  rw [Py.bind_run, wp_bind]
  refine wp_mono _ (h1 s) ?_
  rintro tr ⟨r, s'⟩ h
  cases r with
  | error e => simpa using h
  | ok a =>
    refine wp_mono _ (h2 a s') fun tr' _ h' => ?_
    intro ev he
    rcases List.mem_append.1 he with he | he
    · exact h ev he
    · exact h' ev he

theorem ret (a : α) : OpsIn P (pure a : Py S σ α) := fun s => by simp
theorem raise (e : Err) : OpsIn P (Py.raise e : Py S σ α) := fun s => by simp
theorem lift (x : Except Err α) : OpsIn P (Py.lift x : Py S σ α) := fun s => by simp
theorem getSt : OpsIn P (Py.getSt : Py S σ σ) := fun s => by simp
theorem modifySt (g : σ → σ) : OpsIn P (Py.modifySt g : Py S σ Unit) := fun s => by simp
theorem call (e : S.Op) (h : P e) : OpsIn P (Py.call e : Py S σ (S.Resp e)) := fun s => by
  simpa using fun _ => h

theorem zoom (get : σ → Option υ) (set : υ → σ → σ) (m : Py S υ α) (h : OpsIn P m) :
    OpsIn P (Py.zoom get set m) := by
  intro s
  rw [Py.zoom_run]
  cases get s with
  | none => simp
  | some t =>
    simp only [wp_bind, wp_ret, List.append_nil]
    exact h t

theorem onError {m : Py S σ α} {g : Err → Py S σ α} (h1 : OpsIn P m) (h2 : ∀ a, OpsIn P (g a)) :
    OpsIn P (Py.onError m g) := by
  intro s
  unfold Py.onError
  rw [wp_bind]
  refine wp_mono _ (h1 s) ?_
  rintro tr ⟨r, s'⟩ h
  cases r with
  | ok a => simpa using h
  | error e =>
    refine wp_mono _ (h2 e s') fun tr' _ h' => ?_
    intro ev he
    rcases List.mem_append.1 he with he | he
    · exact h ev he
    · exact h' ev he

theorem ofEnv {P : EnvOp → Prop} (e : EnvOp) (h : P e) :
    OpsIn (S := Salt.env) P (Py.env e : Py Salt.env σ e.Resp) := call (S := Salt.env) e h

theorem onEnc {P : EnvOp → Prop} {m : Py env EncSt α} (h : OpsIn (S := env) P m) :
    OpsIn (S := env) P (App.onEnc m) := by
  intro s
  unfold App.onEnc
  simp only [wp_bind, wp_ret, List.append_nil]
  exact h s.enc

end OpsIn

/-- Closes goals `OpsIn P m` by following the structure of `m`; `h` proves `P` of the operations. -/
macro "opsin " h:term : tactic => `(tactic| repeat' (first
  | with_reducible exact OpsIn.ret _ | with_reducible exact OpsIn.raise _
  | with_reducible exact OpsIn.lift _ | with_reducible exact OpsIn.getSt
  | (refine OpsIn.ofEnv _ ?_; exact $h) | with_reducible exact OpsIn.modifySt _
  | with_reducible refine OpsIn.zoom _ _ _ ?_
  | with_reducible refine OpsIn.onEnc ?_
  | with_reducible refine OpsIn.bind ?_ (fun _ => ?_)
  | with_reducible refine OpsIn.onError ?_ (fun _ => ?_)
  | split
  | (dsimp only; split)))

/-- Not a write. -/
def EnvOp.noWrite : EnvOp → Prop
  | .write _ _ => False
  | _ => True

theorem c_doM2_noWrite : OpsIn (S := env) EnvOp.noWrite Client.doM2 := by
  unfold Client.doM2; opsin trivial

theorem Enc_read_noWrite : OpsIn (S := env) EnvOp.noWrite Enc.read := by
  unfold Enc.read Enc.fetch Enc.unwrap Enc.decrypt; opsin trivial

theorem c_create_noWrite (kp : KeyPair) : OpsIn (S := env) EnvOp.noWrite (Client.createEncryptedChannel kp) := by
  unfold Client.createEncryptedChannel computeSharedKey; opsin trivial

theorem c_doM3_noWrite : OpsIn (S := env) EnvOp.noWrite Client.doM3 := by
  unfold Client.doM3 Client.onEnc; opsin trivial
  exact Enc_read_noWrite

theorem c_validate_noWrite : OpsIn (S := env) EnvOp.noWrite Client.validateSignature1 := by
  unfold Client.validateSignature1; opsin trivial

theorem Enc_encryptAll_noWrite (l : Bool) (ms : List Bytes) :
    OpsIn (S := env) EnvOp.noWrite (Enc.encryptAll l ms) := by
  induction ms with
  | nil => unfold Enc.encryptAll; opsin trivial
  | cons m ms ih =>
    unfold Enc.encryptAll Enc.encrypt; opsin trivial
    exact ih

/-! ### Methods that have written nothing when they raise -/

/-- If `m` raises, it has written nothing. -/
def QuietFail {σ α : Type} (m : Py env σ α) : Prop :=
  ∀ (s : σ) (tr : List (Ev env)) (e : Err) (s' : σ), Exec (m s) tr (.error e, s') →
    ∀ ms l, ⟨.write ms l, .ok ()⟩ ∉ tr

namespace QuietFail

variable {σ υ α β : Type}

theorem of_noWrite {m : Py env σ α} (h : OpsIn (S := env) EnvOp.noWrite m) : QuietFail m :=
  fun s _ _ _ hx _ _ hw => h s _ _ hx _ hw

theorem bind {m : Py env σ α} {f : α → Py env σ β} (hm : OpsIn (S := env) EnvOp.noWrite m)
    (hf : ∀ a, QuietFail (f a)) : QuietFail (m >>= f) := by
  intro s tr e s' h ms l hw
  rw [Exec_py_bind_err] at h
  rcases h with h | ⟨tr0, a, s0, tr, rfl, h0, h⟩
  · exact hm s _ _ h _ hw
  · rcases List.mem_append.1 hw with hw | hw
    · exact hm s _ _ h0 _ hw
    · exact hf a _ _ _ _ h _ _ hw

theorem write (ms : List Bytes) (l : Bool) : QuietFail (Py.env (.write ms l) : Py env σ Unit) := by
  intro s tr e s' h ms' l' hw
  simp only [Py.call_run] at h
  rw [Exec_op] at h
  obtain ⟨r, tr, rfl, h⟩ := h
  simp only [Exec_ret, Prod.mk.injEq] at h
  obtain ⟨rfl, rfl, -⟩ := h
  simp at hw

theorem zoom (get : σ → Option υ) (set : υ → σ → σ) {m : Py env υ α} (h : QuietFail m) :
    QuietFail (Py.zoom get set m) := by
  intro s tr e s' hx ms l hw
  rw [Py.zoom_run] at hx
  cases hg : get s with
  | none => rw [hg] at hx; simp at hx; simp [hx.1] at hw
  | some t =>
    rw [hg] at hx
    simp only [Exec_bind, Exec_ret, Prod.mk.injEq] at hx
    obtain ⟨tr1, ⟨r, t'⟩, tr2, rfl, h1, rfl, rfl, -⟩ := hx
    rw [List.append_nil] at hw
    exact h _ _ _ _ h1 _ _ hw

theorem onEnc {m : Py env EncSt α} (h : QuietFail m) : QuietFail (App.onEnc m) := by
  intro s tr e s' hx ms l hw
  unfold App.onEnc at hx
  simp only [Exec_bind, Exec_ret, Prod.mk.injEq] at hx
  obtain ⟨tr1, ⟨r, t'⟩, tr2, rfl, h1, rfl, rfl, -⟩ := hx
  rw [List.append_nil] at hw
  exact h _ _ _ _ h1 _ _ hw

end QuietFail

theorem Enc_write_quietFail (ms : List Bytes) (l : Bool) : QuietFail (Enc.write ms l) :=
  .bind (Enc_encryptAll_noWrite l ms) fun _ => .write _ _

theorem c_doM1_quietFail (kp : KeyPair) : QuietFail (Client.doM1 kp) := by
  unfold Client.doM1
  refine .bind (by opsin trivial) fun _ => .bind (by opsin trivial) fun _ => .bind (by opsin trivial) fun _ =>
    .bind (by opsin trivial) fun _ => .bind (by opsin trivial) fun _ => .write _ _

theorem c_doM4_quietFail (cfg : ClientCfg) : QuietFail (Client.doM4 cfg) := by
  unfold Client.doM4
  refine .bind (by opsin trivial) fun _ => .bind (by opsin trivial) fun _ => .bind (by opsin trivial) fun _ =>
    .bind (by opsin trivial) fun _ => .bind (by opsin trivial) fun _ => .bind (by opsin trivial) fun _ => ?_
  split
  · exact .of_noWrite (by opsin trivial)
  · exact .zoom _ _ (.onEnc (Enc_write_quietFail _ _))

theorem c_rest_quietFail (cfg : ClientCfg) (kp : KeyPair) : QuietFail (do
    let success ← Client.doM2
    if ¬ success then return ()
    else do
      Client.createEncryptedChannel kp
      Client.doM3
      Client.validateSignature1
      Client.doM4 cfg) := by
  refine .bind c_doM2_noWrite fun _ => ?_
  split
  · exact .of_noWrite (by opsin trivial)
  · exact .bind (c_create_noWrite kp) fun _ => .bind c_doM3_noWrite fun _ =>
      .bind c_validate_noWrite fun _ => c_doM4_quietFail cfg

theorem Cut.split {S : Sig} {f tr1 tr2 : List (Ev S)} {ev : Ev S} (h : Cut f (tr1 ++ ev :: tr2)) :
    ∃ r g, f = tr1 ++ ⟨ev.op, r⟩ :: g := by
  generalize ht : tr1 ++ ev :: tr2 = t at h
  induction h generalizing tr1 with
  | stop _ => simp at ht
  | raised op r e full =>
    cases tr1 with
    | nil =>
      obtain ⟨rfl, -⟩ : ev = _ ∧ _ := by simpa using ht
      exact ⟨r, full, rfl⟩
    | cons a tr1 => simp at ht
  | next ev0 h ih =>
    cases tr1 with
    | nil =>
      obtain ⟨rfl, -⟩ : ev = _ ∧ _ := by simpa using ht
      exact ⟨ev.res, _, rfl⟩
    | cons a tr1 =>
      obtain ⟨rfl, h2⟩ : a = _ ∧ _ := by simpa using ht
      obtain ⟨r, g, rfl⟩ := ih h2
      exact ⟨r, g, rfl⟩

/-- Nothing follows an operation that raised, if the script only has operations that succeed. -/
theorem Cut.after_error {S : Sig} {f tr1 tr2 : List (Ev S)} {op : S.Op} {e : Err}
    (h : Cut f (tr1 ++ ⟨op, .error e⟩ :: tr2)) (hf : ∀ ev ∈ f, ∃ x, ev.res = .ok x) : tr2 = [] := by
  generalize ht : tr1 ++ (⟨op, .error e⟩ : Ev S) :: tr2 = t at h
  induction h generalizing tr1 with
  | stop _ => simp at ht
  | raised op r e full =>
    cases tr1 with
    | nil => simp only [List.nil_append, List.cons.injEq] at ht; exact ht.2
    | cons a tr1 => simp at ht
  | next ev0 h ih =>
    cases tr1 with
    | nil =>
      obtain ⟨rfl, -⟩ : _ = ev0 ∧ _ := by simpa using ht
      obtain ⟨x, hx⟩ := hf _ (List.mem_cons_self ..)
      simp at hx
    | cons a tr1 =>
      obtain ⟨rfl, h2⟩ : a = _ ∧ _ := by simpa using ht
      exact ih (fun ev he => hf ev (List.mem_cons_of_mem _ he)) h2

/-- Any operation may be answered otherwise. -/
theorem Exec_swap {S : Sig} {β : Type} {t : IT S β} {tr1 tr2 : List (Ev S)} {op : S.Op}
    {r : Except Err (S.Resp op)} {b : β} (h : Exec t (tr1 ++ ⟨op, r⟩ :: tr2) b)
    (r' : Except Err (S.Resp op)) : ∃ tr3 b', Exec t (tr1 ++ ⟨op, r'⟩ :: tr3) b' := by
  induction tr1 generalizing t with
  | nil =>
    cases t with
    | ret _ => simp at h
    | op e k =>
      rw [Exec_op] at h
      obtain ⟨r0, tr', h1, -⟩ := h
      obtain ⟨⟨rfl, -⟩, -⟩ : (op = e ∧ _) ∧ _ := by simpa using h1
      obtain ⟨tr3, b', h3⟩ := Exec_total (k r')
      exact ⟨tr3, b', .op _ _ _ _ _ h3⟩
  | cons a tr1 ih =>
    cases t with
    | ret _ => simp at h
    | op e k =>
      rw [Exec_op] at h
      obtain ⟨r0, tr', h1, h2⟩ := h
      simp only [List.cons_append, List.cons.injEq] at h1
      obtain ⟨rfl, rfl⟩ := h1
      obtain ⟨tr3, b', h3⟩ := ih h2
      exact ⟨tr3, b', .op _ _ _ _ _ h3⟩

end Salt
