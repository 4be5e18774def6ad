import Verif.Spec.Trace

/-!
# Reasoning about programs
-/

namespace Salt

variable {S : Sig} {σ τ α β : Type}

/-! ### Executions -/

@[simp] theorem Exec_ret (b b' : β) (tr : List (Ev S)) :
    Exec (.ret b : IT S β) tr b' ↔ tr = [] ∧ b = b' := by
  constructor
  · intro h; cases h; exact ⟨rfl, rfl⟩
  · rintro ⟨rfl, rfl⟩; exact .ret _

theorem Exec_op (e : S.Op) (k : Except Err (S.Resp e) → IT S β) (tr : List (Ev S)) (b : β) :
    Exec (.op e k) tr b ↔ ∃ r tr', tr = ⟨e, r⟩ :: tr' ∧ Exec (k r) tr' b := by
  constructor
  · intro h; cases h with | op _ _ r tr' _ h => exact ⟨r, tr', rfl, h⟩
  · rintro ⟨r, tr', rfl, h⟩; exact .op _ _ _ _ _ h

@[simp] theorem Exec_op_cons (e : S.Op) (k : Except Err (S.Resp e) → IT S β)
    (r : Except Err (S.Resp e)) (tr : List (Ev S)) (b : β) :
    Exec (.op e k) (⟨e, r⟩ :: tr) b ↔ Exec (k r) tr b := by
  constructor
  · intro h; cases h; assumption
  · intro h; exact .op _ _ _ _ _ h

theorem Exec_bind (t : IT S α) (f : α → IT S β) (tr : List (Ev S)) (b : β) :
    Exec (t.bind f) tr b ↔ ∃ tr1 a tr2, tr = tr1 ++ tr2 ∧ Exec t tr1 a ∧ Exec (f a) tr2 b := by
  induction t generalizing tr with
  | ret a =>
    simp only [IT.bind, Exec_ret]
    constructor
    · intro h; exact ⟨[], a, tr, rfl, ⟨rfl, rfl⟩, h⟩
    · rintro ⟨tr1, a', tr2, rfl, ⟨rfl, rfl⟩, h⟩; exact h
  | op e k ih =>
    simp only [IT.bind, Exec_op, ih]
    constructor
    · rintro ⟨r, tr', rfl, tr1, a, tr2, rfl, h1, h2⟩
      exact ⟨⟨e, r⟩ :: tr1, a, tr2, rfl, ⟨r, tr1, rfl, h1⟩, h2⟩
    · rintro ⟨_, a, tr2, rfl, ⟨r, tr1, rfl, h1⟩, h2⟩
      exact ⟨r, tr1 ++ tr2, rfl, tr1, a, tr2, rfl, h1, h2⟩

/-- Every program can run to its end, whatever it has done so far. -/
theorem Exec_total (t : IT S β) : ∃ tr b, Exec t tr b := by
  induction t with
  | ret b => exact ⟨[], b, .ret b⟩
  | op e k ih =>
    obtain ⟨tr, b, h⟩ := ih (.error .comException)
    exact ⟨_, b, .op e k _ tr b h⟩

theorem IT.bind_ret (t : IT S α) : t.bind .ret = t := by
  induction t with
  | ret a => rfl
  | op e k ih => simp only [IT.bind]; congr; funext r; exact ih r

theorem IT.bind_assoc {γ : Type} (t : IT S α) (f : α → IT S β) (g : β → IT S γ) :
    (t.bind f).bind g = t.bind fun a => (f a).bind g := by
  induction t with
  | ret a => rfl
  | op e k ih => simp only [IT.bind]; congr; funext r; exact ih r

/-! ### Weakest preconditions -/

/-- All executions of `t` satisfy `Q`. -/
def wp (t : IT S β) (Q : List (Ev S) → β → Prop) : Prop :=
  ∀ tr b, Exec t tr b → Q tr b

@[simp] theorem wp_ret (b : β) (Q : List (Ev S) → β → Prop) : wp (.ret b) Q ↔ Q [] b := by
  simp [wp]

@[simp] theorem wp_op (e : S.Op) (k : Except Err (S.Resp e) → IT S β)
    (Q : List (Ev S) → β → Prop) :
    wp (.op e k) Q ↔ ∀ r, wp (k r) fun tr b => Q (⟨e, r⟩ :: tr) b := by
  simp only [wp, Exec_op]
  constructor
  · intro h r tr b hx; exact h _ _ ⟨r, tr, rfl, hx⟩
  · rintro h _ b ⟨r, tr, rfl, hx⟩; exact h r tr b hx

theorem wp_bind (t : IT S α) (f : α → IT S β) (Q : List (Ev S) → β → Prop) :
    wp (t.bind f) Q ↔ wp t fun tr a => wp (f a) fun tr' b => Q (tr ++ tr') b := by
  simp only [wp, Exec_bind]
  constructor
  · intro h tr a h1 tr' b h2; exact h _ _ ⟨tr, a, tr', rfl, h1, h2⟩
  · rintro h _ b ⟨tr, a, tr', rfl, h1, h2⟩; exact h tr a h1 tr' b h2

theorem wp_mono (t : IT S β) {Q Q' : List (Ev S) → β → Prop} (h : wp t Q)
    (hq : ∀ tr b, Q tr b → Q' tr b) : wp t Q' := fun tr b hx => hq _ _ (h tr b hx)

/-! ### Methods -/

section
variable (s : σ)

@[simp] theorem Py.pure_run (a : α) : (pure a : Py S σ α) s = .ret (.ok a, s) := rfl

@[simp] theorem Py.raise_run (e : Err) : (Py.raise e : Py S σ α) s = .ret (.error e, s) := rfl

@[simp] theorem Py.lift_run (x : Except Err α) : (Py.lift x : Py S σ α) s = .ret (x, s) := rfl

@[simp] theorem Py.getSt_run : (Py.getSt : Py S σ σ) s = .ret (.ok s, s) := rfl

@[simp] theorem Py.modifySt_run (f : σ → σ) :
    (Py.modifySt f : Py S σ Unit) s = .ret (.ok (), f s) := rfl

@[simp] theorem Py.call_run (e : S.Op) :
    (Py.call e : Py S σ (S.Resp e)) s = .op e fun r => .ret (r, s) := rfl

theorem Py.bind_run (m : Py S σ α) (f : α → Py S σ β) :
    (m >>= f) s = (m s).bind fun
      | (.ok a, s') => f a s'
      | (.error e, s') => .ret (.error e, s') := rfl

@[simp] theorem IT.ret_bind (a : α) (f : α → IT S β) : (IT.ret a : IT S α).bind f = f a := rfl

@[simp] theorem IT.op_bind (e : S.Op) (k : Except Err (S.Resp e) → IT S α) (f : α → IT S β) :
    (IT.op e k).bind f = .op e fun r => (k r).bind f := rfl

theorem Py.zoom_run (get : σ → Option τ) (set : τ → σ → σ) (m : Py S τ α) :
    Py.zoom get set m s = match get s with
      | none => .ret (.error .attributeError, s)
      | some t => (m t).bind fun (r, t') => .ret (r, set t' s) := rfl

end

theorem Call_iff_wp (m : Py S σ α) (s : σ) (Q : List (Ev S) → Except Err α → σ → Prop) :
    (∀ tr r s', Call m s tr r s' → Q tr r s') ↔ wp (m s) fun tr b => Q tr b.1 b.2 := by
  constructor
  · intro h tr b hx; exact h tr b.1 b.2 hx
  · intro h tr r s' hx; exact h tr (r, s') hx

/-- Running with a library is running with its answers. -/
theorem Exec_withLib (L : Lib) (t : IT env β) (tr : List (Ev env)) (b : β) :
    Exec (withLib L t) tr b ↔
      ∃ tr', Exec t tr' b ∧ (∀ e ∈ tr', AnsweredBy L e) ∧ tr = tr'.filter Ev.isIO := by
  induction t generalizing tr with
  | ret a =>
    simp only [withLib, Exec_ret]
    constructor
    · rintro ⟨rfl, rfl⟩; exact ⟨[], ⟨rfl, rfl⟩, by simp, rfl⟩
    · rintro ⟨_, ⟨rfl, rfl⟩, -, rfl⟩; exact ⟨rfl, rfl⟩
  | op e k ih =>
    have io : ∀ (hio : ∀ r, Ev.isIO ⟨e, r⟩ = true) (ha : ∀ r, AnsweredBy L ⟨e, r⟩),
        (∃ r tr', tr = ⟨e, r⟩ :: tr' ∧ Exec (withLib L (k r)) tr' b) ↔
        ∃ tr', Exec (.op e k) tr' b ∧ (∀ e ∈ tr', AnsweredBy L e) ∧ tr = tr'.filter Ev.isIO := by
      intro hio ha
      constructor
      · rintro ⟨r, tr1, rfl, h⟩
        obtain ⟨tr2, h1, h2, rfl⟩ := (ih r _).1 h
        refine ⟨⟨e, r⟩ :: tr2, .op _ _ _ _ _ h1, ?_, by simp [hio]⟩
        intro x hx
        rcases List.mem_cons.1 hx with rfl | hx
        · exact ha r
        · exact h2 x hx
      · rintro ⟨tr', h1, h2, rfl⟩
        rw [Exec_op] at h1
        obtain ⟨r, tr1, rfl, h1⟩ := h1
        refine ⟨r, tr1.filter Ev.isIO, by simp [hio], (ih r _).2 ⟨tr1, h1, ?_, rfl⟩⟩
        exact fun x hx => h2 x (List.mem_cons_of_mem _ hx)
    have cr : ∀ (x : Except Err (env.Resp e)) (hio : ∀ r, Ev.isIO ⟨e, r⟩ = false)
        (ha : ∀ r, AnsweredBy L ⟨e, r⟩ ↔ r = x),
        Exec (withLib L (k x)) tr b ↔
        ∃ tr', Exec (.op e k) tr' b ∧ (∀ e ∈ tr', AnsweredBy L e) ∧ tr = tr'.filter Ev.isIO := by
      intro x hio ha
      constructor
      · intro h
        obtain ⟨tr2, h1, h2, rfl⟩ := (ih x _).1 h
        refine ⟨⟨e, x⟩ :: tr2, .op _ _ _ _ _ h1, ?_, by simp [hio]⟩
        intro y hy
        rcases List.mem_cons.1 hy with rfl | hy
        · exact (ha x).2 rfl
        · exact h2 y hy
      · rintro ⟨tr', h1, h2, rfl⟩
        rw [Exec_op] at h1
        obtain ⟨r, tr1, rfl, h1⟩ := h1
        have : r = x := (ha r).1 (h2 _ (List.mem_cons_self ..))
        subst this
        refine (ih r _).2 ⟨tr1, h1, fun y hy => h2 y (List.mem_cons_of_mem _ hy), by simp [hio]⟩
    cases e with
    | read => rw [withLib, Exec_op]; exact io (fun _ => rfl) fun _ => trivial
    | write => rw [withLib, Exec_op]; exact io (fun _ => rfl) fun _ => trivial
    | firstTime => rw [withLib, Exec_op]; exact io (fun _ => rfl) fun _ => trivial
    | time => rw [withLib, Exec_op]; exact io (fun _ => rfl) fun _ => trivial
    | report => rw [withLib, Exec_op]; exact io (fun _ => rfl) fun _ => trivial
    | check => rw [withLib, Exec_op]; exact io (fun _ => rfl) fun _ => trivial
    | sign => rw [withLib]; exact cr _ (fun _ => rfl) fun _ => Iff.rfl
    | signOpen => rw [withLib]; exact cr _ (fun _ => rfl) fun _ => Iff.rfl
    | hash => rw [withLib]; exact cr _ (fun _ => rfl) fun _ => Iff.rfl
    | beforenm => rw [withLib]; exact cr _ (fun _ => rfl) fun _ => Iff.rfl
    | box => rw [withLib]; exact cr _ (fun _ => rfl) fun _ => Iff.rfl
    | boxOpen => rw [withLib]; exact cr _ (fun _ => rfl) fun _ => Iff.rfl

end Salt
