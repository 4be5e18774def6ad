import Verif.Lemmas.Prog

/-!
# Hoare logic with histories

Assertions speak about everything that happened so far (a trace) and the current attributes.
-/

namespace Salt

variable {S : Sig} {σ τ α β : Type}

/-- Starting after history `tr` in a state with `P tr s`, every execution of `m` that returns `a`
ends with `Q a`, and every one that raises `e` ends with `E e`. -/
def Tri (P : List (Ev S) → σ → Prop) (m : Py S σ α) (Q : α → List (Ev S) → σ → Prop)
    (E : Err → List (Ev S) → σ → Prop) : Prop :=
  ∀ tr0 s, P tr0 s → wp (m s) fun tr b =>
    match b.1 with
    | .ok a => Q a (tr0 ++ tr) b.2
    | .error e => E e (tr0 ++ tr) b.2

namespace Tri

variable {P P' : List (Ev S) → σ → Prop} {Q Q' : α → List (Ev S) → σ → Prop}
  {R : β → List (Ev S) → σ → Prop} {E E' : Err → List (Ev S) → σ → Prop}

theorem bind {m : Py S σ α} {f : α → Py S σ β} (h1 : Tri P m Q E) (h2 : ∀ a, Tri (Q a) (f a) R E) :
    Tri P (m >>= f) R E := by
  intro tr0 s hp
  rw [Py.bind_run, wp_bind]
  refine wp_mono _ (h1 tr0 s hp) ?_
  rintro tr ⟨r, s'⟩ h
  cases r with
  | error e => simpa using h
  | ok a =>
    refine wp_mono _ (h2 a (tr0 ++ tr) s' h) ?_
    rintro tr' ⟨r, s''⟩ h
    simpa [List.append_assoc] using h

theorem conseq {m : Py S σ α} (h : Tri P m Q E) (hp : ∀ tr s, P' tr s → P tr s)
    (hq : ∀ a tr s, Q a tr s → Q' a tr s) (he : ∀ e tr s, E e tr s → E' e tr s) :
    Tri P' m Q' E' := by
  intro tr0 s hp'
  refine wp_mono _ (h tr0 s (hp _ _ hp')) ?_
  rintro tr ⟨r, s'⟩ h
  cases r with
  | error e => exact he _ _ _ h
  | ok a => exact hq _ _ _ h

theorem pre {m : Py S σ α} (h : Tri P m Q E) (hp : ∀ tr s, P' tr s → P tr s) : Tri P' m Q E :=
  h.conseq hp (fun _ _ _ h => h) fun _ _ _ h => h

theorem post {m : Py S σ α} (h : Tri P m Q E) (hq : ∀ a tr s, Q a tr s → Q' a tr s) :
    Tri P m Q' E :=
  h.conseq (fun _ _ h => h) hq fun _ _ _ h => h

/-- A precondition may be used while proving a triple. -/
theorem intro_pre {m : Py S σ α} (h : ∀ tr0 s0, P tr0 s0 → Tri (fun tr s => tr = tr0 ∧ s = s0) m Q E) :
    Tri P m Q E := fun tr0 s hp => h tr0 s hp tr0 s ⟨rfl, rfl⟩

theorem pure' (a : α) (h : ∀ tr s, P tr s → Q a tr s) : Tri P (Pure.pure a : Py S σ α) Q E := by
  intro tr0 s hp; simpa using h _ _ hp

theorem raise (e : Err) (h : ∀ tr s, P tr s → E e tr s) : Tri P (Py.raise e : Py S σ α) Q E := by
  intro tr0 s hp; simpa using h _ _ hp

theorem lift (x : Except Err α) (h : ∀ a, x = .ok a → ∀ tr s, P tr s → Q a tr s)
    (he : ∀ e, x = .error e → ∀ tr s, P tr s → E e tr s) : Tri P (Py.lift x : Py S σ α) Q E := by
  intro tr0 s hp
  cases x with
  | error e => simpa using he e rfl _ _ hp
  | ok a => simpa using h a rfl _ _ hp

theorem getSt : Tri P (Py.getSt : Py S σ σ) (fun a tr s => a = s ∧ P tr s) E := by
  intro tr0 s hp; simpa using hp

theorem modifySt (f : σ → σ) {Q : Unit → List (Ev S) → σ → Prop}
    (h : ∀ tr s, P tr s → Q () tr (f s)) : Tri P (Py.modifySt f : Py S σ Unit) Q E := by
  intro tr0 s hp; simpa using h _ _ hp

theorem call (e : S.Op) {Q : S.Resp e → List (Ev S) → σ → Prop}
    (h : ∀ a tr s, P tr s → Q a (tr ++ [⟨e, .ok a⟩]) s)
    (he : ∀ x tr s, P tr s → E x (tr ++ [⟨e, .error x⟩]) s) :
    Tri P (Py.call e : Py S σ (S.Resp e)) Q E := by
  intro tr0 s hp
  rw [Py.call_run, wp_op]
  intro r
  rw [wp_ret]
  cases r with
  | error x => exact he x _ _ hp
  | ok a => exact h a _ _ hp

theorem onError {m : Py S σ α} {hd : Err → Py S σ α} {M : Err → List (Ev S) → σ → Prop}
    (h1 : Tri P m Q M) (h2 : ∀ e, Tri (M e) (hd e) Q E) : Tri P (Py.onError m hd) Q E := by
  intro tr0 s hp
  unfold Py.onError
  rw [wp_bind]
  refine wp_mono _ (h1 tr0 s hp) ?_
  rintro tr ⟨r, s'⟩ h
  cases r with
  | ok a => simpa using h
  | error e =>
    refine wp_mono _ (h2 e (tr0 ++ tr) s' h) ?_
    rintro tr' ⟨r, s''⟩ h
    simpa [List.append_assoc] using h

theorem zoom {get : σ → Option τ} {set : τ → σ → σ} {m : Py S τ α}
    (hn : ∀ tr s, P tr s → get s = none → E .attributeError tr s)
    (h : ∀ tr0 s t, P tr0 s → get s = some t →
      Tri (fun tr t' => tr = tr0 ∧ t' = t) m (fun a tr t' => Q a tr (set t' s))
        (fun e tr t' => E e tr (set t' s))) :
    Tri P (Py.zoom get set m) Q E := by
  intro tr0 s hp
  rw [Py.zoom_run]
  cases hg : get s with
  | none => simpa using hn _ _ hp hg
  | some t =>
    rw [wp_bind]
    refine wp_mono _ (h tr0 s t hp hg tr0 t ⟨rfl, rfl⟩) ?_
    rintro tr ⟨r, t'⟩ hh
    cases r <;> simpa using hh

/-- Reading the result off a triple. -/
theorem run_ok {m : Py S σ α} (h : Tri P m Q E) {s : σ} (hp : P [] s) {tr : List (Ev S)}
    {a : α} {s' : σ} (hx : Call m s tr (.ok a) s') : Q a tr s' := by
  simpa using h [] s hp tr (.ok a, s') hx

theorem run_error {m : Py S σ α} (h : Tri P m Q E) {s : σ} (hp : P [] s) {tr : List (Ev S)}
    {e : Err} {s' : σ} (hx : Call m s tr (.error e) s') : E e tr s' := by
  simpa using h [] s hp tr (.error e, s') hx

end Tri

end Salt
