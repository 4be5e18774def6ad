import Verif.Spec.BufNet
import Verif.Lemmas.NetCalls

/-!
# Networks whose programs take turns
-/

set_option linter.unusedSimpArgs false

namespace Salt

open Spec

theorem not_writing_read {α : Type} (k : Except Err Bytes → IT appSig α) : ¬ Writing (.op (S := appSig) .read k) := by
  rintro ⟨ms, l, k, h⟩; cases h

theorem not_writing_ret {α : Type} (r : α) : ¬ Writing (.ret r : IT appSig α) := by
  rintro ⟨ms, l, k, h⟩; cases h

namespace Spec.Net

variable {α β : Type} {x y z : Net α β}

/-- A step of a schedule in which reading goes first: who writes finds both links empty, and the other one not about to
write. -/
inductive StepE : Net α β → Net α β → Prop
  | aWrite {b} (ms : List Bytes) (l : Bool) (k : Except Err Unit → IT appSig α) : ¬ Writing b →
      StepE ⟨.op (S := appSig) (.write ms l) k, b, [], []⟩ ⟨k (.ok ()), b, ms, []⟩
  | aRead {b ab ba} (m : Bytes) (k : Except Err Bytes → IT appSig α) :
      StepE ⟨.op (S := appSig) .read k, b, ab, m :: ba⟩ ⟨k (.ok m), b, ab, ba⟩
  | bWrite {a} (ms : List Bytes) (l : Bool) (k : Except Err Unit → IT appSig β) : ¬ Writing a →
      StepE ⟨a, .op (S := appSig) (.write ms l) k, [], []⟩ ⟨a, k (.ok ()), [], ms⟩
  | bRead {a ab ba} (m : Bytes) (k : Except Err Bytes → IT appSig β) :
      StepE ⟨a, .op (S := appSig) .read k, m :: ab, ba⟩ ⟨a, k (.ok m), ab, ba⟩

inductive RunE : Net α β → Net α β → Prop
  | refl (x : Net α β) : RunE x x
  | step {x y z : Net α β} : StepE x y → RunE y z → RunE x z

theorem StepE.swap (h : StepE x y) : StepE x.swap y.swap := by
  cases h with
  | aWrite ms l k h => exact .bWrite ms l k h
  | aRead m k => exact .bRead m k
  | bWrite ms l k h => exact .aWrite ms l k h
  | bRead m k => exact .aRead m k

theorem StepE.step (h : StepE x y) : Step x y := by
  cases h with
  | aWrite ms l k _ => exact .aWrite ms l k
  | aRead m k => exact .aRead m k
  | bWrite ms l k _ => exact .bWrite ms l k
  | bRead m k => exact .bRead m k

theorem RunE.swap (h : RunE x y) : RunE x.swap y.swap := by
  induction h with
  | refl => exact .refl _
  | step hs _ ih => exact .step hs.swap ih

theorem RunE.trans (h : RunE x y) (h' : RunE y z) : RunE x z := by
  induction h with
  | refl => exact h'
  | step hs _ ih => exact .step hs (ih h')

theorem RunE.one (h : StepE x y) : RunE x y := .step h (.refl _)

theorem RunE.run (h : RunE x y) : ∃ n, Run n x y := by
  induction h with
  | refl => exact ⟨0, .refl _⟩
  | step hs _ ih =>
    obtain ⟨n, h⟩ := ih
    exact ⟨n + 1, .step hs.step h⟩

theorem HalfDuplex.after (h : HalfDuplex x) {n : Nat} (hr : Run n x y) : HalfDuplex y := fun _ _ hr' => h _ _ (hr.trans hr')

theorem HalfDuplex.swap (h : HalfDuplex x) : HalfDuplex x.swap := fun n z hr => (h n z.swap hr.swap).symm

/-- A read that is possible stays possible until it is made. -/
theorem Run.around {n : Nat} (h : Run n x z) {k : Except Err Bytes → IT appSig α} {m : Bytes} {q : List Bytes}
    (ha : x.a = .op (S := appSig) .read k) (hq : x.ba = m :: q) :
    (∃ n', Run n' ⟨k (.ok m), x.b, x.ab, q⟩ z) ∨
    (z.a = .op (S := appSig) .read k ∧ ∃ q', z.ba = m :: q' ∧ Run n ⟨k (.ok m), x.b, x.ab, q⟩ ⟨k (.ok m), z.b, z.ab, q'⟩) := by
  induction h generalizing q with
  | refl x => exact .inr ⟨ha, q, hq, .refl _⟩
  | step hs hr ih =>
    cases hs with
    | aWrite ms l k' => cases ha
    | aRead m' k' =>
      cases ha
      cases hq
      exact .inl ⟨_, hr⟩
    | bWrite ms l k' =>
      subst hq
      rcases ih ha (List.cons_append ..) with ⟨n', h⟩ | ⟨h1, q', h2, h3⟩
      · exact .inl ⟨n' + 1, .step (.bWrite ms l k') h⟩
      · exact .inr ⟨h1, q', h2, .step (.bWrite ms l k') h3⟩
    | bRead m' k' =>
      rcases ih ha hq with ⟨n', h⟩ | ⟨h1, q', h2, h3⟩
      · exact .inl ⟨n' + 1, .step (.bRead m' k') h⟩
      · exact .inr ⟨h1, q', h2, .step (.bRead m' k') h3⟩

theorem halfDuplex_aRead {b : IT appSig β} {ab ba : List Bytes} {m : Bytes} {k : Except Err Bytes → IT appSig α}
    (h : HalfDuplex ⟨k (.ok m), b, ab, ba⟩) : HalfDuplex (⟨.op (S := appSig) .read k, b, ab, m :: ba⟩ : Net α β) := by
  intro n z hr
  rcases hr.around rfl rfl with ⟨n', hr'⟩ | ⟨h1, q', h2, h3⟩
  · exact h _ _ hr'
  · rw [h1]
    exact ⟨fun hw => absurd hw (not_writing_read _), fun hw => ⟨((h _ _ h3).2 hw).1, not_writing_read _⟩⟩

theorem halfDuplex_aWrite {b : IT appSig β} {ms : List Bytes} {l : Bool} {k : Except Err Unit → IT appSig α}
    (hb : ¬ Writing b) (h : HalfDuplex ⟨k (.ok ()), b, ms, []⟩) :
    HalfDuplex (⟨.op (S := appSig) (.write ms l) k, b, [], []⟩ : Net α β) := by
  intro n z hr
  cases hr with
  | refl => exact ⟨fun _ => ⟨rfl, hb⟩, fun hw => absurd hw hb⟩
  | step hs hr =>
    cases hs with
    | aWrite => exact h _ _ hr
    | bWrite ms' l' k' => exact absurd ⟨ms', l', k', rfl⟩ hb

/-- One schedule in which reading goes first shows that the two take turns in all schedules. -/
theorem RunE.halfDuplex (h : RunE x y) (hy : Stuck y) : HalfDuplex x := by
  induction h with
  | refl x =>
    intro n z hr
    cases hr with
    | refl =>
      obtain ⟨h1, h2⟩ := (stuck_iff x).1 hy
      refine ⟨fun hw => ?_, fun hw => ?_⟩
      · rcases h1 with ⟨r, h⟩ | ⟨⟨k, h⟩, -⟩
        · exact absurd hw (h ▸ not_writing_ret _)
        · exact absurd hw (h ▸ not_writing_read _)
      · rcases h2 with ⟨r, h⟩ | ⟨⟨k, h⟩, -⟩
        · exact absurd hw (h ▸ not_writing_ret _)
        · exact absurd hw (h ▸ not_writing_read _)
    | step hs _ => exact absurd hs (hy _)
  | step hs _ ih =>
    have ih := ih hy
    cases hs with
    | aWrite ms l k hb => exact halfDuplex_aWrite hb ih
    | aRead m k => exact halfDuplex_aRead ih
    | bWrite ms l k hb => exact (halfDuplex_aWrite hb ih.swap).swap
    | bRead m k => exact (halfDuplex_aRead ih.swap).swap

/-- What a side that has returned has not read stays on the link. -/
theorem Run.kept {n : Nat} (h : Run n x z) {r : β} (hb : x.b = .ret r) (hab : x.ab ≠ []) : z.ab ≠ [] := by
  induction h with
  | refl => exact hab
  | step hs _ ih =>
    cases hs with
    | aWrite ms l k => exact ih hb (by simp [hab])
    | aRead m k => exact ih hb hab
    | bWrite ms l k => cases hb
    | bRead m k => cases hb

theorem HalfDuplex.one {n : Nat} (h : HalfDuplex x) (hr : Run n x y) (h1 : y.ab = []) (h2 : y.ba = [])
    (hx : ¬ Stuck x) : ∃ x', StepE x x' := by
  obtain ⟨a, b, ab, ba⟩ := x
  have h0 := h 0 _ (.refl _)
  simp only at h0
  have key : ∀ {γ : Type} (p : IT appSig γ), (∃ r, p = .ret r) ∨ (∃ k, p = .op (S := appSig) .read k) ∨
      ∃ ms l k, p = .op (S := appSig) (.write ms l) k := by
    intro γ p
    cases p with
    | ret r => exact .inl ⟨r, rfl⟩
    | op e k =>
      cases e with
      | read => exact .inr (.inl ⟨k, rfl⟩)
      | write ms l => exact .inr (.inr ⟨ms, l, k, rfl⟩)
  have hab : ∀ r, b = .ret r → ab = [] := by
    rintro r rfl
    exact Decidable.not_not.1 fun hne => hr.kept rfl hne h1
  have hba : ∀ r, a = .ret r → ba = [] := by
    rintro r rfl
    exact Decidable.not_not.1 fun hne => hr.swap.kept rfl hne h2
  rcases key a with ⟨r, rfl⟩ | ⟨k, rfl⟩ | ⟨ms, l, k, rfl⟩ <;> rcases key b with ⟨r', rfl⟩ | ⟨k', rfl⟩ | ⟨ms', l', k', rfl⟩
  · exact absurd ((stuck_iff _).2 ⟨.inl ⟨_, rfl⟩, .inl ⟨_, rfl⟩⟩) hx
  · cases ab with
    | nil => exact absurd ((stuck_iff _).2 ⟨.inl ⟨_, rfl⟩, .inr ⟨⟨_, rfl⟩, rfl⟩⟩) hx
    | cons m ab => exact ⟨_, .bRead m k'⟩
  · obtain ⟨e1, e2⟩ := h0.2 ⟨_, _, _, rfl⟩
    cases e1
    cases hba _ rfl
    exact ⟨_, .bWrite ms' l' k' e2⟩
  · cases ba with
    | nil => exact absurd ((stuck_iff _).2 ⟨.inr ⟨⟨_, rfl⟩, rfl⟩, .inl ⟨_, rfl⟩⟩) hx
    | cons m ab => exact ⟨_, .aRead m k⟩
  · cases ba with
    | cons m ab => exact ⟨_, .aRead m k⟩
    | nil =>
      cases ab with
      | nil => exact absurd ((stuck_iff _).2 ⟨.inr ⟨⟨_, rfl⟩, rfl⟩, .inr ⟨⟨_, rfl⟩, rfl⟩⟩) hx
      | cons m ab => exact ⟨_, .bRead m k'⟩
  · obtain ⟨e1, e2⟩ := h0.2 ⟨_, _, _, rfl⟩
    cases e1
    cases ba with
    | nil => exact ⟨_, .bWrite ms' l' k' e2⟩
    | cons m ab => exact ⟨_, .aRead m k⟩
  · obtain ⟨e1, e2⟩ := h0.1 ⟨_, _, _, rfl⟩
    cases e1
    cases hab _ rfl
    exact ⟨_, .aWrite ms l k e2⟩
  · obtain ⟨e1, e2⟩ := h0.1 ⟨_, _, _, rfl⟩
    cases e1
    cases ab with
    | nil => exact ⟨_, .aWrite ms l k e2⟩
    | cons m ab => exact ⟨_, .bRead m k'⟩
  · exact absurd ⟨_, _, _, rfl⟩ (h0.1 ⟨_, _, _, rfl⟩).2

/-- If the two take turns and nothing is left on the links in the end, there is a schedule in which reading goes
first. -/
theorem HalfDuplex.runE {n : Nat} (h : HalfDuplex x) (hr : Run n x y) (hy : Stuck y) (h1 : y.ab = []) (h2 : y.ba = []) :
    RunE x y := by
  induction n generalizing x with
  | zero => cases hr; exact .refl _
  | succ n ih =>
    have hx : ¬ Stuck x := by
      intro hx
      cases hr with
      | step hs _ => exact hx _ hs
    obtain ⟨x', hs⟩ := h.one hr h1 h2 hx
    obtain ⟨n', e, hr'⟩ := hr.strip hy hs.step
    cases e
    exact .step hs (ih (h.after (.one hs.step)) hr')

end Spec.Net

end Salt
