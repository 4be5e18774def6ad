import Verif.Spec.Broken
import Verif.Lemmas.NetLog
import Verif.Lemmas.Rounds
import Mathlib.Order.GameAdd

/-!
# Connections that break

A run on a connection that breaks is replayed on one that does not: writes that have raised are made, reads that have raised
are left out.
-/

set_option linter.unusedSimpArgs false

namespace Salt

open Spec

/-- The calls that are made in the replay. -/
inductive Follow : List (Ev appSig) → List (Ev appSig) → Prop
  | nil : Follow [] []
  | ok {tr g} (o : AppOp) (v : o.Resp) : Follow tr g → Follow (⟨o, .ok v⟩ :: tr) (⟨o, .ok v⟩ :: g)
  | write {tr g} (ms : List Bytes) (l : Bool) (e : Err) : Follow tr g →
      Follow (⟨AppOp.write ms l, .error e⟩ :: tr) (⟨AppOp.write ms l, .ok ()⟩ :: g)
  | read {tr g} (e : Err) : Follow tr g → Follow (⟨AppOp.read, .error e⟩ :: tr) g

/-- What is on the links of the replay. -/
def Links {α β γ δ : Type} (x : BreakNet α β) (X : Net γ δ) : Prop :=
  if x.alive then X.ab = x.net.ab ∧ X.ba = x.net.ba else x.net.ab <+: X.ab ∧ x.net.ba <+: X.ba

/-- The calls that are left to be replayed: a write that has handed over its messages has been replayed. -/
def due (w : Bool) (g : List (Ev appSig)) : List (Ev appSig) := if w then g.tail else g

/-- The replay from `x` on. -/
def Replay {α β : Type} (x : BreakNet α β) (trA trB : List (Ev appSig)) : Prop :=
  ∀ (γ δ : Type) (X : Net γ δ) (gA gB : List (Ev appSig)) (uA : IT appSig γ) (uB : IT appSig δ),
    Follow trA gA → Follow trB gB → Perf X.a (due x.inA gA) uA → Perf X.b (due x.inB gB) uB → Links x X →
    ∃ n ab ba, Net.Run n X ⟨uA, uB, ab, ba⟩

theorem follow_ok {o : AppOp} {v : o.Resp} {tr g : List (Ev appSig)} (h : Follow (⟨o, .ok v⟩ :: tr) g) :
    ∃ g', g = ⟨o, .ok v⟩ :: g' ∧ Follow tr g' := by
  cases h with
  | ok _ _ h => exact ⟨_, rfl, h⟩

theorem follow_write {ms : List Bytes} {l : Bool} {r : Except Err Unit} {tr g : List (Ev appSig)}
    (h : Follow (⟨AppOp.write ms l, r⟩ :: tr) g) : ∃ g', g = ⟨AppOp.write ms l, .ok ()⟩ :: g' ∧ Follow tr g' := by
  cases h with
  | ok _ _ h => exact ⟨_, rfl, h⟩
  | write _ _ _ h => exact ⟨_, rfl, h⟩

theorem perf_cons {α : Type} {t u : IT appSig α} {o : AppOp} {r : Except Err o.Resp} {g : List (Ev appSig)}
    (h : Perf t (⟨o, r⟩ :: g) u) : ∃ k, t = .op (S := appSig) o k ∧ Perf (k r) g u := by
  cases h with
  | cons _ k _ h => exact ⟨k, rfl, h⟩

theorem Replay.swap {α β : Type} {x : BreakNet α β} {trA trB : List (Ev appSig)} (h : Replay x trA trB) :
    Replay x.swap trB trA := by
  rintro γ δ ⟨A, B, AB, BA⟩ gA gB uA uB fA fB pA pB hl
  have hl' : Links x ⟨B, A, BA, AB⟩ := by
    obtain ⟨net, _ | _, u, w⟩ := x
    · exact ⟨hl.2, hl.1⟩
    · exact ⟨hl.2, hl.1⟩
  obtain ⟨n, ab, ba, hr⟩ := h _ _ ⟨B, A, BA, AB⟩ gB gA uB uA fB fA pB pA hl'
  exact ⟨n, ba, ab, hr.swap⟩

theorem failsWith_cons {E : Err → Prop} {ev : Ev appSig} {tr : List (Ev appSig)} (h : ∀ e, ev.res = .error e → E e)
    (ht : FailsWith E tr) : FailsWith E (ev :: tr) := by
  intro ev' hev
  rcases List.mem_cons.1 hev with rfl | h'
  · exact h
  · exact ht ev' h'

theorem half_replay {α β : Type} {E : Err → Prop} {x y : BreakNet α β} (hs : BreakNet.Half E x y) {trA trB : List (Ev appSig)}
    {r : α} (p1 : Perf y.net.a trA (.ret r)) (e1 : FailsWith E trA) (ih : Replay y trA trB) :
    ∃ trA', Perf x.net.a trA' (.ret r) ∧ FailsWith E trA' ∧ Replay x trA' trB := by
  cases hs with
  | put ms l k =>
    refine ⟨trA, p1, e1, ?_⟩
    rintro γ δ ⟨A, B, AB, BA⟩ gA gB uA uB fA fB pA pB hl
    cases p1 with
    | cons _ _ r' p1 =>
      obtain ⟨g, rfl, f'⟩ := follow_write fA
      obtain ⟨k', rfl, p'⟩ := perf_cons pA
      simp only [Links, if_true] at hl
      obtain ⟨rfl, rfl⟩ := hl
      obtain ⟨n, ab, ba, hr⟩ := ih _ _ ⟨_, B, _ ++ ms, _⟩ _ _ _ _ fA fB p' pB ⟨rfl, rfl⟩
      exact ⟨_, ab, ba, .step (.aWrite ms l k') hr⟩
  | done ms l k =>
    refine ⟨⟨AppOp.write ms l, .ok ()⟩ :: trA, .cons _ _ _ p1, failsWith_cons nofun e1, ?_⟩
    rintro γ δ ⟨A, B, AB, BA⟩ gA gB uA uB fA fB pA pB hl
    obtain ⟨g, rfl, f'⟩ := follow_write fA
    exact ih _ _ ⟨A, B, AB, BA⟩ _ _ _ _ f' fB pA pB hl
  | lost ms l k =>
    refine ⟨⟨AppOp.write ms l, .ok ()⟩ :: trA, .cons _ _ _ p1, failsWith_cons nofun e1, ?_⟩
    rintro γ δ ⟨A, B, AB, BA⟩ gA gB uA uB fA fB pA pB hl
    obtain ⟨g, rfl, f'⟩ := follow_write fA
    obtain ⟨k', rfl, p'⟩ := perf_cons pA
    obtain ⟨n, ab, ba, hr⟩ := ih _ _ ⟨_, B, AB ++ ms, BA⟩ _ _ _ _ f' fB p' pB
      ⟨hl.1.trans (List.prefix_append _ _), hl.2⟩
    exact ⟨_, ab, ba, .step (.aWrite ms l k') hr⟩
  | @raise b xab xba u w ms l k e he =>
    refine ⟨⟨AppOp.write ms l, .error e⟩ :: trA, .cons _ _ _ p1, failsWith_cons (by rintro e' ⟨⟩; exact he) e1, ?_⟩
    rintro γ δ ⟨A, B, AB, BA⟩ gA gB uA uB fA fB pA pB hl
    obtain ⟨g, rfl, f'⟩ := follow_write fA
    cases u with
    | true => exact ih _ _ ⟨A, B, AB, BA⟩ _ _ _ _ f' fB pA pB hl
    | false =>
      obtain ⟨k', rfl, p'⟩ := perf_cons pA
      obtain ⟨n, ab, ba, hr⟩ := ih _ _ ⟨_, B, AB ++ ms, BA⟩ _ _ _ _ f' fB p' pB
        ⟨hl.1.trans (List.prefix_append _ _), hl.2⟩
      exact ⟨_, ab, ba, .step (.aWrite ms l k') hr⟩
  | @read b xab xba v w m k =>
    refine ⟨⟨AppOp.read, .ok m⟩ :: trA, .cons _ _ _ p1, failsWith_cons nofun e1, ?_⟩
    rintro γ δ ⟨A, B, AB, BA⟩ gA gB uA uB fA fB pA pB hl
    obtain ⟨g, rfl, f'⟩ := follow_ok fA
    obtain ⟨k', rfl, p'⟩ := perf_cons pA
    cases v with
    | true =>
      simp only [Links, if_true] at hl
      obtain ⟨rfl, rfl⟩ := hl
      obtain ⟨n, ab, ba, hr⟩ := ih _ _ ⟨_, B, _, _⟩ _ _ _ _ f' fB p' pB ⟨rfl, rfl⟩
      exact ⟨_, ab, ba, .step (.aRead m k') hr⟩
    | false =>
      obtain ⟨hl1, t, hl2⟩ := hl
      simp only [List.cons_append] at hl2
      subst hl2
      obtain ⟨n, ab, ba, hr⟩ := ih _ _ ⟨_, B, _, _⟩ _ _ _ _ f' fB p' pB ⟨hl1, List.prefix_append _ t⟩
      exact ⟨_, ab, ba, .step (.aRead m k') hr⟩
  | fail k e he =>
    refine ⟨⟨AppOp.read, .error e⟩ :: trA, .cons _ _ _ p1, failsWith_cons (by rintro e' ⟨⟩; exact he) e1, ?_⟩
    rintro γ δ X gA gB uA uB fA fB pA pB hl
    cases fA with
    | read _ f' => exact ih _ _ X _ _ _ _ f' fB pA pB hl

theorem half_other {α β : Type} {E : Err → Prop} {x y : BreakNet α β} (hs : BreakNet.Half E x y) : y.net.b = x.net.b := by
  cases hs <;> rfl

theorem reach_replay {α β : Type} {E : Err → Prop} {x z : BreakNet α β} (h : BreakNet.Reach E x z) {ra : α} {rb : β}
    (hra : z.net.a = .ret ra) (hrb : z.net.b = .ret rb) :
    ∃ trA trB, Perf x.net.a trA (.ret ra) ∧ Perf x.net.b trB (.ret rb) ∧ FailsWith E trA ∧ FailsWith E trB ∧
      Replay x trA trB := by
  induction h with
  | refl x =>
    refine ⟨[], [], hra ▸ .nil _, hrb ▸ .nil _, nofun, nofun, ?_⟩
    rintro γ δ ⟨A, B, AB, BA⟩ gA gB uA uB fA fB pA pB _
    have e : ∀ w, due w [] = [] := by rintro (_ | _) <;> rfl
    cases fA; cases fB
    rw [e] at pA pB
    cases pA; cases pB
    exact ⟨0, _, _, .refl _⟩
  | step hs _ ih =>
    obtain ⟨trA, trB, p1, p2, e1, e2, ih⟩ := ih hra hrb
    cases hs with
    | a hs =>
      obtain ⟨tr, h1, h2, h3⟩ := half_replay hs p1 e1 ih
      exact ⟨tr, trB, h1, half_other hs ▸ p2, h2, e2, h3⟩
    | b hs =>
      obtain ⟨tr, h1, h2, h3⟩ := half_replay hs p2 e2 ih.swap
      have e : _ = _ := half_other hs
      simp only [BreakNet.swap] at e
      exact ⟨trA, tr, e ▸ p1, h1, e1, h2, h3.swap⟩
    | cut i j =>
      refine ⟨trA, trB, p1, p2, e1, e2, ?_⟩
      rintro γ δ ⟨A, B, AB, BA⟩ gA gB uA uB fA fB pA pB hl
      simp only [Links, if_true] at hl
      obtain ⟨rfl, rfl⟩ := hl
      exact ih _ _ _ _ _ _ _ fA fB pA pB ⟨List.take_prefix _ _, List.take_prefix _ _⟩

/-! ## Programs are finite -/

/-- The program goes on. -/
inductive Onward {S : Sig} {α : Type} : IT S α → IT S α → Prop
  | op (e : S.Op) (k : Except Err (S.Resp e) → IT S α) (r) : Onward (k r) (.op e k)

theorem onward_wf {S : Sig} {α : Type} : WellFounded (Onward (S := S) (α := α)) := by
  refine ⟨fun t => ?_⟩
  induction t with
  | ret r => exact ⟨_, fun y h => by cases h⟩
  | op e k ih => exact ⟨_, fun y h => by cases h with | op _ _ r => exact ih r⟩

/-- A program makes progress: it goes on, or it is now within its next call. -/
def Progress {S : Sig} {α : Type} : IT S α × Bool → IT S α × Bool → Prop :=
  Prod.Lex Onward fun x y => x = true ∧ y = false

/-- The connection breaks, or one of two programs makes progress. -/
def Progress2 {S T : Sig} {α β : Type} : Bool × ((IT S α × Bool) × (IT T β × Bool)) →
    Bool × ((IT S α × Bool) × (IT T β × Bool)) → Prop :=
  Prod.Lex (fun x y => x = false ∧ y = true) (Prod.GameAdd Progress Progress)

theorem progress_wf {S : Sig} {α : Type} : WellFounded (Progress (S := S) (α := α)) := by
  refine WellFounded.prod_lex onward_wf ⟨fun b => ?_⟩
  have h : Acc (fun x y : Bool => x = true ∧ y = false) true := ⟨_, fun y h => by cases h.2⟩
  cases b with
  | true => exact h
  | false => exact ⟨_, fun y hy => hy.1 ▸ h⟩

theorem progress2_wf {S T : Sig} {α β : Type} : WellFounded (Progress2 (S := S) (T := T) (α := α) (β := β)) := by
  refine WellFounded.prod_lex ⟨fun b => ?_⟩ (progress_wf.prod_gameAdd progress_wf)
  have h : Acc (fun x y : Bool => x = false ∧ y = true) false := ⟨_, fun y h => by cases h.2⟩
  cases b with
  | false => exact h
  | true => exact ⟨_, fun y hy => hy.1 ▸ h⟩

end Salt
