import Verif.Spec.SockNet
import Verif.Lemmas.Net

/-!
# The calls made in the runs of a network
-/

set_option linter.unusedSimpArgs false

namespace Salt

open Spec

namespace Spec.Net

variable {α β : Type} {P : List Bytes → Prop}

/-- A step in which only calls with the property `P` are made. -/
inductive StepC (P : List Bytes → Prop) : Net α β → Net α β → Prop
  | aWrite {b ab ba} (ms : List Bytes) (l : Bool) (k : Except Err Unit → IT appSig α) : P ms →
      StepC P ⟨.op (S := appSig) (.write ms l) k, b, ab, ba⟩ ⟨k (.ok ()), b, ab ++ ms, ba⟩
  | aRead {b ab ba} (m : Bytes) (k : Except Err Bytes → IT appSig α) :
      StepC P ⟨.op (S := appSig) .read k, b, ab, m :: ba⟩ ⟨k (.ok m), b, ab, ba⟩
  | bWrite {a ab ba} (ms : List Bytes) (l : Bool) (k : Except Err Unit → IT appSig β) : P ms →
      StepC P ⟨a, .op (S := appSig) (.write ms l) k, ab, ba⟩ ⟨a, k (.ok ()), ab, ba ++ ms⟩
  | bRead {a ab ba} (m : Bytes) (k : Except Err Bytes → IT appSig β) :
      StepC P ⟨a, .op (S := appSig) .read k, m :: ab, ba⟩ ⟨a, k (.ok m), ab, ba⟩

/-- A run in which only calls with the property `P` are made. -/
inductive RunC (P : List Bytes → Prop) : Nat → Net α β → Net α β → Prop
  | refl (x) : RunC P 0 x x
  | step {x y z n} : StepC P x y → RunC P n y z → RunC P (n + 1) x z

variable {x y z : Net α β}

theorem StepC.step (h : StepC P x y) : Step x y := by
  cases h with
  | aWrite ms l k _ => exact .aWrite ms l k
  | aRead m k => exact .aRead m k
  | bWrite ms l k _ => exact .bWrite ms l k
  | bRead m k => exact .bRead m k

theorem StepC.swap (h : StepC P x y) : StepC P x.swap y.swap := by
  cases h with
  | aWrite ms l k h => exact .bWrite ms l k h
  | aRead m k => exact .bRead m k
  | bWrite ms l k h => exact .aWrite ms l k h
  | bRead m k => exact .aRead m k

theorem StepC.diamond (h : StepC P x y) (h' : Step x z) : y = z ∨ ∃ w, Step y w ∧ StepC P z w := by
  cases h with
  | aWrite ms l k hp =>
    cases h' with
    | aWrite => exact .inl rfl
    | bWrite ms' l' k' => exact .inr ⟨_, .bWrite ms' l' k', .aWrite ms l k hp⟩
    | bRead m' k' => exact .inr ⟨_, .bRead m' k', .aWrite ms l k hp⟩
  | aRead m k =>
    cases h' with
    | aRead => exact .inl rfl
    | bWrite ms' l' k' => exact .inr ⟨_, .bWrite ms' l' k', .aRead m k⟩
    | bRead m' k' => exact .inr ⟨_, .bRead m' k', .aRead m k⟩
  | bWrite ms l k hp =>
    cases h' with
    | aWrite ms' l' k' => exact .inr ⟨_, .aWrite ms' l' k', .bWrite ms l k hp⟩
    | aRead m' k' => exact .inr ⟨_, .aRead m' k', .bWrite ms l k hp⟩
    | bWrite => exact .inl rfl
  | bRead m k =>
    cases h' with
    | aWrite ms' l' k' => exact .inr ⟨_, .aWrite ms' l' k', .bRead m k⟩
    | aRead m' k' => exact .inr ⟨_, .aRead m' k', .bRead m k⟩
    | bRead => exact .inl rfl

theorem RunC.run {n : Nat} (h : RunC P n x y) : Run n x y := by
  induction h with
  | refl => exact .refl _
  | step hs _ ih => exact .step hs.step ih

theorem RunC.swap {n : Nat} (h : RunC P n x y) : RunC P n x.swap y.swap := by
  induction h with
  | refl => exact .refl _
  | step hs _ ih => exact .step hs.swap ih

theorem RunC.trans {n m : Nat} (h : RunC P n x y) (h' : RunC P m y z) : RunC P (n + m) x z := by
  induction h with
  | refl => simpa using h'
  | step hs _ ih =>
    rw [Nat.add_right_comm]
    exact .step hs (ih h')

theorem RunC.strip {n : Nat} (h : RunC P n x y) (hy : Stuck y) (h' : Step x z) :
    ∃ n', n = n' + 1 ∧ RunC P n' z y := by
  induction h generalizing z with
  | refl => exact absurd h' (hy z)
  | step hs hr ih =>
    rcases hs.diamond h' with rfl | ⟨w, h1, h2⟩
    · exact ⟨_, rfl, hr⟩
    · obtain ⟨n', rfl, hw⟩ := ih hy h1
      exact ⟨n' + 1, rfl, .step h2 hw⟩

theorem RunC.head {n : Nat} (h : RunC P n x y) (hy : Stuck y) {ms : List Bytes} {l : Bool}
    {k : Except Err Unit → IT appSig α} (hx : x.a = .op (S := appSig) (.write ms l) k) : P ms := by
  induction h with
  | refl x =>
    obtain ⟨a, b, ab, ba⟩ := x
    simp only at hx
    subst hx
    exact absurd (.aWrite ms l k) (hy _)
  | step hs _ ih =>
    cases hs with
    | aWrite ms l k hp => cases hx; exact hp
    | aRead => cases hx
    | bWrite => exact ih hy hx
    | bRead => exact ih hy hx

theorem Stuck.swap (h : Stuck x) : Stuck x.swap := fun z hz => h z.swap hz.swap

/-- The calls of one run to the end are the calls of all runs. -/
theorem RunC.calls {n : Nat} (h : RunC P n x y) (hy : Stuck y) : Calls P x := by
  intro m z hr
  induction hr generalizing n with
  | refl => exact ⟨fun _ _ _ hx => h.head hy hx, fun _ _ _ hx => h.swap.head hy.swap hx⟩
  | step hs _ ih =>
    obtain ⟨n', -, h'⟩ := h.strip hy hs
    exact ih h'

theorem Calls.after (h : Calls P x) {n : Nat} (hr : Run n x y) : Calls P y := fun _ _ hr' => h _ _ (hr.trans hr')

theorem Calls.swap (h : Calls P x) : Calls P x.swap := fun n z hr => (h n z.swap hr.swap).symm

theorem Calls.stepC (h : Calls P x) (hs : Step x y) : StepC P x y := by
  cases hs with
  | aWrite ms l k => exact .aWrite ms l k ((h 0 _ (.refl _)).1 ms l k rfl)
  | aRead m k => exact .aRead m k
  | bWrite ms l k => exact .bWrite ms l k ((h 0 _ (.refl _)).2 ms l k rfl)
  | bRead m k => exact .bRead m k

theorem Calls.runC (h : Calls P x) {n : Nat} (hr : Run n x y) : RunC P n x y := by
  induction hr with
  | refl => exact .refl _
  | step hs _ ih => exact .step (h.stepC hs) (ih (h.after (.one hs)))

/-- What holds of the calls of two programs, whatever they read, holds of the calls in runs. -/
theorem calls_of_inv (A : IT appSig α → Prop) (B : IT appSig β → Prop)
    (hA : ∀ ms l k, A (.op (S := appSig) (.write ms l) k) → P ms ∧ ∀ r, A (k r))
    (hA' : ∀ k, A (.op (S := appSig) .read k) → ∀ r, A (k r))
    (hB : ∀ ms l k, B (.op (S := appSig) (.write ms l) k) → P ms ∧ ∀ r, B (k r))
    (hB' : ∀ k, B (.op (S := appSig) .read k) → ∀ r, B (k r)) (ha : A x.a) (hb : B x.b) : Calls P x := by
  intro n z hr
  induction hr with
  | refl x =>
    exact ⟨fun ms l k hx => (hA ms l k (hx ▸ ha)).1, fun ms l k hx => (hB ms l k (hx ▸ hb)).1⟩
  | step hs _ ih =>
    cases hs with
    | aWrite ms l k => exact ih ((hA _ _ _ ha).2 _) hb
    | aRead m k => exact ih (hA' _ ha _) hb
    | bWrite ms l k => exact ih ha ((hB _ _ _ hb).2 _)
    | bRead m k => exact ih ha (hB' _ hb _)

theorem calls_short (ha : ShortWritesP x.a) (hb : ShortWritesP x.b) : Calls Fits x :=
  calls_of_inv ShortWritesP ShortWritesP (fun _ _ _ h => h) (fun _ h => h) (fun _ _ _ h => h) (fun _ h => h) ha hb

theorem calls_within (ha : CallsWithin (2 ^ 31 - 27) x.a) (hb : CallsWithin (2 ^ 31 - 27) x.b) : Calls CallFits x :=
  calls_of_inv (CallsWithin (2 ^ 31 - 27)) (CallsWithin (2 ^ 31 - 27)) (fun _ _ _ h => h) (fun _ h => h)
    (fun _ _ _ h => h) (fun _ h => h) ha hb

theorem runC_a {t t' : IT appSig α} {tr : List (Ev appSig)} {p : Bytes → Prop} (h : Perf t tr t')
    {q out q' : List Bytes} (hm : Moves tr q out q') (ho : ∀ m ∈ out, p m) (b : IT appSig β) (ab : List Bytes) :
    RunC (fun ms => ∀ m ∈ ms, p m) tr.length ⟨t, b, ab, q⟩ ⟨t', b, ab ++ out, q'⟩ := by
  induction hm generalizing t ab with
  | nil q => cases h; simpa using RunC.refl _
  | read m _ ih => cases h with | cons e k r h => exact .step (.aRead _ _) (ih h ho ab)
  | write ms l _ ih =>
    cases h with
    | cons e k r h =>
      have := ih h (fun m hm => ho m (List.mem_append_right _ hm)) (ab ++ ms)
      rw [List.append_assoc] at this
      exact .step (.aWrite _ _ _ fun m hm => ho m (List.mem_append_left _ hm)) this

theorem runC_b {t t' : IT appSig β} {tr : List (Ev appSig)} {p : Bytes → Prop} (h : Perf t tr t')
    {q out q' : List Bytes} (hm : Moves tr q out q') (ho : ∀ m ∈ out, p m) (a : IT appSig α) (ba : List Bytes) :
    RunC (fun ms => ∀ m ∈ ms, p m) tr.length ⟨a, t, q, ba⟩ ⟨a, t', q', ba ++ out⟩ := (runC_a h hm ho a ba).swap

theorem Run.runC_true {n : Nat} (h : Run n x y) : RunC (fun _ => True) n x y :=
  Calls.runC (fun _ _ _ => ⟨fun _ _ _ _ => trivial, fun _ _ _ _ => trivial⟩) h

end Spec.Net

end Salt
