import Verif.Lemmas.Farm
import Verif.Lemmas.AioPair
import Verif.Spec.AioFarm

/-!
# A server with a task for every client
-/

namespace Salt

section
variable {X : Type} {S : Link X}

theorem Link.Reach.trans {x y z : X} (h : S.Reach x y) (h' : S.Reach y z) : S.Reach x z := by
  induction h' with
  | refl => exact h
  | step _ hs ih => exact .step ih hs

theorem Link.Terminates.reach {x y : X} (h : S.Terminates x) (hr : S.Reach x y) : S.Terminates y := by
  induction hr with
  | refl => exact h
  | step _ hs ih => exact ih.inv hs

theorem Link.exists_final {x : X} (h : S.Terminates x) : ∃ y, S.Reach x y ∧ S.Stuck y := by
  unfold Link.Terminates at h
  induction h with
  | intro x _ ih =>
    by_cases hs : S.Stuck x
    · exact ⟨x, .refl _, hs⟩
    · obtain ⟨y, hy⟩ := Classical.not_forall_not.1 hs
      obtain ⟨z, h1, h2⟩ := ih y hy
      exact ⟨z, Link.Reach.trans (.step (.refl _) hy) h1, h2⟩

/-- A connection makes progress. -/
def Pool.Less (S : Link X) (d c : Bool × X) : Prop :=
  (d.1 = true ∧ c.1 = false ∧ d.2 = c.2) ∨ (d.1 = c.1 ∧ (S.stepC c.2 d.2 ∨ S.stepS c.2 d.2))

theorem Pool.less_acc {x : X} (h : S.Terminates x) : ∀ b, Acc (Pool.Less S) (b, x) := by
  unfold Link.Terminates at h
  induction h with
  | intro x _ ih =>
    have ht : Acc (Pool.Less S) (true, x) := by
      refine .intro _ fun d hd => ?_
      rcases hd with ⟨_, h2, _⟩ | ⟨_, h2⟩
      · cases h2
      · exact ih d.2 h2 d.1
    rintro (_ | _)
    · refine .intro _ fun d hd => ?_
      rcases hd with ⟨h1, _, h2⟩ | ⟨_, h2⟩
      · obtain ⟨b, y⟩ := d
        dsimp only at h1 h2
        subst h1 h2
        exact ht
      · exact ih d.2 h2 d.1
    · exact ht

theorem Pool.terminates {xs : List X} (h : ∀ x ∈ xs, S.Terminates x) : Pool.Terminates S (Pool.start xs) := by
  have hacc : Acc (ListLess (Pool.Less S)) (Pool.start xs).conns := by
    refine listLess_acc _ fun c hc => ?_
    obtain ⟨x, hx, rfl⟩ := List.mem_map.1 hc
    exact Pool.less_acc (h x hx) _
  have key : ∀ l, Acc (ListLess (Pool.Less S)) l → Pool.Terminates S ⟨l, false⟩ := by
    intro l hl
    induction hl with
    | intro l _ ih =>
      refine .intro _ fun Q hQ => ?_
      cases hQ with
      | connect hr => cases hr
      | client hc hd hs => exact ih _ ⟨_, _, _, hc, rfl, .inr ⟨rfl, .inl hs⟩⟩
      | server hr => cases hr
      | stop hr => cases hr
  have key' : ∀ l, Acc (ListLess (Pool.Less S)) l → Pool.Terminates S ⟨l, true⟩ := by
    intro l hl
    induction hl with
    | intro l hl ih =>
      refine .intro _ fun Q hQ => ?_
      cases hQ with
      | connect hr hc => exact ih _ ⟨_, _, _, hc, rfl, .inl ⟨rfl, rfl, rfl⟩⟩
      | client hc hd hs => exact ih _ ⟨_, _, _, hc, rfl, .inr ⟨rfl, .inl hs⟩⟩
      | server hr hc hs => exact ih _ ⟨_, _, _, hc, rfl, .inr ⟨rfl, .inr hs⟩⟩
      | stop hr hc => exact key l (.intro _ hl)
  exact key' _ hacc

theorem Pool.exists_final {P : Pool X} (h : Pool.Terminates S P) : ∃ Q, Pool.Reach S P Q ∧ Pool.Stuck S Q := by
  unfold Pool.Terminates at h
  induction h with
  | intro P _ ih =>
    by_cases hs : Pool.Stuck S P
    · exact ⟨P, .refl _, hs⟩
    · obtain ⟨Q, hQ⟩ := Classical.not_forall_not.1 hs
      obtain ⟨R, h1, h2⟩ := ih Q hQ
      refine ⟨R, ?_, h2⟩
      clear ih h2
      induction h1 with
      | refl => exact .step (.refl _) hQ
      | step _ hs ih => exact .step ih hs

/-- What holds of every configuration reached. -/
structure Pool.Inv (S : Link X) (xs : List X) (P : Pool X) : Prop where
  reach : ∀ (i : Nat) (c : Bool × X), P.conns[i]? = some c → ∃ x, xs[i]? = some x ∧ S.Reach x c.2
  stopped : P.running = false → ∀ c ∈ P.conns, c.1 = true ∧ S.doneC c.2
  len : P.conns.length = xs.length

theorem Pool.Inv.start (xs : List X) : Pool.Inv S xs (Pool.start xs) := by
  refine ⟨fun i c h => ?_, fun h => (by cases h), by simp [Pool.start]⟩
  simp only [Pool.start, List.getElem?_map, Option.map_eq_some_iff] at h
  obtain ⟨x, h1, rfl⟩ := h
  exact ⟨x, h1, .refl _⟩

theorem Pool.Inv.step {xs : List X} {P Q : Pool X} (h : Pool.Inv S xs P) (hs : Pool.Step S P Q) : Pool.Inv S xs Q := by
  have upd : ∀ {i : Nat} {b b' : Bool} {x y : X}, P.conns[i]? = some (b, x) → (y = x ∨ S.stepC x y ∨ S.stepS x y) →
      ∀ (j : Nat) (c : Bool × X), (P.conns.set i (b', y))[j]? = some c → ∃ x, xs[j]? = some x ∧ S.Reach x c.2 := by
    intro i b b' x y hi hy j c hj
    rcases (get_set hi).1 hj with ⟨rfl, rfl⟩ | ⟨-, hj⟩
    · obtain ⟨x0, h1, h2⟩ := h.reach _ _ hi
      refine ⟨x0, h1, ?_⟩
      rcases hy with rfl | hy
      · exact h2
      · exact .step h2 hy
    · exact h.reach _ _ hj
  cases hs with
  | connect hr hc => exact ⟨upd hc (.inl rfl), fun hr' => absurd (hr.symm.trans hr') (by decide), by simpa using h.len⟩
  | client hc hd hy =>
    refine ⟨upd hc (.inr (.inl hy)), fun hr' => ?_, by simpa using h.len⟩
    exact absurd (h.stopped hr' _ (List.mem_of_getElem? hc)).2 hd
  | server hr hc hy =>
    exact ⟨upd hc (.inr (.inr hy)), fun hr' => absurd (hr.symm.trans hr') (by decide), by simpa using h.len⟩
  | stop hr hc => exact ⟨h.reach, fun _ => hc, h.len⟩

theorem Pool.Reach.inv {xs : List X} {P : Pool X} (h : Pool.Reach S (Pool.start xs) P) : Pool.Inv S xs P := by
  generalize hP : Pool.start xs = P0 at h
  induction h with
  | refl => subst hP; exact .start xs
  | step _ hs ih => exact ih.step hs

/-- When nothing more can happen, every client has connected; either the server has stopped and all clients have returned, or
nothing can happen on any connection other than that a client that has returned goes on. -/
theorem Pool.Inv.final {xs : List X} {P : Pool X} (h : Pool.Inv S xs P) (hs : Pool.Stuck S P) {i : Nat} {c : Bool × X}
    (hc : P.conns[i]? = some c) : c.1 = true ∧
      (S.doneC c.2 ∨ (S.Stuck c.2 ∧ P.running = true)) ∧ (P.running = true → ∀ y, ¬ S.stepS c.2 y) := by
  obtain ⟨b, x⟩ := c
  have hb : b = true := by
    cases hr : P.running with
    | false => exact (h.stopped hr _ (List.mem_of_getElem? hc)).1
    | true =>
      cases b with
      | true => rfl
      | false => exact absurd (.connect hr hc) (hs _)
  subst hb
  refine ⟨rfl, ?_, fun hr y hy => hs _ (.server hr hc hy)⟩
  by_cases hd : S.doneC x
  · exact .inl hd
  · cases hr : P.running with
    | false => exact .inl (h.stopped hr _ (List.mem_of_getElem? hc)).2
    | true =>
      refine .inr ⟨fun y hy => ?_, rfl⟩
      rcases hy with hy | hy
      · exact hs _ (.client hc hd hy)
      · exact hs _ (.server hr hc hy)

end

namespace Spec

variable {α β : Type} {L : Lib} {ca cb : Clock}

theorem aioStep_iff {x y : AioNet Unit Unit Unit Unit α β} :
    AioNet.Step L ca cb x y ↔ (aioLink L ca cb).stepC x y ∨ (aioLink L ca cb).stepS x y := by
  constructor
  · intro h
    cases h with
    | aRun t h => exact .inl (.run h)
    | aFeed chunk h h' => exact .inl (.feed chunk h h')
    | aEof h h' => exact .inl (.eof h h')
    | bRun t h => exact .inr (.run (a := AioNet.b _) h)
    | bFeed chunk h h' => exact .inr (.feed (a := AioNet.b _) chunk h h')
    | bEof h h' => exact .inr (.eof (a := AioNet.b _) h h')
  · obtain ⟨a, b, ab, ba⟩ := x
    obtain ⟨a', b', ab', ba'⟩ := y
    rintro (h | h)
    · cases h with
      | run h => exact .aRun () h
      | feed chunk h h' => exact .aFeed chunk h h'
      | eof h h' => exact .aEof h h'
    · simp only [aioLink, AioNet.swap] at h
      cases h with
      | run h => exact .bRun () h
      | feed chunk h h' => exact .bFeed chunk h h'
      | eof h h' => exact .bEof h h'

end Spec

end Salt
