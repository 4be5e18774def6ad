import Verif.Model.Loops

/-!
# Using sessions in threads (C101)
-/

namespace Salt.Props

open Salt Salt.Loops

/-- A state of a process before any object was made: no loop is running, no two threads have the same
loop. -/
structure Fresh (p : Proc) : Prop where
  noObjs : p.objs = []
  notRun : ∀ t, p.inRun t = false
  idle : ∀ t, p.io.running t = none
  noRunner : ∀ l, p.io.runner l = none
  open_ : ∀ l, p.io.closed l = false
  known : ∀ t l, p.io.current t = some l → l < p.io.made
  own : ∀ t t' l, p.io.current t = some l → p.io.current t' = some l → t = t'

/-- The discipline: no `loop=` argument other than the loop of the thread, and every object is called in
the thread that made it. -/
def Own (p : Proc) : Act → Prop
  | .make t _ loop => loop = none ∨ loop = p.io.current t
  | .call t o => ∃ ob, p.objs[o]? = some ob ∧ ob.by_ = t
  | _ => True

/-- The states of a process whose threads do any actions that satisfy `P`. -/
inductive Reach (P : Proc → Act → Prop) : Proc → Prop
  | fresh {p} : Fresh p → Reach P p
  | step {p} (a : Act) : Reach P p → P p a → Reach P (step a p).2

/-- Every loop belongs to the thread that made it. -/
structure Inv (owner : LoopId → Thread) (p : Proc) : Prop where
  current : ∀ t l, p.io.current t = some l → owner l = t ∧ l < p.io.made
  running : ∀ t l, p.io.running t = some l → owner l = t ∧ l < p.io.made
  runner : ∀ l t, p.io.runner l = some t → p.io.running t = some l
  objs : ∀ ob ∈ p.objs, owner ob.loop = ob.by_ ∧ ob.loop < p.io.made ∧
    (p.io.closed ob.loop = true → ob.inRun = true)
  closed : ∀ l, p.io.closed l = true → l < p.io.made ∧ (∀ t, p.io.current t ≠ some l) ∧
    (∀ t, p.io.running t ≠ some l)
  run : ∀ t, p.inRun t = true → ∃ l, p.io.running t = some l ∧ (∀ ob ∈ p.objs, ob.loop = l → ob.inRun = true) ∧
    p.io.current t = some l

theorem put_eq {α : Type} (f : Nat → α) (i : Nat) (a : α) : put f i a i = a := by simp [put]

theorem put_ne {α : Type} (f : Nat → α) {i j : Nat} (a : α) (h : j ≠ i) : put f i a j = f j := by simp [put, h]

/-- What a constructor can do. -/
theorem construct_cases (k : Kind) (t : Thread) (loop : Option LoopId) (s : Asyncio)
    (hl : loop = none ∨ loop = s.current t) :
    (∃ l, construct k t loop s = (.ok l, s) ∧ (s.running t = some l ∨ s.current t = some l)) ∨
    (construct k t loop s = (.ok s.made, setNewLoop t s) ∧ s.running t = none ∧ s.current t = none) ∨
    ((k = .client ∨ k = .a1) ∧ construct k t loop s = (.error .runtimeError, s) ∧ s.running t = none ∧
      s.current t = none ∧ (s.setCalled t = true ∨ t ≠ 0)) := by
  have key : (∃ l, orGetEventLoop t loop s = (.ok l, s) ∧ (s.running t = some l ∨ s.current t = some l)) ∨
      (orGetEventLoop t loop s = (.ok s.made, setNewLoop t s) ∧ s.running t = none ∧ s.current t = none) ∨
      (orGetEventLoop t loop s = (.error .runtimeError, s) ∧ s.running t = none ∧ s.current t = none ∧
        (s.setCalled t = true ∨ t ≠ 0)) := by
    cases loop with
    | some l =>
      rcases hl with hl | hl
      · cases hl
      · exact .inl ⟨l, rfl, .inr hl.symm⟩
    | none =>
      simp only [orGetEventLoop, getEventLoop]
      cases hr : s.running t with
      | some l => exact .inl ⟨l, rfl, .inl rfl⟩
      | none =>
        cases hc : s.current t with
        | some l => exact .inl ⟨l, by simp [hc], .inr rfl⟩
        | none =>
          by_cases h0 : s.setCalled t = false ∧ t = 0
          · refine .inr (.inl ⟨?_, rfl, rfl⟩)
            have : (setNewLoop t s).current t = some s.made := put_eq ..
            rw [if_pos ⟨rfl, h0⟩, this]
          · refine .inr (.inr ⟨?_, rfl, rfl, ?_⟩)
            · simp [h0, hc]
            · cases hs : s.setCalled t
              · exact .inr fun h => h0 ⟨hs, h⟩
              · exact .inl rfl
  have force : (∃ l, forceEventLoop t loop s = (.ok l, s) ∧ (s.running t = some l ∨ s.current t = some l)) ∨
      (forceEventLoop t loop s = (.ok s.made, setNewLoop t s) ∧ s.running t = none ∧ s.current t = none) := by
    rcases key with ⟨l, h, h'⟩ | ⟨h, h'⟩ | ⟨h, h1, h2, -⟩
    · exact .inl ⟨l, by rw [forceEventLoop, h], h'⟩
    · exact .inr ⟨by rw [forceEventLoop, h], h'⟩
    · exact .inr ⟨by rw [forceEventLoop, h], h1, h2⟩
  cases k with
  | server => exact force.elim .inl fun h => .inr (.inl h)
  | channel => exact force.elim .inl fun h => .inr (.inl h)
  | client => exact key.elim .inl fun h => h.elim (fun h => .inr (.inl h)) fun h => .inr (.inr ⟨.inl rfl, h⟩)
  | a1 => exact key.elim .inl fun h => h.elim (fun h => .inr (.inl h)) fun h => .inr (.inr ⟨.inr rfl, h⟩)

theorem Fresh.inv {p : Proc} (h : Fresh p) : ∃ owner, Inv owner p := by
  classical
  refine ⟨fun l => if h : ∃ t, p.io.current t = some l then h.choose else 0, ?_⟩
  refine ⟨fun t l hc => ⟨?_, h.known t l hc⟩, fun t l hr => ?_, fun l t hr => ?_, ?_, fun l hc => ?_, fun t ht => ?_⟩
  · have hex : ∃ t, p.io.current t = some l := ⟨t, hc⟩
    simp only [hex, dif_pos]
    exact h.own _ _ l hex.choose_spec hc
  · rw [h.idle] at hr; cases hr
  · rw [h.noRunner] at hr; cases hr
  · rw [h.noObjs]; simp
  · rw [h.open_] at hc; cases hc
  · rw [h.notRun] at ht; cases ht

/-- A new loop. -/
theorem Inv.new {owner : LoopId → Thread} {p : Proc} (h : Inv owner p) (t : Thread) (hr : p.io.running t = none) :
    Inv (put owner p.io.made t) { p with io := setNewLoop t p.io } := by
  have old : ∀ l, l < p.io.made → put owner p.io.made t l = owner l := fun l hl => put_ne _ _ (by omega)
  refine ⟨fun t' l hc => ?_, fun t' l hc => ?_, h.runner, fun ob hob => ?_, fun l hc => ?_, fun t' ht => ?_⟩
  · by_cases ht : t' = t
    · subst ht
      have hc := (show (setNewLoop t' p.io).current t' = some p.io.made from put_eq ..).symm.trans hc
      cases hc
      exact ⟨put_eq .., Nat.lt_succ_self _⟩
    · have hc := (show (setNewLoop t p.io).current t' = p.io.current t' from put_ne _ _ ht).symm.trans hc
      obtain ⟨h1, h2⟩ := h.current t' l hc
      exact ⟨(old l h2).trans h1, Nat.lt_succ_of_lt h2⟩
  · obtain ⟨h1, h2⟩ := h.running t' l hc
    exact ⟨(old l h2).trans h1, Nat.lt_succ_of_lt h2⟩
  · obtain ⟨h1, h2, h3⟩ := h.objs ob hob
    exact ⟨(old _ h2).trans h1, Nat.lt_succ_of_lt h2, h3⟩
  · obtain ⟨h1, h2, h3⟩ := h.closed l hc
    refine ⟨Nat.lt_succ_of_lt h1, fun t' hc' => ?_, h3⟩
    by_cases ht : t' = t
    · subst ht
      have hc' := (show (setNewLoop t' p.io).current t' = some p.io.made from put_eq ..).symm.trans hc'
      cases hc'; exact Nat.lt_irrefl _ h1
    · have hc' := (show (setNewLoop t p.io).current t' = p.io.current t' from put_ne _ _ ht).symm.trans hc'
      exact h2 t' hc'
  · obtain ⟨l, h1, h2, h3⟩ := h.run t' ht
    refine ⟨l, h1, h2, ?_⟩
    have : t' ≠ t := fun e => by rw [e, hr] at h1; cases h1
    exact (put_ne _ _ this).trans h3

/-- A new object with a loop of its thread. -/
theorem Inv.obj {owner : LoopId → Thread} {p : Proc} (h : Inv owner p) (t : Thread) (l : LoopId)
    (hl : p.io.running t = some l ∨ p.io.current t = some l) :
    Inv owner { p with objs := p.objs ++ [⟨t, p.inRun t, l⟩] } := by
  have hlo : owner l = t ∧ l < p.io.made := by
    rcases hl with hl | hl
    · exact h.running t l hl
    · exact h.current t l hl
  refine ⟨h.current, h.running, h.runner, fun ob hob => ?_, h.closed, fun t' ht => ?_⟩
  · rcases List.mem_append.1 hob with hob | hob
    · exact h.objs ob hob
    · rw [List.mem_singleton.1 hob]
      refine ⟨hlo.1, hlo.2, fun hc => ?_⟩
      obtain ⟨-, h2, h3⟩ := h.closed l hc
      rcases hl with hl | hl
      · exact absurd hl (h3 t)
      · exact absurd hl (h2 t)
  · obtain ⟨l', h1, h2, h3⟩ := h.run t' ht
    refine ⟨l', h1, fun ob hob hl' => ?_, h3⟩
    rcases List.mem_append.1 hob with hob | hob
    · exact h2 ob hob hl'
    · rw [List.mem_singleton.1 hob] at hl' ⊢
      have hl'' : l = l' := hl'
      have : t' = t := by rw [← (h.running t' l' h1).1, ← hl'', hlo.1]
      rw [← this]; exact ht

/-- Entering an idle loop of the thread. -/
theorem Inv.enter {owner : LoopId → Thread} {p : Proc} (h : Inv owner p) (t : Thread) (l : LoopId)
    (ho : owner l = t) (hm : l < p.io.made) (hr : p.io.running t = none) (hc : p.io.closed l = false) :
    Inv owner { p with io := { p.io with running := put p.io.running t (some l), runner := put p.io.runner l (some t) } } := by
  refine ⟨h.current, fun t' l' h' => ?_, fun l' t' h' => ?_, h.objs, fun l' h' => ?_, fun t' h' => ?_⟩
  · by_cases ht : t' = t
    · subst ht
      have h' := (show put p.io.running t' (some l) t' = some l from put_eq ..).symm.trans h'
      cases h'; exact ⟨ho, hm⟩
    · have h' := (show put p.io.running t (some l) t' = p.io.running t' from put_ne _ _ ht).symm.trans h'
      exact h.running t' l' h'
  · by_cases hl : l' = l
    · subst hl
      have h' := (show put p.io.runner l' (some t) l' = some t from put_eq ..).symm.trans h'
      cases h'; exact put_eq ..
    · have h' := (show put p.io.runner l (some t) l' = p.io.runner l' from put_ne _ _ hl).symm.trans h'
      have := h.runner l' t' h'
      have ht : t' ≠ t := fun e => by rw [e, hr] at this; cases this
      exact (put_ne _ _ ht).trans this
  · obtain ⟨h1, h2, h3⟩ := h.closed l' h'
    refine ⟨h1, h2, fun t' hx => ?_⟩
    by_cases ht : t' = t
    · subst ht
      have hx := (show put p.io.running t' (some l) t' = some l from put_eq ..).symm.trans hx
      cases hx
      exact absurd (show p.io.closed l = true from h') (by rw [hc]; simp)
    · have hx := (show put p.io.running t (some l) t' = p.io.running t' from put_ne _ _ ht).symm.trans hx
      exact h3 t' hx
  · obtain ⟨l', h1, h2, h3⟩ := h.run t' h'
    have ht : t' ≠ t := fun e => by rw [e, hr] at h1; cases h1
    exact ⟨l', (put_ne _ _ ht).trans h1, h2, h3⟩

/-- Leaving the loop that runs in the thread. -/
theorem Inv.leave {owner : LoopId → Thread} {p : Proc} (h : Inv owner p) (t : Thread) (hn : p.inRun t = false) :
    Inv owner { p with io := Loops.leave t p.io } := by
  unfold Loops.leave
  cases hr : p.io.running t with
  | none => exact h
  | some l =>
    dsimp only
    have sub : ∀ t' l', put p.io.running t none t' = some l' → t' ≠ t ∧ p.io.running t' = some l' := by
      intro t' l' h'
      by_cases ht : t' = t
      · subst ht; rw [put_eq] at h'; cases h'
      · rw [put_ne _ _ ht] at h'; exact ⟨ht, h'⟩
    refine ⟨h.current, fun t' l' h' => h.running t' l' (sub t' l' h').2, fun l' t' h' => ?_, h.objs,
      fun l' h' => ?_, fun t' h' => ?_⟩
    · by_cases hl : l' = l
      · subst hl
        have h' := (show put p.io.runner l' none l' = none from put_eq ..).symm.trans h'; cases h'
      · have h' := (show put p.io.runner l none l' = p.io.runner l' from put_ne _ _ hl).symm.trans h'
        have := h.runner l' t' h'
        have ht : t' ≠ t := fun e => by rw [e, hr] at this; exact hl (Option.some.inj this).symm
        exact (put_ne _ _ ht).trans this
    · obtain ⟨h1, h2, h3⟩ := h.closed l' h'
      exact ⟨h1, h2, fun t' hx => h3 t' (sub t' l' hx).2⟩
    · obtain ⟨l', h1, h2, h3⟩ := h.run t' h'
      have ht : t' ≠ t := fun e => by
        have h'' : p.inRun t' = true := h'
        rw [e, hn] at h''; cases h''
      exact ⟨l', (put_ne _ _ ht).trans h1, h2, h3⟩

theorem Inv.step {owner : LoopId → Thread} {p : Proc} (h : Inv owner p) (a : Act) (ha : Own p a) :
    ∃ owner', Inv owner' (step a p).2 := by
  cases a with
  | make t k loop =>
    rcases construct_cases k t loop p.io ha with ⟨l, hc, hl⟩ | ⟨hc, hr, -⟩ | ⟨-, hc, -⟩
    · simp only [Loops.step, hc]; exact ⟨owner, h.obj t l hl⟩
    · simp only [Loops.step, hc]
      exact ⟨_, (h.new t hr).obj t p.io.made (.inr (put_eq ..))⟩
    · simp only [Loops.step, hc]; exact ⟨owner, h⟩
  | call t o =>
    obtain ⟨ob, ho, ht⟩ := ha
    obtain ⟨h1, h2, -⟩ := h.objs ob (List.mem_of_getElem? ho)
    simp only [Loops.step, ho, Loops.enter]
    split
    · exact ⟨owner, h⟩
    · rename_i hn
      simp only [not_or, ne_eq, Decidable.not_not] at hn
      refine ⟨owner, h.enter t ob.loop (h1.trans ht) h2 hn.2.2 ?_⟩
      simpa using hn.1
  | ret t =>
    simp only [Loops.step]
    split
    · exact ⟨owner, h⟩
    · rename_i hn
      exact ⟨owner, h.leave t (by simpa using hn)⟩
  | run t =>
    simp only [Loops.step]
    split
    · exact ⟨owner, h⟩
    · rename_i hn
      have hr : p.io.running t = none := by simpa using hn
      have hnew := h.new t hr
      have hclosed : p.io.closed p.io.made = false := by
        cases hx : p.io.closed p.io.made
        · rfl
        · exact absurd (h.closed _ hx).1 (Nat.lt_irrefl _)
      have hrunner : p.io.runner p.io.made = none := by
        cases hx : p.io.runner p.io.made with
        | none => rfl
        | some t' => exact absurd (h.running t' _ (h.runner _ _ hx)).2 (Nat.lt_irrefl _)
      have hent := hnew.enter t p.io.made (put_eq ..) (Nat.lt_succ_self _) hr hclosed
      simp only [Loops.enter]
      rw [if_neg (by
        simp only [not_or, ne_eq, Decidable.not_not]
        exact ⟨by rw [show (setNewLoop t p.io).closed p.io.made = p.io.closed p.io.made from rfl, hclosed]; simp,
          hrunner, hr⟩)]
      refine ⟨_, hent.current, hent.running, hent.runner, hent.objs, hent.closed, fun t' ht' => ?_⟩
      by_cases he : t' = t
      · subst he
        refine ⟨p.io.made, put_eq .., fun ob hob hl => ?_, put_eq ..⟩
        have := (h.objs ob hob).2.1
        rw [hl] at this
        exact absurd this (Nat.lt_irrefl _)
      · have : p.inRun t' = true := by
          have ht' := (show put p.inRun t true t' = p.inRun t' from put_ne _ _ he).symm.trans ht'; exact ht'
        exact hent.run t' this
  | runEnd t =>
    simp only [Loops.step]
    split
    · exact ⟨owner, h⟩
    · rename_i hn
      have hin : p.inRun t = true := by simpa using hn
      obtain ⟨l, h1, h2, h3⟩ := h.run t hin
      rw [h1]
      dsimp only
      have hleave : Loops.leave t p.io = { p.io with running := put p.io.running t none, runner := put p.io.runner l none } := by
        rw [Loops.leave, h1]
      rw [hleave]
      have own := h.running t l h1
      have sub : ∀ t' l', put p.io.running t none t' = some l' → t' ≠ t ∧ p.io.running t' = some l' := by
        intro t' l' h'
        by_cases ht : t' = t
        · subst ht; rw [put_eq] at h'; cases h'
        · rw [put_ne _ _ ht] at h'; exact ⟨ht, h'⟩
      have subc : ∀ t' l', put p.io.current t none t' = some l' → t' ≠ t ∧ p.io.current t' = some l' := by
        intro t' l' h'
        by_cases ht : t' = t
        · subst ht; rw [put_eq] at h'; cases h'
        · rw [put_ne _ _ ht] at h'; exact ⟨ht, h'⟩
      refine ⟨owner, fun t' l' h' => h.current t' l' (subc t' l' h').2, fun t' l' h' => h.running t' l' (sub t' l' h').2,
        fun l' t' h' => ?_, fun ob hob => ?_, fun l' h' => ?_, fun t' h' => ?_⟩
      · by_cases hl : l' = l
        · subst hl
          have h' := (show put p.io.runner l' none l' = none from put_eq ..).symm.trans h'; cases h'
        · have h' := (show put p.io.runner l none l' = p.io.runner l' from put_ne _ _ hl).symm.trans h'
          have := h.runner l' t' h'
          have ht : t' ≠ t := fun e => by rw [e, h1] at this; exact hl (Option.some.inj this).symm
          exact (put_ne _ _ ht).trans this
      · obtain ⟨g1, g2, g3⟩ := h.objs ob hob
        refine ⟨g1, g2, fun hc => ?_⟩
        by_cases hl : ob.loop = l
        · exact h2 ob hob hl
        · exact g3 ((put_ne _ _ hl).symm.trans hc)
      · by_cases hl : l' = l
        · subst hl
          refine ⟨own.2, fun t' hx => ?_, fun t' hx => ?_⟩
          · obtain ⟨g1, g2⟩ := subc t' l' hx
            exact g1 ((h.current t' l' g2).1.symm.trans own.1)
          · obtain ⟨g1, g2⟩ := sub t' l' hx
            exact g1 ((h.running t' l' g2).1.symm.trans own.1)
        · obtain ⟨g1, g2, g3⟩ := h.closed l' ((put_ne _ _ hl).symm.trans h')
          exact ⟨g1, fun t' hx => g2 t' (subc t' l' hx).2, fun t' hx => g3 t' (sub t' l' hx).2⟩
      · by_cases he : t' = t
        · subst he
          have h' := (show put p.inRun t' false t' = false from put_eq ..).symm.trans h'; cases h'
        · have h' := (show put p.inRun t false t' = p.inRun t' from put_ne _ _ he).symm.trans h'
          obtain ⟨l', g1, g2, g3⟩ := h.run t' h'
          exact ⟨l', (put_ne _ _ he).trans g1, g2, (put_ne _ _ he).trans g3⟩

theorem Reach.inv {p : Proc} (h : Reach Own p) : ∃ owner, Inv owner p := by
  induction h with
  | fresh h => exact h.inv
  | step a _ ha ih =>
    obtain ⟨owner, h⟩ := ih
    exact h.step a ha

/-- C101, what holds: as long as every object is used in the thread that made it and gets no other loop
by its constructor, all servers, channels and, in a thread with an event loop, clients can be made at any
time, and every `_sync` call that is not made by a coroutine can run, if the object was not made inside of
`asyncio.run`. -/
theorem C101_threads_partial {p : Proc} (h : Reach Own p) :
    (∀ t k, k = .server ∨ k = .channel → (step (.make t k none) p).1 = .ok ()) ∧
    (∀ t k l, p.io.current t = some l → (step (.make t k none) p).1 = .ok ()) ∧
    (∀ o ob, p.objs[o]? = some ob → ob.inRun = false → p.io.running ob.by_ = none →
      (step (.call ob.by_ o) p).1 = .ok ()) := by
  obtain ⟨owner, hi⟩ := h.inv
  refine ⟨fun t k hk => ?_, fun t k l hc => ?_, fun o ob ho hin hr => ?_⟩
  · rcases construct_cases k t none p.io (.inl rfl) with ⟨l, hc, -⟩ | ⟨hc, -⟩ | ⟨hk', -⟩
    · simp [Loops.step, hc]
    · simp [Loops.step, hc]
    · rcases hk with rfl | rfl <;> simp at hk'
  · rcases construct_cases k t none p.io (.inl rfl) with ⟨l, hc', -⟩ | ⟨-, -, hc'⟩ | ⟨-, -, -, hc', -⟩
    · simp [Loops.step, hc']
    · rw [hc] at hc'; cases hc'
    · rw [hc] at hc'; cases hc'
  · obtain ⟨h1, h2, h3⟩ := hi.objs ob (List.mem_of_getElem? ho)
    simp only [Loops.step, ho, Loops.enter]
    rw [if_neg]
    simp only [not_or, ne_eq, Decidable.not_not]
    refine ⟨fun hc => ?_, ?_, hr⟩
    · rw [h3 hc] at hin; cases hin
    · cases hx : p.io.runner ob.loop with
      | none => rfl
      | some t' =>
        have := hi.runner _ _ hx
        have ht : t' = ob.by_ := (hi.running _ _ this).1.symm.trans h1
        rw [ht, hr] at this; cases this

/-- **C101.** A call that could begin leaves everything as it was when it ends; so it can be made again. -/
theorem C101_again {p : Proc} {t : Thread} {o : Nat} (hi : p.inRun t = false) (h : (step (.call t o) p).1 = .ok ()) :
    (step (.ret t) (step (.call t o) p).2).2 = p := by
  cases ho : p.objs[o]? with
  | none => simp [step, ho] at h
  | some ob =>
    simp only [step, ho, enter] at h ⊢
    split at h
    · cases h
    · rename_i hn
      rw [if_neg hn, if_neg (by simp [hi])]
      have h1 : p.io.runner ob.loop = none := Decidable.byContradiction fun h => hn (.inr (.inl h))
      have h2 : p.io.running t = none := Decidable.byContradiction fun h => hn (.inr (.inr h))
      have key : ∀ {α : Type} (f : Nat → α) (i : Nat) (a b : α), f i = b → put (put f i a) i b = f := by
        intro α f i a b hf
        funext j
        by_cases hj : j = i
        · simp [put, hj, hf]
        · simp [put, hj]
      have h3 : put p.io.running t (some ob.loop) t = some ob.loop := by simp [put]
      simp only [leave, h3, key _ _ _ _ h1, key _ _ _ _ h2]

/-- **C101.** `asyncio.run` can be called in a thread whenever no loop is running there; inside of a coroutine or a `_sync` call it
raises RuntimeError and changes nothing. -/
theorem C101_run {p : Proc} (h : Reach Own p) (t : Thread) :
    (p.io.running t = none → (step (.run t) p).1 = .ok () ∧ (step (.run t) p).2.inRun t = true) ∧
    (p.io.running t ≠ none → step (.run t) p = (.error .runtimeError, p)) := by
  obtain ⟨owner, hi⟩ := h.inv
  refine ⟨fun hr => ?_, fun hr => by simp [Loops.step, hr]⟩
  have hclosed : p.io.closed p.io.made = false := by
    cases hx : p.io.closed p.io.made
    · rfl
    · exact absurd (hi.closed _ hx).1 (Nat.lt_irrefl _)
  have hrunner : p.io.runner p.io.made = none := by
    cases hx : p.io.runner p.io.made with
    | none => rfl
    | some t' => exact absurd (hi.running t' _ (hi.runner _ _ hx)).2 (Nat.lt_irrefl _)
  have hent : (Loops.enter t p.io.made (setNewLoop t p.io)).1 = .ok () := by
    simp only [Loops.enter]
    rw [if_neg (by
      simp only [not_or, ne_eq, Decidable.not_not]
      exact ⟨by rw [show (setNewLoop t p.io).closed p.io.made = p.io.closed p.io.made from rfl, hclosed]; simp,
        hrunner, hr⟩)]
  simp only [Loops.step, hr, ne_eq, not_true_eq_false, if_false]
  exact ⟨hent, put_eq ..⟩

/-- A process that has just started. -/
def started : Proc := ⟨⟨0, fun _ => none, fun _ => false, fun _ => none, fun _ => none, fun _ => false⟩, [], fun _ => false⟩

theorem started_fresh : Fresh started :=
  ⟨rfl, fun _ => rfl, fun _ => rfl, fun _ => rfl, fun _ => rfl, fun _ _ h => (by cases h), fun _ _ _ h => (by cases h)⟩

/-- The outcomes of actions, one after the other. -/
def outcomes : List Act → Proc → List (Except Err Unit)
  | [], _ => []
  | a :: as, p => (step a p).1 :: outcomes as (step a p).2

/-- C101 fails, first: a client session, or an A1 client, in a thread without an event loop cannot be
made, as in any thread but the main one, and there as well after `asyncio.run`. -/
theorem C101_client (p : Proc) (t : Thread) (k : Kind) (hk : k = .client ∨ k = .a1) (hr : p.io.running t = none)
    (hc : p.io.current t = none) (hs : p.io.setCalled t = true ∨ t ≠ 0) :
    (step (.make t k none) p).1 = .error .runtimeError := by
  have : construct k t none p.io = (.error .runtimeError, p.io) := by
    have hg : getEventLoop t p.io = (.error .runtimeError, p.io) := by
      have hcond : ¬ (p.io.current t = none ∧ p.io.setCalled t = false ∧ t = 0) := by
        rintro ⟨-, h1, h2⟩
        rcases hs with h | h
        · rw [h1] at h; cases h
        · exact h h2
      simp only [getEventLoop, hr]
      rw [if_neg hcond, hc]
    rcases hk with rfl | rfl <;> exact hg
  simp [Loops.step, this]

/-- C101 fails, second: while a thread is in a call, calls of other threads on objects with the same loop,
for instance on any two sessions made by one thread, raise RuntimeError and change nothing. -/
theorem C101_shared (p : Proc) (t t' : Thread) (o : Nat) (ob : Obj) (ho : p.objs[o]? = some ob)
    (hr : p.io.runner ob.loop = some t') : step (.call t o) p = (.error .runtimeError, p) := by
  simp [Loops.step, ho, Loops.enter, hr]

/-- C101 fails, third: a `_sync` call in a coroutine raises RuntimeError and changes nothing. -/
theorem C101_coroutine (p : Proc) (t : Thread) (l : LoopId) (o : Nat) (ob : Obj) (ho : p.objs[o]? = some ob)
    (hr : p.io.running t = some l) : step (.call t o) p = (.error .runtimeError, p) := by
  simp [Loops.step, ho, Loops.enter, hr]

/-- C101 as stated is false: a client made in thread 1; two servers made in the main thread and used in
two threads at the same time; a client made in the main thread after `asyncio.run`; a channel made inside
of `asyncio.run` and used after it. -/
theorem C101_violated :
    outcomes [.make 1 .client none] started = [.error .runtimeError] ∧
    outcomes [.make 0 .server none, .make 0 .server none, .call 1 0, .call 2 1] started =
      [.ok (), .ok (), .ok (), .error .runtimeError] ∧
    outcomes [.run 0, .runEnd 0, .make 0 .client none] started = [.ok (), .ok (), .error .runtimeError] ∧
    outcomes [.run 0, .make 0 .channel none, .runEnd 0, .call 0 0] started =
      [.ok (), .ok (), .ok (), .error .runtimeError] := by
  decide

/-- Two threads with a server and a client each, calls at the same time. -/
example : ∃ p, Reach Own p ∧ p.io.running 1 = some 1 ∧ p.io.running 2 = none ∧
    p.objs = [⟨0, false, 0⟩, ⟨1, false, 1⟩, ⟨1, false, 1⟩, ⟨2, false, 2⟩] := by
  have h0 := Reach.fresh (P := Own) started_fresh
  have h1 := h0.step (.make 0 .client none) (.inl rfl)
  have h2 := h1.step (.make 1 .server none) (.inl rfl)
  have h3 := h2.step (.make 1 .client none) (.inl rfl)
  have h4 := h3.step (.make 2 .channel none) (.inl rfl)
  have h5 := h4.step (.call 1 2) ⟨⟨1, false, 1⟩, rfl, rfl⟩
  exact ⟨_, h5, rfl, rfl, rfl⟩

end Salt.Props
