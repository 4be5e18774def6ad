import Verif.Lemmas.AioSim

/-!
# Every schedule of tasks on asyncio streams ends, and how
-/

set_option linter.unusedSimpArgs false
set_option linter.unusedSectionVars false

namespace Salt

open Spec Props

section
variable {ι κ σ τ α β : Type} [DecidableEq ι] [DecidableEq κ] {L : Lib} {ca cb c : Clock}

/-- A task that runs gets on, has ended, or starts to wait. -/
theorem aioBlock_height (t : ι) (p : IT (aio σ) α) (r : AioRt ι σ) :
    height (aioBlock L c t p r).1 < height p ∨ (∃ b, p = .ret b) ∨
      aioBlock L c t p r = (p, { r with waiter := some t, phase := Function.update r.phase t .pending }, []) := by
  induction p generalizing r with
  | ret b => exact .inr (.inl ⟨b, rfl⟩)
  | op e k ih =>
    have key : ∀ x r', height (aioBlock L c t (k x) r').1 < height (.op e k) := by
      intro x r'
      rcases ih x r' with h | ⟨b, h⟩ | h
      · exact h.trans (height_child e k x)
      · have h' := height_child e k x
        rw [h] at h' ⊢
        exact h'
      · rw [h]
        exact height_child e k x
    rcases e with e | e | _ | _
    · rcases e with _ | _ | e
      · exact .inl (key _ _)
      · exact .inl (key _ _)
      · exact .inl (key _ _)
    · cases e with
      | readexactly n =>
        cases ht : tryRead n r with
        | none =>
          right; right
          simp only [aioBlock, ht]
        | some x =>
          left
          simp only [aioBlock, ht]
          exact key _ _
      | write b => exact .inl (key _ _)
      | drain => exact .inl (height_child (S := aio σ) _ k _)
    · exact .inl (key _ _)
    · exact .inl (key _ _)

variable [Fintype ι] [Fintype κ]

/-- The number of tasks that do not wait. -/
def notPending (r : AioRt ι σ) : Nat := (Finset.univ.filter fun t => r.phase t ≠ .pending).card

theorem notPending_le (r : AioRt ι σ) : notPending r ≤ Fintype.card ι := Finset.card_le_univ _

theorem notPending_lt {r r' : AioRt ι σ} (t : ι) (h : r.phase t ≠ .pending) (h1 : r'.phase t = .pending)
    (h2 : ∀ u, u ≠ t → r'.phase u = r.phase u) : notPending r' < notPending r := by
  apply Finset.card_lt_card
  rw [Finset.ssubset_iff_of_subset]
  · exact ⟨t, by simpa using h, by simpa using h1⟩
  · intro u hu
    simp only [Finset.mem_filter, Finset.mem_univ, true_and] at hu ⊢
    by_cases hut : u = t
    · subst hut; exact h
    · rwa [← h2 u hut]

theorem resume_phase (r : AioRt ι σ) (t : ι) : (∀ u, u ≠ t → (r.resume t).phase u = r.phase u) ∧ (r.resume t).eof = r.eof := by
  unfold AioRt.resume
  split
  · exact ⟨fun u hu => by simp [Function.update_of_ne hu], rfl⟩
  · exact ⟨fun u _ => rfl, rfl⟩

/-- The heights of all tasks. -/
noncomputable def aioHeights (x : AioNet ι κ σ τ α β) : ι ⊕ κ → Ordinal.{0} :=
  Sum.elim (fun t => height (x.a.tasks t)) fun t => height (x.b.tasks t)

/-- What is left to be delivered, and who does not wait. -/
def aioSlack (x : AioNet ι κ σ τ α β) : Nat :=
  (x.ab.length + x.ba.length + (!x.a.rt.eof).toNat + (!x.b.rt.eof).toNat) * (Fintype.card ι + Fintype.card κ + 1) +
    (notPending x.a.rt + notPending x.b.rt)

theorem wake_eof (r : AioRt ι σ) : r.wake.eof = r.eof := by
  unfold AioRt.wake
  split <;> rfl

theorem slack_lt {x y : AioNet ι κ σ τ α β}
    (h : y.ab.length + y.ba.length + (!y.a.rt.eof).toNat + (!y.b.rt.eof).toNat <
      x.ab.length + x.ba.length + (!x.a.rt.eof).toNat + (!x.b.rt.eof).toNat) : aioSlack y < aioSlack x := by
  have h1 := notPending_le y.a.rt
  have h2 := notPending_le y.b.rt
  unfold aioSlack
  generalize y.ab.length + y.ba.length + (!y.a.rt.eof).toNat + (!y.b.rt.eof).toNat = p at *
  generalize x.ab.length + x.ba.length + (!x.a.rt.eof).toNat + (!x.b.rt.eof).toNat = q at *
  calc p * (Fintype.card ι + Fintype.card κ + 1) + (notPending y.a.rt + notPending y.b.rt)
      < p * (Fintype.card ι + Fintype.card κ + 1) + (Fintype.card ι + Fintype.card κ + 1) := by omega
    _ = (p + 1) * (Fintype.card ι + Fintype.card κ + 1) := (Nat.succ_mul _ _).symm
    _ ≤ q * (Fintype.card ι + Fintype.card κ + 1) := Nat.mul_le_mul_right _ h
    _ ≤ _ := Nat.le_add_right _ _

theorem aioHeights_a (x : AioNet ι κ σ τ α β) (t : ι) (U : IT (aio σ) α) (r : AioRt ι σ) (ab ba : Bytes)
    (h : height U < height (x.a.tasks t)) : aioHeights ⟨⟨Function.update x.a.tasks t U, r⟩, x.b, ab, ba⟩ < aioHeights x := by
  refine Pi.lt_def.2 ⟨?_, Sum.inl t, ?_⟩
  · rintro (u | u)
    · simp only [aioHeights, Sum.elim_inl]
      by_cases hu : u = t
      · subst hu; simpa using h.le
      · rw [Function.update_of_ne hu]
    · exact le_rfl
  · simpa only [aioHeights, Sum.elim_inl, Function.update_self] using h

theorem aioHeights_b (x : AioNet ι κ σ τ α β) (t : κ) (U : IT (aio τ) β) (r : AioRt κ τ) (ab ba : Bytes)
    (h : height U < height (x.b.tasks t)) : aioHeights ⟨x.a, ⟨Function.update x.b.tasks t U, r⟩, ab, ba⟩ < aioHeights x := by
  refine Pi.lt_def.2 ⟨?_, Sum.inr t, ?_⟩
  · rintro (u | u)
    · exact le_rfl
    · simp only [aioHeights, Sum.elim_inr]
      by_cases hu : u = t
      · subst hu; simpa using h.le
      · rw [Function.update_of_ne hu]
  · simpa only [aioHeights, Sum.elim_inr, Function.update_self] using h

/-- How a run of a task ends. -/
theorem run_cases (y : AioSide ι σ α) (t : ι) (hc : y.CanRun t) :
    (∃ U r out, y.run L c t = (⟨Function.update y.tasks t U, r⟩, out) ∧ height U < height (y.tasks t)) ∨
    ∃ r, y.run L c t = (⟨y.tasks, r⟩, []) ∧ r.eof = y.rt.eof ∧ notPending r < notPending y.rt := by
  rcases aioBlock_height (L := L) (c := c) t (y.tasks t) (y.rt.resume t) with h | ⟨b, h⟩ | h
  · exact .inl ⟨_, _, _, rfl, h⟩
  · exact absurd h (hc.1 b)
  · obtain ⟨h1, h2⟩ := resume_phase y.rt t
    refine .inr ⟨{ y.rt.resume t with waiter := some t, phase := Function.update (y.rt.resume t).phase t .pending },
      ?_, ?_, ?_⟩
    · simp only [AioSide.run, h, Function.update_eq_self]
    · exact h2
    · refine notPending_lt t hc.2 (by simp) fun u hu => ?_
      simp only [Function.update_of_ne hu]
      exact h1 u hu

theorem aio_step_decreases {x y : AioNet ι κ σ τ α β} (h : AioNet.Step L ca cb x y) :
    Prod.Lex (· < ·) (· < ·) (aioHeights y, aioSlack y) (aioHeights x, aioSlack x) := by
  cases h with
  | @aRun a b ab ba t hc =>
    rcases run_cases (L := L) (c := ca) a t hc with ⟨U, r, out, h1, h2⟩ | ⟨r, h1, h2, h3⟩
    · rw [h1]
      exact .left _ _ (aioHeights_a ⟨a, b, ab, ba⟩ t U r _ _ h2)
    · rw [h1]
      refine .right _ ?_
      simp only [aioSlack, List.append_nil, h2]
      omega
  | @bRun a b ab ba t hc =>
    rcases run_cases (L := L) (c := cb) b t hc with ⟨U, r, out, h1, h2⟩ | ⟨r, h1, h2, h3⟩
    · rw [h1]
      exact .left _ _ (aioHeights_b ⟨a, b, ab, ba⟩ t U r _ _ h2)
    · rw [h1]
      refine .right _ ?_
      simp only [aioSlack, List.append_nil, h2]
      omega
  | aFeed chunk hne hc =>
    refine .right _ (slack_lt ?_)
    have := List.length_pos_iff.2 hne
    simp only [AioSide.feed, wake_eof, List.length_append]
    omega
  | bFeed chunk hne hc =>
    refine .right _ (slack_lt ?_)
    have := List.length_pos_iff.2 hne
    simp only [AioSide.feed, wake_eof, List.length_append]
    omega
  | aEof he _ =>
    refine .right _ (slack_lt ?_)
    simp only [AioSide.feedEof, wake_eof, he, Bool.not_true, Bool.not_false, Bool.toNat_true, Bool.toNat_false]
    omega
  | bEof he _ =>
    refine .right _ (slack_lt ?_)
    simp only [AioSide.feedEof, wake_eof, he, Bool.not_true, Bool.not_false, Bool.toNat_true, Bool.toNat_false]
    omega

theorem aio_terminates (x : AioNet ι κ σ τ α β) : AioNet.Terminates L ca cb x := by
  have hwf : WellFounded (Prod.Lex (fun f g : ι ⊕ κ → Ordinal.{0} => f < g) (fun m n : Nat => m < n)) :=
    WellFounded.prod_lex wellFounded_lt wellFounded_lt
  refine Subrelation.accessible (r := InvImage (Prod.Lex (fun f g : ι ⊕ κ → Ordinal.{0} => f < g) (fun m n : Nat => m < n))
    fun x => (aioHeights x, aioSlack x)) ?_ ?_
  · intro y x h; exact aio_step_decreases h
  · exact (InvImage.wf _ hwf).apply x

theorem aio_final (x : AioNet ι κ σ τ α β) : ∃ y, AioNet.Reach L ca cb x y ∧ AioNet.Stuck L ca cb y := by
  have := aio_terminates (L := L) (ca := ca) (cb := cb) x
  induction this with
  | intro x _ ih =>
    by_cases h : AioNet.Stuck L ca cb x
    · exact ⟨x, .refl _, h⟩
    · simp only [AioNet.Stuck, not_forall, not_not] at h
      obtain ⟨y, hy⟩ := h
      obtain ⟨z, h1, h2⟩ := ih y hy
      refine ⟨z, ?_, h2⟩
      clear ih h2
      induction h1 with
      | refl => exact .step (.refl _) hy
      | step _ s ih => exact .step ih s

/-- When nothing more can happen on the streams, nothing more can happen in the network of messages. -/
theorem NetRel.stuck {X : TaskNet ι κ σ τ α β} {Y : AioNet ι κ σ τ α β} (h : NetRel X Y) (hsh : ShortNet L ca cb X)
    (hs : AioNet.Stuck L ca cb Y) : TaskNet.Stuck L ca cb X ∧
      (∀ t, AtRead (X.a.tasks t) → (∃ n k, Y.a.tasks t = .op (S := aio σ) (.stream (.readexactly n)) k) ∧
        Y.a.rt.phase t = .pending) ∧
      ∀ t, AtRead (X.b.tasks t) → (∃ n k, Y.b.tasks t = .op (S := aio τ) (.stream (.readexactly n)) k) ∧
        Y.b.rt.phase t = .pending := by
  obtain ⟨ha, hb⟩ := h
  obtain ⟨a, b, ab, ba⟩ := Y
  simp only at *
  have hba : ba = [] := by
    by_contra hne
    have := AioNet.Step.aFeed (L := L) (ca := ca) (cb := cb) (a := a) (b := b) (ab := ab) (ba := []) ba hne ha.closed
    rw [List.append_nil] at this
    exact hs _ this
  have hab : ab = [] := by
    by_contra hne
    have := AioNet.Step.bFeed (L := L) (ca := ca) (cb := cb) (a := a) (b := b) (ab := []) (ba := ba) ab hne hb.closed
    rw [List.append_nil] at this
    exact hs _ this
  subst hba hab
  obtain ⟨a1, a2, a3⟩ := ha.final hsh fun t hc => hs _ (.aRun t hc)
  obtain ⟨b1, b2, b3⟩ := SideRel.final (X := X.swap) (ca := cb) (cb := ca) hb hsh.swap fun t hc => hs _ (.bRun t hc)
  refine ⟨?_, a3, b3⟩
  intro Z hZ
  cases hZ with
  | aRun t hr => exact a1 t hr
  | bRun t hr => exact b1 t hr
  | aRecv t m k hk => exact absurd (a2 ⟨t, by rw [hk]; trivial⟩) (by simp)
  | @bRecv _ b' _ _ t m k hk =>
    have : AtRead (b'.tasks t) := by rw [hk]; trivial
    exact absurd (b2 ⟨t, this⟩) (by simp [TaskNet.swap])

theorem SideRel.ended {x : Loop ι σ α} {y : AioSide ι σ α} {msgs : List Bytes} {flight : Bytes} (h : SideRel x y msgs flight)
    {t : ι} {r : α} (hr : x.tasks t = .ret r) : y.tasks t = .ret r := by
  obtain ⟨pre, h1, -⟩ := h.ex
  have hp := (h1 t).noRead (by rw [hr]; trivial)
  rw [hp.1, hr]
  rfl

/-- Tasks that behave like directly connected ones when messages are exchanged do so on the streams. -/
theorem aio_like_direct {X : TaskNet ι κ σ τ α β} {pA : ι → IT appSig α} {pB : κ → IT appSig β}
    (hA : ∀ t t', t ≠ t' → NoRead (X.a.tasks t) ∨ NoRead (X.a.tasks t'))
    (hB : ∀ t t', t ≠ t' → NoRead (X.b.tasks t) ∨ NoRead (X.b.tasks t')) (hab : X.ab = []) (hba : X.ba = [])
    (hsh : ShortNet L ca cb X) (hX : LikeDirect L ca cb pA pB X) : AioLikeDirect L ca cb pA pB (onStreams X) := by
  have hrel : NetRel X (onStreams X) := by
    constructor
    · rw [hba]
      exact ⟨rfl, rfl, rfl, rfl, hA, ⟨fun _ => [], fun _ => .same _, [], rfl, .inl ⟨fun _ => rfl, rfl⟩⟩,
        fun t h => absurd rfl h, fun t h => (by cases h), fun t h => (by cases h)⟩
    · rw [hab]
      exact ⟨rfl, rfl, rfl, rfl, hB, ⟨fun _ => [], fun _ => .same _, [], rfl, .inl ⟨fun _ => rfl, rfl⟩⟩,
        fun t h => absurd rfl h, fun t h => (by cases h), fun t h => (by cases h)⟩
  refine ⟨aio_terminates _, aio_final _, fun Y hY => ?_⟩
  obtain ⟨X', h1, h2⟩ := hrel.reach hsh hY
  have hsh' := hsh.reach h1
  obtain ⟨y, h3, h4, h5, h6⟩ := hX.2.2 X' h1
  refine ⟨y, h3, fun t r hr => h4 t r (NetRel.result h2.a hsh' hr), fun t r hr => h5 t r (NetRel.result (X := X'.swap) h2.b hsh'.swap hr), fun hs => ?_⟩
  obtain ⟨e1, e2, e3⟩ := h2.stuck hsh' hs
  obtain ⟨f1, f2, f3⟩ := h6 e1
  refine ⟨f1, fun t => ?_, fun t => ?_⟩
  · have := f2 t
    generalize hp : y.a t = p at this
    generalize hT : X'.a.tasks t = T at this
    cases this with
    | ret x => exact .ret x (h2.a.ended hT)
    | wait k k' =>
      obtain ⟨⟨n, k1, g1⟩, g2⟩ := e2 t (by rw [hT]; trivial)
      exact .wait n k k1 g1 g2
  · have := f3 t
    generalize hp : y.b t = p at this
    generalize hT : X'.b.tasks t = T at this
    cases this with
    | ret x => exact .ret x (h2.b.ended hT)
    | wait k k' =>
      obtain ⟨⟨n, k1, g1⟩, g2⟩ := e3 t (by rw [hT]; trivial)
      exact .wait n k k1 g1 g2

end

end Salt
