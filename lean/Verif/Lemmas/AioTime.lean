import Verif.Spec.AioTime
import Verif.Lemmas.AioFinal
import Verif.Lemmas.Pool

/-!
# Coroutines in a process where all sessions have the same time objects: lemmas
-/

namespace Salt.Spec

open Salt

variable {ω α β ι σ : Type} [DecidableEq ι] {L : Lib} {T : TimeObj ω}

/-- Two clocks give the same answers to the calls from number `i` up to number `j`. -/
def SameFrom (i j : Nat) (c d : Clock) : Prop :=
  ∀ n, i ≤ n → n < j → c.first n = d.first n ∧ c.now n = d.now n ∧ c.report n = d.report n ∧ c.check n = d.check n

theorem SameFrom.mono {i j i' j' : Nat} {c d : Clock} (h : SameFrom i j c d) (hi : i ≤ i') (hj : j' ≤ j) : SameFrom i' j' c d :=
  fun n h1 h2 => h n (by omega) (by omega)

theorem answer_calls (L : Lib) (c : Clock) (e : EnvOp) (i : Nat) : i ≤ (answer L c e i).2 := by
  cases e <;> simp [answer]

theorem answer_same {c d : Clock} {e : EnvOp} {i : Nat} (h : SameFrom i (answer L c e i).2 c d) : answer L d e i = answer L c e i := by
  cases e with
  | firstTime => have := h i (Nat.le_refl _) (Nat.lt_succ_self _); simp [answer, this.1]
  | time => have := h i (Nat.le_refl _) (Nat.lt_succ_self _); simp [answer, this.2.1]
  | report t => have := h i (Nat.le_refl _) (Nat.lt_succ_self _); simp [answer, this.2.2.1]
  | check t => have := h i (Nat.le_refl _) (Nat.lt_succ_self _); simp [answer, this.2.2.2]
  | _ => rfl

omit [DecidableEq ι] in
theorem tryRead_calls {n : Int} {r r' : AioRt ι σ} {x} (h : tryRead n r = some (x, r')) : r'.calls = r.calls := by
  unfold tryRead at h
  split at h
  · cases h; rfl
  · split at h
    · cases h; rfl
    · split at h
      · cases h; rfl
      · split at h
        · cases h; rfl
        · cases h

theorem aioBlock_calls (L : Lib) (c : Clock) (t : ι) (p : IT (aio σ) β) (r : AioRt ι σ) :
    r.calls ≤ (aioBlock L c t p r).2.1.calls := by
  induction p generalizing r with
  | ret b => exact Nat.le_refl _
  | op e k ih =>
    match e with
    | .sh .get => exact ih _ _
    | .sh (.put s) => exact ih _ { r with st := s }
    | .sh (.env e) => exact Nat.le_trans (answer_calls L c e r.calls) (ih _ { r with calls := (answer L c e r.calls).2 })
    | .stream (.readexactly n) =>
      simp only [aioBlock]
      split
      · next x r' h => rw [← tryRead_calls h]; exact ih _ _
      · exact Nat.le_refl _
    | .stream (.write b) => exact ih _ _
    | .stream .drain => exact Nat.le_refl _
    | .atEof => exact ih _ _
    | .close => exact ih _ { r with closed := true }

/-- A task that runs calls the time objects with consecutive numbers. -/
theorem aioBlock_same {c d : Clock} (t : ι) (p : IT (aio σ) β) (r : AioRt ι σ)
    (h : SameFrom r.calls (aioBlock L c t p r).2.1.calls c d) : aioBlock L d t p r = aioBlock L c t p r := by
  induction p generalizing r with
  | ret b => rfl
  | op e k ih =>
    match e with
    | .sh .get => exact ih _ _ h
    | .sh (.put s) => exact ih _ { r with st := s } h
    | .sh (.env e) =>
      have h1 : answer L d e r.calls = answer L c e r.calls :=
        answer_same (h.mono (Nat.le_refl _) (aioBlock_calls L c t (k (answer L c e r.calls).1) { r with calls := (answer L c e r.calls).2 }))
      simp only [aioBlock, h1]
      exact ih _ { r with calls := (answer L c e r.calls).2 } (h.mono (answer_calls L c e r.calls) (Nat.le_refl _))
    | .stream (.readexactly n) =>
      simp only [aioBlock] at h ⊢
      split
      · next x r' hx =>
        rw [hx] at h
        exact ih _ _ (h.mono (by rw [tryRead_calls hx]) (Nat.le_refl _))
      · rfl
    | .stream (.write b) =>
      simp only [aioBlock] at h ⊢
      rw [ih _ _ h]
    | .stream .drain => rfl
    | .atEof => exact ih _ _ h
    | .close => exact ih _ { r with closed := true } h

theorem resume_calls (r : AioRt ι σ) (t : ι) : (r.resume t).calls = r.calls := by
  unfold AioRt.resume; split <;> rfl

theorem wake_calls (r : AioRt ι σ) : r.wake.calls = r.calls := by
  unfold AioRt.wake; split <;> rfl

/-- The numbers of calls of a side. -/
def AioSide.calls (x : AioSide ι σ α) : Nat := x.rt.calls

theorem run_calls (L : Lib) (c : Clock) (x : AioSide ι σ α) (t : ι) : x.calls ≤ (x.run L c t).1.calls := by
  have := aioBlock_calls L c t (x.tasks t) (x.rt.resume t)
  rw [resume_calls] at this
  exact this

theorem run_same {c d : Clock} (x : AioSide ι σ α) (t : ι) (h : SameFrom x.calls (x.run L c t).1.calls c d) :
    x.run L d t = x.run L c t := by
  have := aioBlock_same (L := L) (c := c) (d := d) t (x.tasks t) (x.rt.resume t) (by rw [resume_calls]; exact h)
  simp only [AioSide.run, this]

theorem stepA_calls {c : Clock} {x y : AioNet Unit Unit Unit Unit α β} (h : AioStepA L c x y) :
    x.a.calls ≤ y.a.calls ∧ y.b = x.b := by
  cases h with
  | run => exact ⟨run_calls L c _ (), rfl⟩
  | feed => exact ⟨by simp only [AioSide.calls, AioSide.feed, wake_calls]; exact Nat.le_refl _, rfl⟩
  | eof => exact ⟨by simp only [AioSide.calls, AioSide.feedEof, wake_calls]; exact Nat.le_refl _, rfl⟩

theorem stepA_same {c d : Clock} {x y : AioNet Unit Unit Unit Unit α β} (h : AioStepA L c x y)
    (hs : SameFrom x.a.calls y.a.calls c d) : AioStepA L d x y := by
  cases h with
  | @run a b ab ba hc =>
    rw [← run_same (L := L) (c := c) (d := d) a () hs]
    exact .run hc
  | feed chunk h1 h2 => exact .feed chunk h1 h2
  | eof h1 h2 => exact .eof h1 h2

/-- A run depends on the answers to the calls made in it only. -/
theorem aioLink_same {ca cb ca' cb' : Clock} {x y : AioNet Unit Unit Unit Unit α β} (h : (aioLink L ca cb).Reach x y)
    (ha : SameFrom 0 y.a.calls ca ca') (hb : SameFrom 0 y.b.calls cb cb') : (aioLink L ca' cb').Reach x y := by
  induction h with
  | refl => exact .refl _
  | step _ hs ih =>
    rcases hs with hs | hs
    · obtain ⟨h1, h2⟩ := stepA_calls hs
      refine .step (ih (ha.mono (Nat.le_refl _) h1) (h2 ▸ hb)) (.inl (stepA_same hs (ha.mono (Nat.zero_le _) (Nat.le_refl _))))
    · obtain ⟨h1, h2⟩ := stepA_calls hs
      have h2 : _ = _ := h2
      refine .step (ih (by simp only [AioNet.swap] at h2; exact h2 ▸ ha) (hb.mono (Nat.le_refl _) h1))
        (.inr (stepA_same hs (hb.mono (Nat.zero_le _) (Nat.le_refl _))))

/-- The clock `c` up to call number `i`, and `d` from then on. -/
def splice (i : Nat) (c d : Clock) : Clock where
  first n := if n < i then c.first n else d.first n
  now n := if n < i then c.now n else d.now n
  report n := if n < i then c.report n else d.report n
  check n := if n < i then c.check n else d.check n

theorem AnswersOf.splice {c d : Clock} (hc : AnswersOf T c) (hd : AnswersOf T d) (i : Nat) : AnswersOf T (splice i c d) := by
  refine ⟨fun n => ?_, fun n => ?_, fun n t => ?_, fun n t => ?_⟩ <;> simp only [Spec.splice] <;> by_cases h : n < i <;>
    simp only [h, if_true, if_false]
  · exact hc.first n
  · exact hd.first n
  · exact hc.now n
  · exact hd.now n
  · exact hc.report n t
  · exact hd.report n t
  · exact hc.check n t
  · exact hd.check n t

theorem splice_before (i : Nat) (c d : Clock) : SameFrom 0 i c (splice i c d) := by
  intro n _ h
  simp [splice, h]

theorem splice_after (i j : Nat) (c d : Clock) : SameFrom i j d (splice i c d) := by
  intro n h _
  simp [splice, Nat.not_lt.2 h]

/-- Every run with common time objects is one in which both sides have clocks of their own. -/
theorem aioTime_replay {c0 : Clock} (h0 : AnswersOf T c0) {x z : AioNet Unit Unit Unit Unit α β} (h : (aioTime L T).Reach x z) :
    ∃ ca cb, AnswersOf T ca ∧ AnswersOf T cb ∧ (aioLink L ca cb).Reach x z := by
  induction h with
  | refl => exact ⟨c0, c0, h0, h0, .refl _⟩
  | @step y z _ hs ih =>
    obtain ⟨ca, cb, ha, hb, hr⟩ := ih
    rcases hs with ⟨c, hc, hs⟩ | ⟨c, hc, hs⟩
    · refine ⟨splice y.a.calls ca c, cb, ha.splice hc _, hb, .step (aioLink_same hr (splice_before _ _ _) fun _ _ _ => ⟨rfl, rfl, rfl, rfl⟩) (.inl ?_)⟩
      exact stepA_same hs (splice_after _ _ _ _)
    · refine ⟨ca, splice y.b.calls cb c, ha, hb.splice hc _, .step (aioLink_same hr (fun _ _ _ => ⟨rfl, rfl, rfl, rfl⟩) (splice_before _ _ _)) (.inr ?_)⟩
      exact stepA_same hs (splice_after _ _ _ _)

theorem aioTime_stuck {ca cb : Clock} (ha : AnswersOf T ca) (hb : AnswersOf T cb) {z : AioNet Unit Unit Unit Unit α β}
    (h : (aioTime L T).Stuck z) : (aioLink L ca cb).Stuck z := by
  rintro y (hy | hy)
  · exact h y (.inl ⟨ca, ha, hy⟩)
  · exact h y (.inr ⟨cb, hb, hy⟩)

theorem aioTime_terminates (x : AioNet Unit Unit Unit Unit α β) : (aioTime L T).Terminates x := by
  have hwf : WellFounded (Prod.Lex (fun f g : Unit ⊕ Unit → Ordinal.{0} => f < g) (fun m n : Nat => m < n)) :=
    WellFounded.prod_lex wellFounded_lt wellFounded_lt
  refine Subrelation.accessible (r := InvImage (Prod.Lex (fun f g : Unit ⊕ Unit → Ordinal.{0} => f < g) (fun m n : Nat => m < n))
    fun x => (aioHeights x, aioSlack x)) ?_ ?_
  · rintro y x (⟨c, -, h⟩ | ⟨c, -, h⟩)
    · exact aio_step_decreases (L := L) (ca := c) (cb := c) (aioStep_iff.2 (.inl h))
    · exact aio_step_decreases (L := L) (ca := c) (cb := c) (aioStep_iff.2 (.inr h))
  · exact (InvImage.wf _ hwf).apply x

end Salt.Spec
