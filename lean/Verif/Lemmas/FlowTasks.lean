import Verif.Lemmas.Flow
import Verif.Lemmas.AioPlain
import Verif.Props.AioSession

/-!
# Tasks on asyncio streams with flow control

A task that never writes never waits in `drain()`; if on each side such a task reads everything, the tasks that write are
never held up for ever.
-/

set_option linter.unusedSimpArgs false
set_option linter.unusedSectionVars false

namespace Salt

open Spec Props

section
variable {ι κ σ τ α β : Type} [DecidableEq ι] [DecidableEq κ] {l : Limits} {L : Lib} {ca cb c : Clock}

/-! ### Coroutines that never write -/

/-- The coroutine never writes messages. -/
def NoWrite : IT (sh σ) α → Prop
  | .ret _ => True
  | .op (.env (.write _ _)) _ => False
  | .op _ k => ∀ r, NoWrite (k r)

/-- The coroutine never gets to a `drain()`. -/
def NoDrain : IT (aio σ) α → Prop
  | .ret _ => True
  | .op (.stream .drain) _ => False
  | .op _ k => ∀ r, NoDrain (k r)

theorem NoDrain.bind {γ : Type} {t : IT (aio σ) γ} {f : γ → IT (aio σ) α} (h : NoDrain t) (h' : ∀ a, NoDrain (f a)) :
    NoDrain (t.bind f) := by
  induction t with
  | ret a => exact h' a
  | op e k ih =>
    rcases e with e | e | _ | _
    · exact fun r => ih r (h r)
    · cases e <;> first | exact absurd h id | exact fun r => ih r (h r)
    · exact fun r => ih r (h r)
    · exact fun r => ih r (h r)

theorem NoWrite.on {p : IT (sh σ) α} (h : NoWrite p) : NoDrain (Aio.on p) := by
  induction p with
  | ret b => trivial
  | op e k ih =>
    rcases e with _ | _ | e
    · exact fun r => ih r (h r)
    · exact fun r => ih r (h r)
    · cases e with
      | write ms l => exact absurd h id
      | read =>
        rw [Aio.on, aio_read]
        intro r
        cases r with
        | ok b => exact fun r => ih r (h r)
        | error e => exact ih _ (h _)
      | _ => exact fun r => ih r (h r)

theorem endsInDrain_no {t : ι} {p : IT (aio σ) α} (h : NoDrain p) (r : AioRt ι σ) : endsInDrain L c t p r = false := by
  induction p generalizing r with
  | ret b => rfl
  | op e k ih =>
    rcases e with e | e | _ | _
    · rcases e with _ | _ | e
      · exact ih _ (h _) _
      · exact ih _ (h _) _
      · exact ih _ (h _) _
    · cases e with
      | readexactly n =>
        simp only [endsInDrain]
        split
        · exact ih _ (h _) _
        · rfl
      | write b => exact ih _ (h _) _
      | drain => exact absurd h id
    · exact ih _ (h _) _
    · exact ih _ (h _) _

theorem aioBlock_no {t : ι} {p : IT (aio σ) α} (h : NoDrain p) (r : AioRt ι σ) : NoDrain (aioBlock L c t p r).1 := by
  induction p generalizing r with
  | ret b => trivial
  | op e k ih =>
    rcases e with e | e | _ | _
    · rcases e with _ | _ | e
      · exact ih _ (h _) _
      · exact ih _ (h _) _
      · exact ih _ (h _) _
    · cases e with
      | readexactly n =>
        simp only [aioBlock]
        split
        · exact ih _ (h _) _
        · exact h
      | write b => exact ih _ (h _) _
      | drain => exact absurd h id
    · exact ih _ (h _) _
    · exact ih _ (h _) _

/-- The task never gets to a `drain()` and is in none. -/
def Free (y : AioSide ι σ α) (f : FlowSide ι) (t : ι) : Prop := NoDrain (y.tasks t) ∧ f.drain t = false

theorem Free.run {y : AioSide ι σ α} {f : FlowSide ι} {t : ι} (h : Free y f t) (u : ι) (out : Nat) :
    Free (y.run L c u).1 (f.ran l u (endsInDrain L c u (y.tasks u) (y.rt.resume u)) (y.run L c u).1.rt out) t := by
  by_cases hu : t = u
  · subst hu
    constructor
    · simp only [AioSide.run, Function.update_self]
      exact aioBlock_no h.1 _
    · simp [FlowSide.ran, endsInDrain_no h.1]
  · constructor
    · simp only [AioSide.run, Function.update_of_ne hu]
      exact h.1
    · simp only [FlowSide.ran, Function.update_of_ne hu]
      exact h.2

theorem free_step {x y : Flow ι κ σ τ α β} (hs : Flow.Step l L ca cb x y) {t : ι} (h : Free x.net.a x.a t) :
    Free y.net.a y.a t := by
  cases hs with
  | aRun u o h1 h2 h3 h4 h5 => exact h.run u o
  | aSend n h1 h2 h3 => 
    refine ⟨h.1, ?_⟩
    have := h.2
    simp only at this
    simp [FlowSide.sent, this]
  | aFeed chunk h1 h2 h3 h4 => exact ⟨h.1, h.2⟩
  | aEof h1 h2 => exact ⟨h.1, h.2⟩
  | bRun u o h1 h2 h3 h4 h5 => exact h
  | bSend n h1 h2 h3 => exact h
  | bFeed chunk h1 h2 h3 h4 => exact h
  | bEof h1 h2 => exact h

theorem free_reach {x y : Flow ι κ σ τ α β} (hr : Flow.Reach l L ca cb x y) {t : ι} (h : Free x.net.a x.a t) :
    Free y.net.a y.a t := by
  induction hr with
  | refl => exact h
  | step _ hs ih => exact free_step hs ih

/-! ### Coroutines that never read -/

theorem block_noRead {p : IT (sh σ) α} (h : NoRead p) (s : σ) (i : Nat) : NoRead (block L c p s i).1 := by
  induction p generalizing s i with
  | ret b => trivial
  | op e k ih =>
    rcases e with _ | _ | e
    · exact ih _ (h _) _ _
    · exact ih _ (h _) _ _
    · cases e with
      | read => exact absurd h id
      | write ms l => exact h _
      | _ => exact ih _ (h _) _ _

theorem noRead_run {x : Loop ι σ α} {t : ι} (h : NoRead (x.tasks t)) (u : ι) {p : IT (sh σ) α} (hp : t = u → NoRead p) :
    NoRead ((x.run L c u p).1.tasks t) := by
  by_cases hu : t = u
  · subst hu
    simp only [Loop.run, Function.update_self]
    exact block_noRead (hp rfl) _ _
  · simp only [Loop.run, Function.update_of_ne hu]
    exact h

theorem noRead_step {X Y : TaskNet ι κ σ τ α β} (hs : TaskNet.Step L ca cb X Y) {t : κ} (h : NoRead (X.b.tasks t)) :
    NoRead (Y.b.tasks t) := by
  cases hs with
  | aRun u hr => exact h
  | aRecv u m k hk => exact h
  | bRun u hr => exact noRead_run h u fun e => e ▸ h
  | @bRecv a b ab ba u m k hk =>
    refine noRead_run h u fun e => ?_
    simp only [e, hk] at h
    exact absurd h id

theorem noRead_reach {X Y : TaskNet ι κ σ τ α β} (hr : TaskNet.Reach L ca cb X Y) {t : κ} (h : NoRead (X.b.tasks t)) :
    NoRead (Y.b.tasks t) := by
  induction hr with
  | refl => exact h
  | step _ s ih => exact noRead_step s ih

/-- What nobody reads stays. -/
theorem unread_reach {X Y : TaskNet ι κ σ τ α β} (hr : TaskNet.Reach L ca cb X Y) (h : ∀ t, NoRead (X.b.tasks t))
    (hne : X.ab ≠ []) : Y.ab ≠ [] := by
  induction hr with
  | refl => exact hne
  | @step Y Z hr s ih =>
    cases s with
    | aRun u hr => simp [ih]
    | aRecv u m k hk => simp [ih]
    | bRun u hr => exact ih
    | bRecv u m k hk =>
      have := noRead_reach hr (h u)
      rw [hk] at this
      exact absurd this id

variable [Fintype ι] [Fintype κ]

/-- In the end everything has been read. -/
def Empties (L : Lib) (ca cb : Clock) (X : TaskNet ι κ σ τ α β) : Prop :=
  ∀ Y, TaskNet.Reach L ca cb X Y → TaskNet.Stuck L ca cb Y → Y.ab = [] ∧ Y.ba = []

theorem Empties.swap {X : TaskNet ι κ σ τ α β} (h : Empties L ca cb X) : Empties L cb ca X.swap :=
  fun _ hr hs => (h _ hr.swap fun Z hZ => hs Z.swap hZ.swap).symm

/-- If everything is read in the end, somebody is still going to read what is there. -/
theorem Empties.reader {X Y : TaskNet ι κ σ τ α β} (h : Empties L ca cb X) (hr : TaskNet.Reach L ca cb X Y) (hne : Y.ab ≠ []) :
    ∃ t, ¬ NoRead (Y.b.tasks t) := by
  by_contra hn
  push Not at hn
  obtain ⟨Z, h1, h2⟩ := tasks_final (L := L) (ca := ca) (cb := cb) Y
  exact unread_reach h1 hn hne (h Z (hr.trans h1) h2).1

/-- Bytes to be received belong to messages. -/
theorem SideRel.msgs_ne {x : Loop ι σ α} {y : AioSide ι σ α} {msgs : List Bytes} {flight : Bytes} (h : SideRel x y msgs flight)
    (hne : y.rt.buffer ++ flight ≠ []) : msgs ≠ [] := by
  obtain ⟨-, -, P, h2, -⟩ := h.ex
  rintro rfl
  rw [List.append_assoc] at h2
  have := h2.symm
  simp only [frames, List.map_nil, List.flatten_nil, List.append_eq_nil_iff] at this
  exact hne (by simp [this.2.1, this.2.2])

/-- Somebody can always read what is there. -/
theorem flow_task_runs {X X' : TaskNet ι κ σ τ α β} {Y : Flow ι κ σ τ α β} (hsplit : ∀ t, NoRead (X.b.tasks t) ∨ NoWrite (X.b.tasks t))
    (he : Empties L ca cb X) (hsh : ShortNet L ca cb X) (hr : Flow.Reach l L ca cb (.start (onStreams X)) Y)
    (hr' : TaskNet.Reach L ca cb X X') (hrel : NetRel X' Y.net) (hi : FlowInv l Y) (hs : Flow.Stuck l L ca cb Y)
    (hne : Y.net.b.rt.buffer ++ Y.net.ab ≠ []) : Y.b.stop = false := by
  by_contra hst
  have h4 := hi.2.stop (by simpa using hst)
  obtain ⟨t, ht⟩ := he.reader hr' (hrel.b.msgs_ne hne)
  have h5 : Y.net.b.CanRun t := by
    refine ⟨fun r hb => ht ?_, fun hp => ?_⟩
    · have : X'.b.tasks t = .ret r := NetRel.result (X := X'.swap) (ca := cb) (cb := ca) hrel.b (hsh.reach hr').swap hb
      rw [this]
      trivial
    · have := (hrel.b.pend t hp).1
      rw [h4.1] at this
      cases this
  have h6 : Y.b.drain t = true := Spec.Flow.Stuck.drain hs.swap hi.swap h5
  have h7 : Free (Flow.start (onStreams X)).swap.net.a (Flow.start (onStreams X)).swap.a t :=
    ⟨((hsplit t).resolve_left fun h => ht (noRead_reach hr' h)).on, rfl⟩
  have h8 := (free_reach hr.swap h7).2
  rw [show Y.b.drain t = false from h8] at h6
  cases h6

/-- Nothing is left in the write buffer. -/
theorem flow_task_quiet (hl : l.Ok) {X X' : TaskNet ι κ σ τ α β} {Y : Flow ι κ σ τ α β}
    (hsplit : ∀ t, NoRead (X.b.tasks t) ∨ NoWrite (X.b.tasks t))
    (he : Empties L ca cb X) (hsh : ShortNet L ca cb X) (hr : Flow.Reach l L ca cb (.start (onStreams X)) Y)
    (hr' : TaskNet.Reach L ca cb X X') (hrel : NetRel X' Y.net) (hi : FlowInv l Y) (hs : Flow.Stuck l L ca cb Y) :
    Y.a.out = 0 ∧ Y.b.stop = false := by
  have hcap := hl.2
  constructor
  · by_contra hne
    have hpos : 0 < Y.a.out := Nat.pos_of_ne_zero hne
    have hfull := hs.full hpos
    have hab : Y.net.ab ≠ [] := by
      intro h; rw [h] at hfull; simp at hfull; omega
    rcases hs.feed (by omega) with h3 | h3
    · rw [hrel.b.closed] at h3; cases h3
    · rw [flow_task_runs hsplit he hsh hr hr' hrel hi hs (by simp [hab])] at h3; cases h3
  · by_contra hst
    have h4 := hi.2.stop (by simpa using hst)
    refine hst (flow_task_runs hsplit he hsh hr hr' hrel hi hs ?_)
    intro h
    simp only [List.append_eq_nil_iff] at h
    rw [h.1] at h4
    simp at h4

theorem netRel_start {X : TaskNet ι κ σ τ α β}
    (hA : ∀ t t', t ≠ t' → NoRead (X.a.tasks t) ∨ NoRead (X.a.tasks t'))
    (hB : ∀ t t', t ≠ t' → NoRead (X.b.tasks t) ∨ NoRead (X.b.tasks t')) (hab : X.ab = []) (hba : X.ba = []) :
    NetRel X (onStreams X) := by
  constructor
  · rw [hba]
    exact ⟨rfl, rfl, rfl, rfl, hA, ⟨fun _ => [], fun _ => .same _, [], rfl, .inl ⟨fun _ => rfl, rfl⟩⟩,
      fun t h => absurd rfl h, fun t h => (by cases h), fun t h => (by cases h)⟩
  · rw [hab]
    exact ⟨rfl, rfl, rfl, rfl, hB, ⟨fun _ => [], fun _ => .same _, [], rfl, .inl ⟨fun _ => rfl, rfl⟩⟩,
      fun t h => absurd rfl h, fun t h => (by cases h), fun t h => (by cases h)⟩

/-- Tasks that behave like directly connected ones when messages are exchanged do so on the streams with flow control, if
on each side the task that reads never writes, and everything is read. -/
theorem flow_like_direct (hl : l.Ok) {X : TaskNet ι κ σ τ α β} {pA : ι → IT appSig α} {pB : κ → IT appSig β}
    (hA : ∀ t t', t ≠ t' → NoRead (X.a.tasks t) ∨ NoRead (X.a.tasks t'))
    (hB : ∀ t t', t ≠ t' → NoRead (X.b.tasks t) ∨ NoRead (X.b.tasks t')) (hab : X.ab = []) (hba : X.ba = [])
    (hsA : ∀ t, NoRead (X.a.tasks t) ∨ NoWrite (X.a.tasks t)) (hsB : ∀ t, NoRead (X.b.tasks t) ∨ NoWrite (X.b.tasks t))
    (hsh : ShortNet L ca cb X) (he : Empties L ca cb X) (hX : LikeDirect L ca cb pA pB X) :
    FlowLikeDirect l L ca cb pA pB (onStreams X) := by
  refine ⟨flow_terminates _, flow_final _, fun Y hY => ?_⟩
  have hY' : AioNet.Reach L ca cb (onStreams X) Y.net := flow_reach_net hY
  obtain ⟨y, h3, h4, h5, h6⟩ := (aio_like_direct hA hB hab hba hsh hX).2.2 Y.net hY'
  refine ⟨y, h3, h4, h5, fun hs => ?_⟩
  obtain ⟨X', hr', hrel⟩ := (netRel_start hA hB hab hba).reach hsh hY'
  have hi : FlowInv l Y := FlowInv.reach hl (FlowInv.start _ rfl rfl) hY
  obtain ⟨a1, a2⟩ := flow_task_quiet hl hsB he hsh hY hr' hrel hi hs
  obtain ⟨b1, b2⟩ := flow_task_quiet (X := X.swap) (X' := X'.swap) (Y := Y.swap) hl hsA he.swap hsh.swap hY.swap hr'.swap
    ⟨hrel.b, hrel.a⟩ hi.swap hs.swap
  have hst := hs.net hi a1 b1 b2 a2
  obtain ⟨g1, g2, g3⟩ := h6 hst
  obtain ⟨e1, -, -⟩ := hrel.stuck (hsh.reach hr') hst
  obtain ⟨n1, n2⟩ := he X' hr' e1
  have hd : ∀ {γ ρ : Type} [DecidableEq γ] {f : FlowSide γ} {r : AioRt γ ρ} {fl : Bytes}, FlowOk l f r fl → f.out = 0 → ∀ t, f.drain t = false := by
    intro γ ρ _ f r fl h h0 t
    by_contra hne
    have := h.out_pos (t := t) (by simpa using hne)
    omega
  have m1 : Y.net.b.rt.buffer ++ Y.net.ab = [] := by
    by_contra hne
    exact hrel.b.msgs_ne hne n1
  have m2 : Y.net.a.rt.buffer ++ Y.net.ba = [] := by
    by_contra hne
    exact hrel.a.msgs_ne hne n2
  simp only [List.append_eq_nil_iff] at m1 m2
  exact ⟨g1, g2, g3, hd hi.1 a1, hd hi.2 b1, m1.2, m2.2, m2.1, m1.1⟩

end

/-! ### Without a session -/

section
variable {ι κ α β : Type} [DecidableEq ι] [DecidableEq κ] [Fintype ι] [Fintype κ] {l : Limits} {L : Lib} {ca cb : Clock}

theorem plain_noWrite {p : IT appSig α} (h : ReadOnly p) : NoWrite (Aio.plain p) := by
  induction p with
  | ret b => trivial
  | op e k ih =>
    cases e with
    | read => exact fun r => ih r (h r)
    | write ms l => exact absurd h id

theorem plain_empties {pA : ι → IT appSig α} {pB : κ → IT appSig β} (hA : ∀ t, ShortWritesP (pA t))
    (hB : ∀ t, ShortWritesP (pB t)) (h : AllRead pA pB) : Empties L ca cb
      (⟨⟨fun t => Aio.plain (pA t), (), 0⟩, ⟨fun t => Aio.plain (pB t), (), 0⟩, [], []⟩ : TaskNet ι κ Unit Unit α β) := by
  have inv : PlainInv ⟨pA, pB, [], []⟩ (⟨⟨fun t => Aio.plain (pA t), (), 0⟩, ⟨fun t => Aio.plain (pB t), (), 0⟩, [], []⟩ :
    TaskNet ι κ Unit Unit α β) := ⟨rfl, rfl, rfl, rfl, hA, hB, by simp, by simp⟩
  intro Y hr hs
  obtain ⟨y, h1, h2⟩ := inv.reach hr
  rw [h2.ab, h2.ba]
  refine h y h1 fun z hz => ?_
  have ha := h2.final_a hs
  have hb := h2.swap.final_a (L := L) (ca := cb) (cb := ca) fun Y hY => hs _ hY.swap
  cases hz with
  | aWrite t ms l k h =>
    have := (ha t).1
    simp only [h] at this
    generalize Y.a.tasks t = T at this
    cases this
  | bWrite t ms l k h =>
    have := (hb t).1
    simp only [Direct.swap, h] at this
    generalize Y.swap.a.tasks t = T at this
    cases this
  | aRead t m k h => have := (ha t).2 k h; cases this
  | bRead t m k h => have := (hb t).2 k h; cases this

theorem flow_plain (hl : l.Ok) {pA : ι → IT appSig α} {pB : κ → IT appSig β} (sA : Split pA) (sB : Split pB)
    (hA : ∀ t, ShortWritesP (pA t)) (hB : ∀ t, ShortWritesP (pB t)) (h : AllRead pA pB) :
    FlowLikeDirect l L ca cb pA pB (onPlain pA pB) := by
  obtain ⟨h1, h2⟩ := plain_like_direct (L := L) (ca := ca) (cb := cb) pA pB hA hB
  exact flow_like_direct hl (fun t t' h => (sA.1 t t' h).imp plain_noRead plain_noRead)
    (fun t t' h => (sB.1 t t' h).imp plain_noRead plain_noRead) rfl rfl
    (fun t => (sA.2 t).imp plain_noRead plain_noWrite) (fun t => (sB.2 t).imp plain_noRead plain_noWrite) h2
    (plain_empties hA hB h) h1

/-! ### On a session -/

theorem NoWrite.bind {σ γ : Type} {t : IT (sh σ) γ} {f : γ → IT (sh σ) α} (h : NoWrite t) (h' : ∀ a, NoWrite (f a)) :
    NoWrite (t.bind f) := by
  induction t with
  | ret a => exact h' a
  | op e k ih =>
    rcases e with _ | _ | e
    · exact fun r => ih r (h r)
    · exact fun r => ih r (h r)
    · cases e <;> first | exact absurd h id | exact fun r => ih r (h r)

theorem NoWrite.co {σ γ δ : Type} {t : Co σ γ} {f : γ → Co σ δ}
    (h : NoWrite (σ := σ) (α := Except Err γ) t) (h' : ∀ a, NoWrite (σ := σ) (α := Except Err δ) (f a)) :
    NoWrite (σ := σ) (α := Except Err δ) (t >>= f : Co σ δ) := by
  refine NoWrite.bind (σ := σ) (t := t) h fun r => ?_
  cases r with
  | ok a => exact h' a
  | error e => trivial

theorem NoWrite.zoom {σ τ γ : Type} (get : σ → τ) (set : τ → σ → σ) {t : IT (sh τ) γ} (h : NoWrite t) :
    NoWrite (Co.zoom get set t) := by
  induction t with
  | ret a => trivial
  | op e k ih =>
    rcases e with _ | _ | e
    · exact fun r => ih _ (h _)
    · unfold Co.zoom
      intro r
      cases r with
      | ok s => exact fun r => ih _ (h _)
      | error e => exact ih _ (h _)
    · cases e <;> first | exact absurd h id | exact fun r => ih r (h r)

theorem noWrite_modify {σ : Type} (f : σ → σ) : NoWrite (σ := σ) (α := Except Err Unit) (Co.modifySt f) :=
  NoWrite.co (t := Co.getSt) (fun _ => trivial) fun _ _ => trivial

theorem noWrite_decrypt (d : Bytes) : NoWrite (σ := EncSt) (α := Except Err Bytes) (Co.decrypt d) := by
  refine NoWrite.bind (NoWrite.co (t := Co.getSt) (fun _ => trivial) fun s => NoWrite.co (t := Co.lift _) trivial fun n _ => trivial) fun r => ?_
  cases r with
  | ok a => trivial
  | error e =>
    by_cases he : e = .badEncryptedData
    · simp only [if_pos he]; trivial
    · simp only [if_neg he]; trivial

theorem noWrite_encRead : NoWrite (σ := EncSt) (α := Except Err Bytes) Co.encRead := by
  refine NoWrite.co (t := Co.fetch) (NoWrite.co (t := Co.getSt) (fun _ => trivial) fun s => ?_) fun raw =>
    NoWrite.co (t := Co.unwrap raw) (NoWrite.co (t := Co.lift _) trivial fun ep => NoWrite.co (noWrite_modify _) fun _ => trivial)
      fun body => NoWrite.co (noWrite_decrypt body) fun clear => NoWrite.co (noWrite_modify _) fun _ => trivial
  split
  · exact NoWrite.co (noWrite_modify _) fun _ => trivial
  · exact fun _ => trivial

theorem noWrite_parsed (raw : Bytes) : NoWrite (σ := AppSt) (α := Except Err Bytes) (Co.parsed raw) := by
  refine NoWrite.co (t := Co.lift _) trivial fun ap => ?_
  split
  · exact NoWrite.co (t := Co.lift _) trivial fun _ => NoWrite.co (t := Co.env _) (fun _ => trivial) fun _ => trivial
  · refine NoWrite.co (t := Co.lift _) trivial fun mp => NoWrite.co (t := Co.env _) (fun _ => trivial) fun _ =>
      NoWrite.co (noWrite_modify _) fun _ => ?_
    split <;> trivial

theorem noWrite_read : NoWrite (σ := AppSt) (α := Except Err Bytes) Co.read := by
  refine NoWrite.co (t := Co.getSt) (fun _ => trivial) fun s => ?_
  split
  · exact NoWrite.co (noWrite_modify _) fun _ => trivial
  · exact NoWrite.co (NoWrite.zoom _ _ noWrite_encRead) noWrite_parsed

theorem task_noWrite {p : IT appSig α} (h : ReadOnly p) : NoWrite (Co.task p) := by
  induction p with
  | ret b => trivial
  | op e k ih =>
    cases e with
    | read => exact NoWrite.bind noWrite_read fun r => ih r (h r)
    | write ms l => exact absurd h id

theorem AppDir.empty {cw cr : Clock} {w r : AppSt} {raw q : List Bytes} {n : Nat} (h : AppDir L cw cr w r raw q n)
    (hq : q = []) : raw = [] := by
  obtain ⟨ps, rest, h1, h2, h3⟩ := h.flight
  rw [hq] at h3
  have h4 := List.append_eq_nil_iff.1 h3.symm
  cases h2 with
  | nil =>
    generalize w.enc.writeNonce = a at h1
    cases h1
    rfl
  | cons _ _ _ => exact absurd h4.2 (by simp)

theorem flow_session (hl : l.Ok) (hb : BoxLaw L) (hz : BoxSize L) (hca : Spec.Accepts ca cb)
    (hcb : Spec.Accepts cb ca) {sA sB : AppSt} {n : Nat} (h : Paired n sA sB) (i j : Nat) {pA : ι → IT appSig α}
    {pB : κ → IT appSig β} (hsA : Split pA) (hsB : Split pB) (hmA : ModestAll 65535 pA n) (hmB : ModestAll 65535 pB n)
    (hA : ∀ t, CallsWithin (2 ^ 31 - 27) (pA t)) (hB : ∀ t, CallsWithin (2 ^ 31 - 27) (pB t)) (hr : AllRead pA pB) :
    FlowLikeDirect l L ca cb pA pB (onSession pA pB sA sB i j) := by
  have inv := start_inv (L := L) hca hcb (S := True) hsA.1 hsB.1 h hmA hmB i j fun _ => ⟨hz, hA, hB⟩
  refine flow_like_direct hl (X := onChannels pA pB sA sB i j) (fun t t' h => (hsA.1 t t' h).imp task_noRead task_noRead)
    (fun t t' h => (hsB.1 t t' h).imp task_noRead task_noRead) rfl rfl
    (fun t => (hsA.2 t).imp task_noRead task_noWrite) (fun t => (hsB.2 t).imp task_noRead task_noWrite) (fun Y hY => ?_)
    (fun Y hY hst => ?_) (C91_paired_partial hb hca hcb h i j pA pB hsA.1 hsB.1 hmA hmB)
  · obtain ⟨y, -, h2⟩ := inv.reach hb hY
    obtain ⟨-, -, -, s1, s2⟩ := h2.short trivial
    exact ⟨s1, s2⟩
  · obtain ⟨y, h1, h2⟩ := inv.reach hb hY
    obtain ⟨e1, e2⟩ := hr y h1 (h2.final hst).1
    obtain ⟨na, nb, d1, d2, -, -⟩ := h2.ex
    exact ⟨d1.empty e1, d2.empty e2⟩

end

end Salt
