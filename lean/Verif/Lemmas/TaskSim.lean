import Verif.Lemmas.Tasks
import Verif.Lemmas.SockSession
import Mathlib.SetTheory.Ordinal.Rank
import Mathlib.Data.DFinsupp.WellFounded
import Mathlib.Algebra.BigOperators.Group.Finset.Piecewise
import Mathlib.Algebra.Order.BigOperators.Group.Finset

/-!
# Tasks on a shared application channel behave like tasks that are directly connected
-/

set_option linter.unusedSimpArgs false
set_option linter.unusedSectionVars false

namespace Salt

open Spec

namespace Co

variable {σ τ α : Type}

theorem Quiet.zoom (get : σ → τ) (set : τ → σ → σ) {t : IT (sh τ) α} (h : Quiet t) : Quiet (zoom get set t) := by
  induction t with
  | ret a => trivial
  | op e k ih =>
    rcases e with _ | _ | e
    · exact fun r => ih _ (h _)
    · unfold Co.zoom
      intro r
      cases r with
      | ok s => exact fun r => ih _ (h _)
      | error e => exact ih _ (h _)
    · cases e <;> first | exact absurd h id | exact fun r => ih r (h r)

theorem decrypt_quiet (b : Bytes) : Quiet (σ := EncSt) (α := Except Err Bytes) (decrypt b) := by
  refine Quiet.bind (σ := EncSt) (t := _) ?_ fun a => ?_
  · exact Quiet.co (t := getSt) (fun _ => trivial) fun _ => Quiet.co (t := lift _) trivial fun _ _ => trivial
  · cases a with
    | ok a => trivial
    | error e =>
      simp only []
      split <;> trivial

theorem opened_quiet (raw : Bytes) : Quiet (σ := EncSt) (α := Except Err Bytes) (opened raw) := by
  refine Quiet.co ?_ fun _ => Quiet.co (decrypt_quiet _) fun _ => Quiet.co (modifySt_quiet _) fun _ => trivial
  exact Quiet.co (t := lift _) trivial fun _ => Quiet.co (modifySt_quiet _) fun _ => trivial

theorem parsed_quiet (raw : Bytes) : Quiet (σ := AppSt) (α := Except Err Bytes) (parsed raw) := by
  refine Quiet.co (t := lift _) trivial fun ap => ?_
  split
  · exact Quiet.co (t := lift _) trivial fun _ => Quiet.co (t := env (.check _)) (fun _ => trivial) fun _ => trivial
  · refine Quiet.co (t := lift _) trivial fun mp => Quiet.co (t := env (.check _)) (fun _ => trivial) fun _ =>
      Quiet.co (modifySt_quiet _) fun _ => ?_
    cases mp.opt.getD [] <;> trivial

theorem readRest_quiet (r : Except Err Bytes) : Quiet (σ := AppSt) (α := Except Err Bytes) (readRest r) :=
  Quiet.co (Quiet.zoom _ _ (Quiet.co (t := lift _) trivial opened_quiet)) parsed_quiet

theorem quiet_calls {t : IT (sh σ) α} (h : Quiet t) {s : σ} {tr : List (Ev Salt.env)} {b : α × σ}
    (hx : Exec (alone t s) tr b) : callsOf tr = [] := by
  induction t generalizing s tr with
  | ret a =>
    simp only [alone, Exec_ret] at hx
    rw [hx.1]; rfl
  | op e k ih =>
    cases e with
    | get => exact ih _ (h _) hx
    | put s1 => exact ih _ (h _) hx
    | env e =>
      simp only [alone, Exec_op] at hx
      obtain ⟨r, tr', rfl, hx⟩ := hx
      have := fun h => ih r h hx
      cases e <;> first | exact absurd h id | exact this (h _)

end Co

section
variable {ι κ α β : Type} [DecidableEq ι] [DecidableEq κ]

theorem Spec.Direct.Reach.trans {x y z : Direct ι κ α β} (h : Direct.Reach x y) (h' : Direct.Reach y z) :
    Direct.Reach x z := by
  induction h' with
  | refl => exact h
  | step _ s ih => exact .step ih s

/-- Other side first. -/
def Spec.Direct.swap (x : Direct ι κ α β) : Direct κ ι β α := ⟨x.b, x.a, x.ba, x.ab⟩

theorem Spec.Direct.Step.swap {x y : Direct ι κ α β} (h : Direct.Step x y) : Direct.Step x.swap y.swap := by
  cases h with
  | aWrite t ms l k h => exact .bWrite t ms l k h
  | aRead t m k h => exact .bRead t m k h
  | bWrite t ms l k h => exact .aWrite t ms l k h
  | bRead t m k h => exact .aRead t m k h

theorem Spec.Direct.Reach.swap {x y : Direct ι κ α β} (h : Direct.Reach x y) : Direct.Reach x.swap y.swap := by
  induction h with
  | refl => exact .refl _
  | step _ s ih => exact .step ih s.swap

/-- Other side first. -/
def Spec.TaskNet.swap {σ τ : Type} (x : TaskNet ι κ σ τ α β) : TaskNet κ ι τ σ β α := ⟨x.b, x.a, x.ba, x.ab⟩

theorem Spec.TaskNet.Step.swap {σ τ : Type} {L : Lib} {ca cb : Clock} {x y : TaskNet ι κ σ τ α β}
    (h : TaskNet.Step L ca cb x y) : TaskNet.Step L cb ca x.swap y.swap := by
  cases h with
  | aRun t h => exact .bRun t h
  | aRecv t m k h => exact .bRecv t m k h
  | bRun t h => exact .aRun t h
  | bRecv t m k h => exact .aRecv t m k h

end

/-- A task that is directly connected gets from `p` to `p'`, while the links change as given. -/
structure TAdv {α : Type} (p : IT appSig α) (ab ba : List Bytes) (p' : IT appSig α) (ab' ba' : List Bytes) : Prop where
  run : ∀ {ι κ β : Type} [DecidableEq ι] [DecidableEq κ] (a : ι → IT appSig α) (b : κ → IT appSig β) (t : ι), a t = p →
    Direct.Reach ⟨a, b, ab, ba⟩ ⟨Function.update a t p', b, ab', ba'⟩

theorem TAdv.refl {α : Type} (p : IT appSig α) (ab ba : List Bytes) : TAdv p ab ba p ab ba := by
  refine ⟨fun {ι κ β} _ _ a b t h => ?_⟩
  rw [← h, Function.update_eq_self]
  exact .refl _

theorem TAdv.head {α : Type} {p p1 p' : IT appSig α} {ab ba ab1 ba1 ab' ba' : List Bytes}
    (h : ∀ {ι κ β : Type} [DecidableEq ι] [DecidableEq κ] (a : ι → IT appSig α) (b : κ → IT appSig β) (t : ι), a t = p →
      Direct.Step ⟨a, b, ab, ba⟩ ⟨Function.update a t p1, b, ab1, ba1⟩)
    (h' : TAdv p1 ab1 ba1 p' ab' ba') : TAdv p ab ba p' ab' ba' := by
  refine ⟨fun {ι κ β} _ _ a b t e => ?_⟩
  have := h'.run (Function.update a t p1) b t (Function.update_self _ _ _)
  rw [Function.update_idem] at this
  exact (Direct.Reach.step (.refl _) (h a b t e)).trans this

/-- How a task on the shared channel and the same task directly connected correspond. -/
inductive TaskRel {α : Type} : IT appSig α → IT (sh AppSt) α → Prop
  | call (p) : TaskRel p (Co.task p)
  | wait (k : Except Err Bytes → IT appSig α) : TaskRel (.op (S := appSig) .read k)
      (.op (S := sh AppSt) (.env .read) fun r => IT.bind (Co.readRest r) fun r => Co.task (k r))

theorem App_write_readQ {s s' : AppSt} {ms : List Bytes} {l : Bool} {tr : List (Ev env)} {r : Except Err Unit}
    (h : Exec (App.write ms l s) tr (r, s')) : s'.readQ = s.readQ := by
  rw [App_write_run, Exec_op] at h
  obtain ⟨r1, tr1, -, h⟩ := h
  cases r1 with
  | error e =>
    simp only [Exec_ret, Prod.mk.injEq] at h
    rw [← h.2.2]
  | ok t =>
    simp only [Exec_bind] at h
    obtain ⟨_, ⟨r2, e⟩, _, -, -, h⟩ := h
    simp only [Exec_ret, Prod.mk.injEq] at h
    rw [← h.2.2]

/-- Is the task at a point where it waits for a message? -/
def AtRead {σ α : Type} : IT (sh σ) α → Prop
  | .op (.env .read) _ => True
  | _ => False

theorem task_not_atRead {α : Type} (p : IT appSig α) : ¬ AtRead (Co.task p) := by
  cases p with
  | ret => exact id
  | op e k => cases e <;> exact id

section
variable {α : Type} {L : Lib}

/-- A task runs from the beginning of a call (or its end) until it is suspended. -/
theorem advance (hb : BoxLaw L) {ca cb : Clock} {sb : AppSt} {AB BA : List Bytes} {nb : Nat} (p : IT appSig α) :
    ∀ {sa : AppSt} {ab ba : List Bytes} {n m : Nat} (i : Nat), AppDir L ca cb sa sb AB ab n → AppDir L cb ca sb sa BA ba nb →
    Modest 65535 p m → m ≤ n → ∃ T s' i' out p' ab' ba' m', block L ca (Co.task p) sa i = (T, s', i', out) ∧
      TAdv p ab ba p' ab' ba' ∧ TaskRel p' T ∧ AppDir L ca cb s' sb (AB ++ out) ab' (n - (m - m')) ∧
      AppDir L cb ca sb s' BA ba' nb ∧ Modest 65535 p' m' ∧ m' ≤ m ∧ (AtRead T → s'.readQ = []) ∧
      (WriteOnly p → s'.readQ = sa.readQ ∧ WriteOnly p') ∧
      (BoxSize L → CallsWithin (2 ^ 31 - 27) p → Fits out ∧ CallsWithin (2 ^ 31 - 27) p') := by
  induction p with
  | ret b =>
    intro sa ab ba n m i d1 d2 hm hn
    refine ⟨.ret b, sa, i, [], .ret b, ab, ba, m, rfl, .refl _ _ _, .call (.ret b), ?_, d2, hm, le_rfl, fun h => h.elim,
      fun h => ⟨rfl, h⟩, fun _ _ => ⟨by simp [Fits], trivial⟩⟩
    rw [List.append_nil, Nat.sub_self, Nat.sub_zero]
    exact d1
  | op e k ih =>
    intro sa ab ba n m i d1 d2 hm hn
    cases e with
    | read =>
      cases hq : sa.readQ with
      | nil =>
        refine ⟨_, sa, i, [], .op (S := appSig) .read k, ab, ba, m, Co.block_read _ hq d2.push, .refl _ _ _, .wait k, ?_, d2,
          hm, le_rfl, fun _ => hq, fun h => h.elim, fun _ h => ⟨by simp [Fits], h⟩⟩
        rw [List.append_nil, Nat.sub_self, Nat.sub_zero]
        exact d1
      | cons x q =>
        obtain ⟨qs, rest, f1, f2, f3⟩ := d2.flight
        have hba : ba = x :: (q ++ rest) := by rw [f3, hq]; rfl
        subst hba
        have hx : Exec (Co.alone (Co.handle .read) sa) [] (.ok x, { sa with readQ := q }) := by
          rw [Co.handle_means .read sa]
          show Exec (App.read sa) _ _
          rw [App_read_queued sa x q hq]
          exact .ret _
        have hblk := Co.block_local (fun r => Co.task (k r)) hx (Local.nil (L := L) (c := ca) i) rfl
        have d1' : AppDir L ca cb { sa with readQ := q } sb AB ab n :=
          ⟨d1.wNonce, d1.rNonce, d1.push, d1.key, d1.keyLen, d1.m4, d1.flight, d1.budget, d1.times⟩
        have d2' : AppDir L cb ca sb { sa with readQ := q } BA (q ++ rest) nb :=
          ⟨d2.wNonce, d2.rNonce, d2.push, d2.key, d2.keyLen, d2.m4, ⟨qs, rest, f1, f2, rfl⟩, d2.budget, d2.times⟩
        obtain ⟨T, s', i', out, p', ab', ba', m', h1, h2, h3, h4, h5, h6, h7, h8, h9, h10⟩ := ih (.ok x) i d1' d2' (hm _) hn
        refine ⟨T, s', i', out, p', ab', ba', m', hblk.trans h1, .head ?_ h2, h3, h4, h5, h6, h7, h8, fun h => h.elim,
          fun hL hc => h10 hL (hc _)⟩
        intro ι κ β _ _ a b t e
        exact .aRead t x k e
    | write ms l =>
      obtain ⟨w1, w2, w3, w4⟩ := hm
      obtain ⟨tr, w', ps, j, e1, e2, e3, e4, e5⟩ := (app_chan hb).write d1 ms l w1 w2 (by omega) i
      have hx : Exec (Co.alone (Co.handle (.write ms l)) sa) tr (.ok (), w') := by
        rw [Co.handle_means (.write ms l) sa]; exact e1
      have hblk := Co.block_write (fun r => Co.task (k r)) hx e2 e3 (Co.write_last ms l)
      refine ⟨Co.task (k (.ok ())), w', j, ps, k (.ok ()), ab ++ ms, ba, m - ms.length, hblk, .head ?_ (.refl _ _ _), .call _,
        ?_, e5 _ _ _ d2, w4 _, by omega, fun h => absurd h (task_not_atRead _), fun h => ⟨App_write_readQ e1, h _⟩,
        fun hL hc => ⟨fits_calls (App_write_size hL ms l hc.1 sa (by simp [PendFits, pending, d1.m4]) tr _ e1 e2.answered) e3,
          hc.2 _⟩⟩
      · intro ι κ β _ _ a b t e
        exact .aWrite t ms l k e
      · rw [Nat.sub_sub_self w3]
        exact e4

end

section
variable {ι κ α β : Type} [DecidableEq ι] [DecidableEq κ] [Fintype ι] [Fintype κ] {L : Lib} {S : Prop}

theorem callsWithin_update {p : ι → IT appSig α} {n : Nat} (h : ∀ t, CallsWithin n (p t)) (t : ι) {p' : IT appSig α}
    (h' : CallsWithin n p') : ∀ u, CallsWithin n (Function.update p t p' u) := by
  intro u
  by_cases hu : u = t
  · subst hu; simpa using h'
  · rw [Function.update_of_ne hu]; exact h u

theorem Spec.Fits.append {a b : List Bytes} (h : Fits a) (h' : Fits b) : Fits (a ++ b) := by
  intro m hm
  rcases List.mem_append.1 hm with hm | hm
  · exact h m hm
  · exact h' m hm

/-- One side corresponds to its ideal. -/
structure SideInv (p : ι → IT appSig α) (x : Loop ι AppSt α) (n : Nat) : Prop where
  rel : ∀ t, TaskRel (p t) (x.tasks t)
  one : OneReader p
  waits : ∀ t, AtRead (x.tasks t) → x.st.readQ = []
  modest : ModestAll 65535 p n

/-- Both sides and the links correspond; if `S`, all calls are small enough for messages to fit into frames. -/
structure TaskInv (S : Prop) (L : Lib) (ca cb : Clock) (x : Direct ι κ α β) (X : TaskNet ι κ AppSt AppSt α β) : Prop where
  ex : ∃ na nb, AppDir L ca cb X.a.st X.b.st X.ab x.ab na ∧ AppDir L cb ca X.b.st X.a.st X.ba x.ba nb ∧
    SideInv x.a X.a na ∧ SideInv x.b X.b nb
  short : S → BoxSize L ∧ (∀ t, CallsWithin (2 ^ 31 - 27) (x.a t)) ∧ (∀ t, CallsWithin (2 ^ 31 - 27) (x.b t)) ∧ Fits X.ab ∧
    Fits X.ba

theorem TaskInv.swap {ca cb : Clock} {x : Direct ι κ α β} {X : TaskNet ι κ AppSt AppSt α β} (h : TaskInv S L ca cb x X) :
    TaskInv S L cb ca x.swap X.swap := by
  obtain ⟨na, nb, h1, h2, h3, h4⟩ := h.ex
  exact ⟨⟨nb, na, h2, h1, h4, h3⟩, fun hS => by
    obtain ⟨s1, s2, s3, s4, s5⟩ := h.short hS
    exact ⟨s1, s3, s2, s5, s4⟩⟩

theorem Spec.WriteOnly.rel {p : IT appSig α} {T : IT (sh AppSt) α} (h : WriteOnly p) (hr : TaskRel p T) : ¬ AtRead T := by
  cases hr with
  | call => exact task_not_atRead p
  | wait k => exact absurd h id

/-- A side after one of its tasks has run to its next suspension. -/
theorem SideInv.update {p : ι → IT appSig α} {x : Loop ι AppSt α} {n : Nat} (h : SideInv p x n) (t : ι) {f : ι → Nat}
    (hf : ∀ t, Modest 65535 (p t) (f t)) (hn : ∑ t, f t ≤ n) {T : IT (sh AppSt) α} {s' : AppSt} {i' m' : Nat} {p' : IT appSig α}
    (hr : TaskRel p' T) (hm : Modest 65535 p' m') (hle : m' ≤ f t) (hat : AtRead T → s'.readQ = [])
    (hw : WriteOnly (p t) → s'.readQ = x.st.readQ ∧ WriteOnly p') :
    SideInv (Function.update p t p') ⟨Function.update x.tasks t T, s', i'⟩ (n - (f t - m')) := by
  constructor
  · intro u
    by_cases hu : u = t
    · subst hu; simpa using hr
    · simpa [Function.update_of_ne hu] using h.rel u
  · intro u v huv
    by_cases hu : u = t
    · subst hu
      rw [Function.update_self, Function.update_of_ne (Ne.symm huv)]
      exact (h.one u v huv).imp (fun h => (hw h).2) id
    · rw [Function.update_of_ne hu]
      by_cases hv : v = t
      · subst hv
        rw [Function.update_self]
        exact (h.one u v huv).imp id fun h => (hw h).2
      · rw [Function.update_of_ne hv]
        exact h.one u v huv
  · intro u hu
    by_cases hut : u = t
    · subst hut
      simp only [Function.update_self] at hu
      exact hat hu
    · simp only [Function.update_of_ne hut] at hu
      have h1 := h.waits u hu
      rcases h.one u t hut with h2 | h2
      · exact absurd hu (h2.rel (h.rel u))
      · exact (hw h2).1.trans h1
  · refine ⟨Function.update f t m', ?_, ?_⟩
    · intro u
      by_cases hu : u = t
      · subst hu; simpa using hm
      · simpa [Function.update_of_ne hu] using hf u
    · rw [Finset.sum_update_of_mem (Finset.mem_univ t)]
      rw [← Finset.add_sum_erase _ _ (Finset.mem_univ t), ← Finset.sdiff_singleton_eq_erase] at hn
      omega

/-- A ready task runs. -/
theorem TaskInv.aRun (hb : BoxLaw L) {ca cb : Clock} {x : Direct ι κ α β} {a : Loop ι AppSt α} {b : Loop κ AppSt β}
    {ab ba : List Bytes} (h : TaskInv S L ca cb x ⟨a, b, ab, ba⟩) (t : ι) (hr : Ready (a.tasks t)) :
    ∃ y, Direct.Reach x y ∧
      TaskInv S L ca cb y ⟨(a.run L ca t (a.tasks t)).1, b, ab ++ (a.run L ca t (a.tasks t)).2, ba⟩ := by
  obtain ⟨na, nb, h1, h2, h3, h4⟩ := h.ex
  obtain ⟨xa, xb, xab, xba⟩ := x
  simp only at h1 h2 h3 h4
  obtain ⟨f, hf, hn⟩ := h3.modest
  have hft : f t ≤ na := (Finset.single_le_sum (fun _ _ => Nat.zero_le _) (Finset.mem_univ t)).trans hn
  have hrel := h3.rel t
  have htask : a.tasks t = Co.task (xa t) := by
    generalize xa t = p at hrel
    generalize hT : a.tasks t = T at hrel hr
    cases hrel with
    | call => rfl
    | wait => exact absurd hr id
  obtain ⟨T, s', i', out, p', ab', ba', m', e1, e2, e3, e4, e5, e6, e7, e8, e9, e10⟩ := advance hb (xa t) a.calls h1 h2 (hf t) hft
  refine ⟨⟨Function.update xa t p', xb, ab', ba'⟩, e2.run xa xb t rfl, ⟨na - (f t - m'), nb, ?_, ?_, ?_, h4⟩,
    fun hS => ?_⟩
  all_goals simp only [Loop.run, htask, e1]
  · exact e4
  · exact e5
  · exact h3.update t hf hn e3 e6 e7 e8 e9
  · obtain ⟨s1, s2, s3, s4, s5⟩ := h.short hS
    obtain ⟨f1, f2⟩ := e10 s1 (s2 t)
    exact ⟨s1, callsWithin_update s2 t f2, s3, s4.append f1, s5⟩

/-- What follows when the channel below answers a waiting `read`. -/
theorem recv_block (hb : BoxLaw L) {ca cb : Clock} {sa sb : AppSt} {BA ba : List Bytes} {nb : Nat} (m : Bytes) (i : Nat)
    (h2 : AppDir L cb ca sb sa (m :: BA) ba nb) (hq : sa.readQ = []) (f : Except Err Bytes → IT (sh AppSt) α) :
    ∃ m' q s' j, ba = m' :: q ∧
      block L ca (IT.bind (Co.readRest (.ok m)) f) sa i = block L ca (f (.ok m')) s' j ∧
      AppDir L cb ca sb s' BA q nb ∧ ∀ raw q n, AppDir L ca cb sa sb raw q n → AppDir L ca cb s' sb raw q n := by
  have hne : ∃ m' q, ba = m' :: q := by
    obtain ⟨qs, rest, f1, f2, f3⟩ := h2.flight
    rw [hq, List.nil_append] at f3
    subst f3
    generalize sb.enc.writeNonce = N at f1
    cases f1 with
    | cons => cases f2 with
      | cons => exact ⟨_, _, rfl⟩
  obtain ⟨m', q, rfl⟩ := hne
  obtain ⟨tr, r', raw', j, c1, c2, c3, c4, c5⟩ := (app_chan hb).read h2 i
  have c3 := c3.moves
  have cx : Exec (App.read sa) tr (.ok m', r') := c1
  rw [Co.read_waits hq h2.push, Exec_op] at cx
  obtain ⟨r, tr', rfl, cx⟩ := cx
  cases c2 with
  | crypto _ hio => cases hio
  | read _ c2 =>
    generalize hcs : callsOf (⟨EnvOp.read, r⟩ :: tr') = cs at c3
    generalize hout : ([] : List Bytes) = out at c3
    cases c3 with
    | nil => cases hcs
    | write => cases hcs
    | @read tr2 _ _ _ m'' c3 =>
      injection hcs with hr hcs
      have hr : r = .ok m := by injection hr
      subst hr
      have hc := Co.quiet_calls (Co.readRest_quiet _) cx
      rw [hc] at hcs
      subst hcs
      generalize hout : ([] : List Bytes) = out at c3
      cases c3
      exact ⟨m', q, r', j, rfl, Co.block_local f cx c2 hc, c4, c5⟩

/-- A waiting task gets a message. -/
theorem TaskInv.aRecv (hb : BoxLaw L) {ca cb : Clock} {x : Direct ι κ α β} {a : Loop ι AppSt α} {b : Loop κ AppSt β}
    {ab ba : List Bytes} (t : ι) (m : Bytes) (k : Except Err Bytes → IT (sh AppSt) α)
    (h : TaskInv S L ca cb x ⟨a, b, ab, m :: ba⟩) (hk : a.tasks t = .op (S := sh AppSt) (.env .read) k) :
    ∃ y, Direct.Reach x y ∧
      TaskInv S L ca cb y ⟨(a.run L ca t (k (.ok m))).1, b, ab ++ (a.run L ca t (k (.ok m))).2, ba⟩ := by
  obtain ⟨na, nb, h1, h2, h3, h4⟩ := h.ex
  obtain ⟨xa, xb, xab, xba⟩ := x
  simp only at h1 h2 h3 h4
  obtain ⟨f, hf, hn⟩ := h3.modest
  have hft : f t ≤ na := (Finset.single_le_sum (fun _ _ => Nat.zero_le _) (Finset.mem_univ t)).trans hn
  have hrel := h3.rel t
  have hq : a.st.readQ = [] := h3.waits t (by rw [hk]; trivial)
  rw [hk] at hrel
  generalize hp : xa t = p at hrel
  generalize hT : (IT.op (S := sh AppSt) (.env .read) k) = T at hrel
  cases hrel with
  | call => exact absurd (hT ▸ trivial) (task_not_atRead p)
  | wait k' =>
    have hkk : k = fun r => IT.bind (Co.readRest r) fun r => Co.task (k' r) := by injection hT
    subst hkk
    obtain ⟨m', q, r', j, rfl, hblk, c4, c5⟩ := recv_block hb m a.calls h2 hq fun r => Co.task (k' r)
    have hmod : Modest 65535 (k' (.ok m')) (f t) := by
      have := hf t
      rw [hp] at this
      exact this _
    obtain ⟨T, s', i', out, p', ab', ba', m1, e1, e2, e3, e4, e5, e6, e7, e8, e9, e10⟩ := advance hb (k' (.ok m')) j
      (c5 _ _ _ h1) c4 hmod hft
    refine ⟨⟨Function.update xa t p', xb, ab', ba'⟩, ?_, ⟨na - (f t - m1), nb, ?_, ?_, ?_, h4⟩, fun hS => ?_⟩
    · exact (TAdv.head (p := .op (S := appSig) .read k') (fun a b t e => .aRead t m' k' e) e2).run xa xb t hp
    all_goals simp only [Loop.run, hblk, e1]
    · exact e4
    · exact e5
    · refine h3.update t hf hn e3 e6 e7 e8 fun hw => ?_
      rw [hp] at hw
      exact absurd hw id
    · obtain ⟨s1, s2, s3, s4, s5⟩ := h.short hS
      have hc := s2 t
      simp only [hp] at hc
      obtain ⟨f1, f2⟩ := e10 s1 (hc _)
      exact ⟨s1, callsWithin_update s2 t f2, s3, s4.append f1, fun m hm => s5 m (List.mem_cons_of_mem _ hm)⟩

theorem TaskInv.step (hb : BoxLaw L) {ca cb : Clock} {x : Direct ι κ α β} {X Y : TaskNet ι κ AppSt AppSt α β}
    (h : TaskInv S L ca cb x X) (hs : TaskNet.Step L ca cb X Y) : ∃ y, Direct.Reach x y ∧ TaskInv S L ca cb y Y := by
  cases hs with
  | aRun t hr => exact h.aRun hb t hr
  | aRecv t m k hk => exact TaskInv.aRecv hb t m k h hk
  | bRun t hr =>
    obtain ⟨y, h1, h2⟩ := h.swap.aRun hb t hr
    exact ⟨y.swap, h1.swap, h2.swap⟩
  | bRecv t m k hk =>
    obtain ⟨y, h1, h2⟩ := TaskInv.aRecv hb t m k h.swap hk
    exact ⟨y.swap, h1.swap, h2.swap⟩

theorem TaskInv.reach (hb : BoxLaw L) {ca cb : Clock} {x : Direct ι κ α β} {X Y : TaskNet ι κ AppSt AppSt α β}
    (h : TaskInv S L ca cb x X) (hr : TaskNet.Reach L ca cb X Y) : ∃ y, Direct.Reach x y ∧ TaskInv S L ca cb y Y := by
  induction hr with
  | refl => exact ⟨x, .refl _, h⟩
  | step _ s ih =>
    obtain ⟨y, h1, h2⟩ := ih
    obtain ⟨z, h3, h4⟩ := h2.step hb s
    exact ⟨z, h1.trans h3, h4⟩

theorem TaskRel.result {p : IT appSig α} {T : IT (sh AppSt) α} (h : TaskRel p T) {b : α} (hT : T = .ret b) : p = .ret b := by
  cases h with
  | call =>
    cases p with
    | ret x => injection hT with hT; rw [hT]
    | op e k => cases e <;> cases hT
  | wait => cases hT

/-- When nothing more can happen, each task of a side has returned or waits, and so does its ideal; if one waits, no
message is left. -/
theorem TaskInv.final_a {ca cb : Clock} {x : Direct ι κ α β} {X : TaskNet ι κ AppSt AppSt α β}
    (h : TaskInv S L ca cb x X) (hs : TaskNet.Stuck L ca cb X) :
    ∀ t, TaskEnd (x.a t) (X.a.tasks t) ∧ ∀ k, x.a t = .op (S := appSig) .read k → x.ba = [] := by
  obtain ⟨na, nb, h1, h2, h3, h4⟩ := h.ex
  obtain ⟨xa, xb, xab, xba⟩ := x
  obtain ⟨a, b, ab, ba⟩ := X
  simp only at *
  intro t
  have hnr : ¬ Ready (a.tasks t) := fun hr => hs _ (.aRun t hr)
  have hrel := h3.rel t
  have hwait := h3.waits t
  generalize hT : a.tasks t = T at *
  generalize xa t = p at hrel
  cases hrel with
  | call =>
    cases p with
    | ret x => exact ⟨.ret x, fun _ h => by cases h⟩
    | op e k => cases e <;> exact absurd trivial hnr
  | wait k =>
    refine ⟨.wait _ _, fun _ _ => ?_⟩
    have hq := hwait trivial
    cases ba with
    | cons m ba => exact absurd (TaskNet.Step.aRecv t m _ hT) (hs _)
    | nil =>
      obtain ⟨qs, rest, f1, f2, f3⟩ := h2.flight
      rw [hq, List.nil_append] at f3
      subst f3
      generalize b.st.enc.writeNonce = N at f1
      cases f1
      cases f2
      rfl

theorem TaskInv.final {ca cb : Clock} {x : Direct ι κ α β} {X : TaskNet ι κ AppSt AppSt α β}
    (h : TaskInv S L ca cb x X) (hs : TaskNet.Stuck L ca cb X) :
    Direct.Stuck x ∧ (∀ t, TaskEnd (x.a t) (X.a.tasks t)) ∧ ∀ t, TaskEnd (x.b t) (X.b.tasks t) := by
  have ha := h.final_a hs
  have hb := h.swap.final_a fun Y hY => hs _ hY.swap
  refine ⟨?_, fun t => (ha t).1, fun t => (hb t).1⟩
  intro y hy
  cases hy with
  | aWrite t ms l k hk =>
    have := (ha t).1
    simp only [] at this
    rw [hk] at this
    cases this
  | aRead t m k hk => exact absurd ((ha t).2 k hk) (by simp)
  | bWrite t ms l k hk =>
    have : TaskEnd (_ : IT appSig β) (_ : IT (sh AppSt) β) := (hb t).1
    simp only [Direct.swap] at this
    rw [hk] at this
    cases this
  | bRead t m k hk => exact absurd ((hb t).2 k hk) (by simp [Direct.swap])

/-! ### Every schedule ends -/

/-- `u` is what may be left of `t` after its first operation. -/
def Child {S : Sig} {β : Type} (u t : IT S β) : Prop := ∃ e k r, t = .op e k ∧ u = k r

theorem child_wf {S : Sig} {β : Type} : WellFounded (Child : IT S β → IT S β → Prop) := by
  refine ⟨fun t => ?_⟩
  induction t with
  | ret b => exact ⟨_, fun u ⟨_, _, _, h, _⟩ => by cases h⟩
  | op e k ih =>
    refine ⟨_, fun u ⟨e', k', r, h, hu⟩ => ?_⟩
    cases h
    exact hu ▸ ih r

instance {S : Sig} {β : Type} : IsWellFounded (IT S β) (Relation.TransGen Child) := ⟨child_wf.transGen⟩

/-- The height of a tree. -/
noncomputable def height {S : Sig} {β : Type} (t : IT S β) : Ordinal :=
  IsWellFounded.rank (Relation.TransGen (Child (S := S) (β := β))) t

theorem height_child {S : Sig} {β : Type} (e : S.Op) (k : Except Err (S.Resp e) → IT S β) (r : Except Err (S.Resp e)) :
    height (k r) < height (.op e k) :=
  IsWellFounded.rank_lt_of_rel (.single ⟨e, k, r, rfl, rfl⟩)

theorem block_height {σ : Type} {c : Clock} (t : IT (sh σ) α) (s : σ) (i : Nat) :
    height (block L c t s i).1 ≤ height t ∧ (Ready t → height (block L c t s i).1 < height t) := by
  induction t generalizing s i with
  | ret b => exact ⟨le_rfl, fun h => h.elim⟩
  | op e k ih =>
    have key : ∀ r s i, height (block L c (k r) s i).1 < height (.op e k) := fun r s i =>
      lt_of_le_of_lt (ih r s i).1 (height_child e k r)
    rcases e with _ | s' | e
    · exact ⟨(key _ _ _).le, fun _ => key _ _ _⟩
    · exact ⟨(key _ _ _).le, fun _ => key _ _ _⟩
    · cases e with
      | read => exact ⟨le_rfl, fun h => h.elim⟩
      | write ms l => exact ⟨(height_child _ k _).le, fun _ => height_child _ k _⟩
      | _ => exact ⟨(key _ _ _).le, fun _ => key _ _ _⟩

/-- The heights of all tasks. -/
noncomputable def heights {σ τ : Type} (x : TaskNet ι κ σ τ α β) : ι ⊕ κ → Ordinal :=
  Sum.elim (fun t => height (x.a.tasks t)) fun t => height (x.b.tasks t)

theorem step_heights {σ τ : Type} {ca cb : Clock} {x y : TaskNet ι κ σ τ α β} (h : TaskNet.Step L ca cb x y) :
    heights y < heights x := by
  have keyA : ∀ (a : Loop ι σ α) (b : Loop κ τ β) (t : ι) (T : IT (sh σ) α) (ab ba ab' ba' : List Bytes) s i,
      height T < height (a.tasks t) →
      heights (⟨⟨Function.update a.tasks t T, s, i⟩, b, ab', ba'⟩ : TaskNet ι κ σ τ α β) < heights ⟨a, b, ab, ba⟩ := by
    intro a b t T ab ba ab' ba' s i h
    refine Pi.lt_def.2 ⟨?_, Sum.inl t, ?_⟩
    · rintro (u | u)
      · simp only [heights, Sum.elim_inl]
        by_cases hu : u = t
        · subst hu; simpa using h.le
        · rw [Function.update_of_ne hu]
      · exact le_rfl
    · simpa only [heights, Sum.elim_inl, Function.update_self] using h
  have keyB : ∀ (a : Loop ι σ α) (b : Loop κ τ β) (t : κ) (T : IT (sh τ) β) (ab ba ab' ba' : List Bytes) s i,
      height T < height (b.tasks t) →
      heights (⟨a, ⟨Function.update b.tasks t T, s, i⟩, ab', ba'⟩ : TaskNet ι κ σ τ α β) < heights ⟨a, b, ab, ba⟩ := by
    intro a b t T ab ba ab' ba' s i h
    refine Pi.lt_def.2 ⟨?_, Sum.inr t, ?_⟩
    · rintro (u | u)
      · exact le_rfl
      · simp only [heights, Sum.elim_inr]
        by_cases hu : u = t
        · subst hu; simpa using h.le
        · rw [Function.update_of_ne hu]
    · simpa only [heights, Sum.elim_inr, Function.update_self] using h
  cases h with
  | aRun t hr => exact keyA _ _ t _ _ _ _ _ _ _ ((block_height _ _ _).2 hr)
  | aRecv t m k hk =>
    refine keyA _ _ t _ _ _ _ _ _ _ (lt_of_le_of_lt (block_height _ _ _).1 ?_)
    rw [hk]; exact height_child (S := sh σ) (.env .read) k _
  | bRun t hr => exact keyB _ _ t _ _ _ _ _ _ _ ((block_height _ _ _).2 hr)
  | bRecv t m k hk =>
    refine keyB _ _ t _ _ _ _ _ _ _ (lt_of_le_of_lt (block_height _ _ _).1 ?_)
    rw [hk]; exact height_child (S := sh τ) (.env .read) k _

theorem tasks_terminate {σ τ : Type} {ca cb : Clock} (x : TaskNet ι κ σ τ α β) : TaskNet.Terminates L ca cb x := by
  have hwf : WellFounded (fun f g : ι ⊕ κ → Ordinal.{0} => f < g) := wellFounded_lt
  refine Subrelation.accessible (r := InvImage (fun f g : ι ⊕ κ → Ordinal.{0} => f < g) heights) ?_ ?_
  · intro y x h; exact step_heights h
  · exact (InvImage.wf heights hwf).apply x

theorem tasks_final {σ τ : Type} {ca cb : Clock} (x : TaskNet ι κ σ τ α β) :
    ∃ y, TaskNet.Reach L ca cb x y ∧ TaskNet.Stuck L ca cb y := by
  have := tasks_terminate (L := L) (ca := ca) (cb := cb) x
  induction this with
  | intro x _ ih =>
    by_cases h : TaskNet.Stuck L ca cb x
    · exact ⟨x, .refl _, h⟩
    · simp only [TaskNet.Stuck, not_forall, not_not] at h
      obtain ⟨y, hy⟩ := h
      obtain ⟨z, h1, h2⟩ := ih y hy
      refine ⟨z, ?_, h2⟩
      clear ih h2
      induction h1 with
      | refl => exact .step (.refl _) hy
      | step _ s ih => exact .step ih s

end

end Salt
