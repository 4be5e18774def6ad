import Verif.Lemmas.AioFinal

/-!
# Tasks on channels without a session

Tasks that use an `AsyncioChannel` directly: on the network of messages they are the directly connected tasks.
-/

set_option linter.unusedSectionVars false

namespace Salt

open Salt.Spec

variable {ι κ α β : Type} [DecidableEq ι] [DecidableEq κ] [Fintype ι] [Fintype κ] {L : Lib}

theorem block_plain {c : Clock} (p : IT appSig α) (i : Nat) (ab ba : List Bytes) :
    ∃ p' out, block L c (Aio.plain p) () i = (Aio.plain p', (), i, out) ∧ TAdv p ab ba p' (ab ++ out) ba ∧
      (ShortWritesP p → (∀ m ∈ out, m.length < 2 ^ 31) ∧ ShortWritesP p') := by
  cases p with
  | ret b => exact ⟨.ret b, [], rfl, by rw [List.append_nil]; exact .refl _ _ _, fun h => ⟨by simp, h⟩⟩
  | op e k =>
    cases e with
    | read => exact ⟨.op (S := appSig) .read k, [], rfl, by rw [List.append_nil]; exact .refl _ _ _, fun h => ⟨by simp, h⟩⟩
    | write ms l => exact ⟨k (.ok ()), ms, rfl, .head (fun a b t h => .aWrite t ms l k h) (.refl _ _ _), fun h => ⟨h.1, h.2 _⟩⟩

theorem shortWrites_update {p : ι → IT appSig α} (h : ∀ t, ShortWritesP (p t)) (t : ι) {p' : IT appSig α}
    (h' : ShortWritesP p') : ∀ u, ShortWritesP (Function.update p t p' u) := by
  intro u
  by_cases hu : u = t
  · subst hu; simpa using h'
  · rw [Function.update_of_ne hu]; exact h u

theorem update_plain (p : ι → IT appSig α) (t : ι) (p' : IT appSig α) :
    Function.update (fun u => Aio.plain (p u)) t (Aio.plain p') = fun u => Aio.plain (Function.update p t p' u) := by
  funext u
  by_cases hu : u = t
  · subst hu; simp
  · simp [Function.update_of_ne hu]

/-- The tasks are those of the ideal, the links carry the same messages; all writes are short. -/
structure PlainInv (x : Direct ι κ α β) (X : TaskNet ι κ Unit Unit α β) : Prop where
  a : X.a.tasks = fun t => Aio.plain (x.a t)
  b : X.b.tasks = fun t => Aio.plain (x.b t)
  ab : X.ab = x.ab
  ba : X.ba = x.ba
  shortA : ∀ t, ShortWritesP (x.a t)
  shortB : ∀ t, ShortWritesP (x.b t)
  shortAB : ∀ m ∈ x.ab, m.length < 2 ^ 31
  shortBA : ∀ m ∈ x.ba, m.length < 2 ^ 31

theorem PlainInv.swap {x : Direct ι κ α β} {X : TaskNet ι κ Unit Unit α β} (h : PlainInv x X) : PlainInv x.swap X.swap :=
  ⟨h.b, h.a, h.ba, h.ab, h.shortB, h.shortA, h.shortBA, h.shortAB⟩

theorem PlainInv.run {ca : Clock} {a : Loop ι Unit α} {b : Loop κ Unit β} {ab ba : List Bytes} {x : Direct ι κ α β}
    (h : PlainInv x ⟨a, b, ab, ba⟩) (t : ι) :
    ∃ y, Direct.Reach x y ∧ PlainInv y ⟨(a.run L ca t (a.tasks t)).1, b, ab ++ (a.run L ca t (a.tasks t)).2, ba⟩ := by
  obtain ⟨ta, ⟨⟩, i⟩ := a
  obtain ⟨xa, xb, xab, xba⟩ := x
  obtain ⟨h1, h2, h3, h4, h5, h6, h7, h8⟩ := h
  simp only at h1 h2 h3 h4 h5 h6 h7 h8
  subst h1 h3 h4
  obtain ⟨p', out, e1, e2, e3⟩ := block_plain (L := L) (c := ca) (xa t) i ab ba
  obtain ⟨e3, e4⟩ := e3 (h5 t)
  refine ⟨_, e2.run xa xb t rfl, ?_⟩
  simp only [Loop.run, e1, update_plain]
  exact ⟨rfl, h2, rfl, rfl, shortWrites_update h5 t e4, h6, fun m hm => (List.mem_append.1 hm).elim (h7 m) (e3 m), h8⟩

theorem PlainInv.recv {ca : Clock} {a : Loop ι Unit α} {b : Loop κ Unit β} {ab ba : List Bytes} {x : Direct ι κ α β}
    (t : ι) (m : Bytes) (k : Except Err Bytes → IT (sh Unit) α) (h : PlainInv x ⟨a, b, ab, m :: ba⟩)
    (hk : a.tasks t = .op (S := sh Unit) (.env .read) k) :
    ∃ y, Direct.Reach x y ∧ PlainInv y ⟨(a.run L ca t (k (.ok m))).1, b, ab ++ (a.run L ca t (k (.ok m))).2, ba⟩ := by
  obtain ⟨ta, ⟨⟩, i⟩ := a
  obtain ⟨xa, xb, xab, xba⟩ := x
  obtain ⟨h1, h2, h3, h4, h5, h6, h7, h8⟩ := h
  simp only at h1 h2 h3 h4 h5 h6 h7 h8 hk
  subst h1 h3 h4
  cases hp : xa t with
  | ret b => simp only [hp, Aio.plain] at hk; cases hk
  | op e k' =>
    cases e with
    | write ms l => simp only [hp, Aio.plain] at hk; cases hk
    | read =>
      simp only [hp, Aio.plain] at hk
      cases hk
      obtain ⟨p', out, e1, e2, e3⟩ := block_plain (L := L) (c := ca) (k' (.ok m)) i ab ba
      have h5' := h5 t
      rw [hp] at h5'
      obtain ⟨e3, e4⟩ := e3 (h5' _)
      refine ⟨_, (TAdv.head (p := .op (S := appSig) .read k') (fun a b t h => .aRead t m k' h) e2).run xa xb t hp, ?_⟩
      simp only [Loop.run, e1, update_plain]
      exact ⟨rfl, h2, rfl, rfl, shortWrites_update h5 t e4, h6, fun m hm => (List.mem_append.1 hm).elim (h7 m) (e3 m),
        fun m hm => h8 m (List.mem_cons_of_mem _ hm)⟩

theorem PlainInv.step {ca cb : Clock} {x : Direct ι κ α β} {X Y : TaskNet ι κ Unit Unit α β} (h : PlainInv x X)
    (hs : TaskNet.Step L ca cb X Y) : ∃ y, Direct.Reach x y ∧ PlainInv y Y := by
  cases hs with
  | aRun t hr => exact h.run t
  | aRecv t m k hk => exact PlainInv.recv t m k h hk
  | bRun t hr =>
    obtain ⟨y, h1, h2⟩ := PlainInv.run (L := L) (ca := cb) (x := x.swap) h.swap t
    exact ⟨y.swap, h1.swap, h2.swap⟩
  | bRecv t m k hk =>
    obtain ⟨y, h1, h2⟩ := PlainInv.recv (L := L) (ca := cb) (x := x.swap) t m k h.swap hk
    exact ⟨y.swap, h1.swap, h2.swap⟩

theorem PlainInv.reach {ca cb : Clock} {x : Direct ι κ α β} {X Y : TaskNet ι κ Unit Unit α β} (h : PlainInv x X)
    (hr : TaskNet.Reach L ca cb X Y) : ∃ y, Direct.Reach x y ∧ PlainInv y Y := by
  induction hr with
  | refl => exact ⟨x, .refl _, h⟩
  | step _ s ih =>
    obtain ⟨y, h1, h2⟩ := ih
    obtain ⟨z, h3, h4⟩ := h2.step s
    exact ⟨z, h1.trans h3, h4⟩

theorem plain_ret {p : IT appSig α} {r : α} (h : Aio.plain p = .ret r) : p = .ret r := by
  cases p with
  | ret b => injection h with h; rw [h]
  | op e k => cases e <;> cases h

theorem PlainInv.final_a {ca cb : Clock} {x : Direct ι κ α β} {X : TaskNet ι κ Unit Unit α β} (h : PlainInv x X)
    (hs : TaskNet.Stuck L ca cb X) :
    ∀ t, TaskEnd (x.a t) (X.a.tasks t) ∧ ∀ k, x.a t = .op (S := appSig) .read k → x.ba = [] := by
  obtain ⟨a, b, ab, ba⟩ := X
  obtain ⟨h1, -, -, h4, -, -, -, -⟩ := h
  simp only at h1 h4
  subst h4
  intro t
  have ht : a.tasks t = Aio.plain (x.a t) := by rw [h1]
  simp only [ht]
  cases hp : x.a t with
  | ret r => exact ⟨.ret r, fun k h => by cases h⟩
  | op e k =>
    rw [hp] at ht
    cases e with
    | write ms l => exact absurd (TaskNet.Step.aRun t (by rw [ht]; trivial)) (hs _)
    | read =>
      refine ⟨.wait _ _, fun k' _ => ?_⟩
      cases hba : x.ba with
      | nil => rfl
      | cons m ms =>
        rw [hba] at hs
        exact absurd (TaskNet.Step.aRecv t m _ ht) (hs _)

/-- On the network of messages, tasks using a channel directly are the directly connected tasks, even if several
read. -/
theorem plain_like_direct {ca cb : Clock} (pA : ι → IT appSig α) (pB : κ → IT appSig β) (hA : ∀ t, ShortWritesP (pA t))
    (hB : ∀ t, ShortWritesP (pB t)) :
    LikeDirect L ca cb pA pB ⟨⟨fun t => Aio.plain (pA t), (), 0⟩, ⟨fun t => Aio.plain (pB t), (), 0⟩, [], []⟩ ∧
    ShortNet L ca cb
      (⟨⟨fun t => Aio.plain (pA t), (), 0⟩, ⟨fun t => Aio.plain (pB t), (), 0⟩, [], []⟩ : TaskNet ι κ Unit Unit α β) := by
  have inv : PlainInv ⟨pA, pB, [], []⟩ (⟨⟨fun t => Aio.plain (pA t), (), 0⟩, ⟨fun t => Aio.plain (pB t), (), 0⟩, [], []⟩ :
    TaskNet ι κ Unit Unit α β) := ⟨rfl, rfl, rfl, rfl, hA, hB, by simp, by simp⟩
  refine ⟨⟨tasks_terminate _, tasks_final _, fun Y hY => ?_⟩, fun Y hY => ?_⟩
  · obtain ⟨y, h1, h2⟩ := inv.reach hY
    refine ⟨y, h1, fun t r hr => plain_ret (by rw [← hr, h2.a]), fun t r hr => plain_ret (by rw [← hr, h2.b]), fun hs => ?_⟩
    have ha := h2.final_a hs
    have hb := h2.swap.final_a (L := L) (ca := cb) (cb := ca) fun Y hY => hs _ hY.swap
    refine ⟨?_, fun t => (ha t).1, fun t => (hb t).1⟩
    intro z hz
    cases hz with
    | aWrite t ms l k h =>
      have := (ha t).1
      simp only [h] at this
      generalize Y.a.tasks t = T at this
      cases this
    | bWrite t ms l k h =>
      have := (hb t).1
      simp only [Direct.swap, h] at this
      generalize Y.swap.a.tasks t = T at this
      cases this
    | aRead t m k h => have := (ha t).2 k h; cases this
    | bRead t m k h => have := (hb t).2 k h; cases this
  · obtain ⟨y, h1, h2⟩ := inv.reach hY
    rw [h2.ab, h2.ba]
    exact ⟨h2.shortAB, h2.shortBA⟩

theorem plain_noRead {p : IT appSig α} (h : WriteOnly p) : NoRead (Aio.plain p) := by
  induction p with
  | ret b => trivial
  | op e k ih =>
    cases e with
    | read => exact absurd h id
    | write ms l => exact fun r => ih r (h r)

end Salt
