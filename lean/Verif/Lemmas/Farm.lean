import Verif.Spec.Farm

/-!
# One server thread, many clients
-/

namespace Salt

variable {X : Type} {S : Link X}

/-- How many steps of a client thread, and of the server with its connection, are left. -/
def Conn.left (c : Conn X) : Nat :=
  (match c.cl with | .idle => 2 | .running => 1 | .left => 0) +
  match c.sv with | .waiting => 2 | .serving => 1 | .served => 0

/-- A connection makes progress. -/
def Conn.Less (S : Link X) (d c : Conn X) : Prop :=
  (d.left < c.left ∧ d.x = c.x) ∨ (d.left = c.left ∧ (S.stepC c.x d.x ∨ S.stepS c.x d.x))

theorem Conn.acc (n : Nat) {x : X} (h : S.Terminates x) : ∀ c : Conn X, c.x = x → c.left = n → Acc (Conn.Less S) c := by
  unfold Link.Terminates at h
  induction h generalizing n with
  | intro x _ ih =>
    induction n using Nat.strongRecOn with
    | _ n ihn =>
      intro c hx hn
      refine .intro _ fun d hd => ?_
      rcases hd with ⟨h1, h2⟩ | ⟨h1, h2⟩
      · exact ihn d.left (hn ▸ h1) d (h2.trans hx) rfl
      · exact ih d.x (hx ▸ h2) d.left d rfl rfl

/-- One element of a list makes progress. -/
def ListLess {α : Type} (R : α → α → Prop) (ys xs : List α) : Prop :=
  ∃ i c c', xs[i]? = some c ∧ ys = xs.set i c' ∧ R c' c

theorem listLess_acc {α : Type} {R : α → α → Prop} : ∀ xs : List α, (∀ x ∈ xs, Acc R x) → Acc (ListLess R) xs
  | [], _ => .intro _ fun ys ⟨i, c, c', h, _⟩ => by simp at h
  | x :: xs, h => by
    have hx := h x (List.mem_cons_self ..)
    have hxs := listLess_acc xs fun y hy => h y (List.mem_cons_of_mem _ hy)
    clear h
    induction hx generalizing xs with
    | intro x _ ihx =>
      induction hxs with
      | intro xs hacc ihxs =>
        refine .intro _ fun ys ⟨i, c, c', h1, h2, h3⟩ => ?_
        cases i with
        | zero =>
          simp at h1
          subst h1 h2
          exact ihx c' h3 xs (.intro _ hacc)
        | succ i =>
          subst h2
          exact ihxs _ ⟨i, c, c', by simpa using h1, rfl, h3⟩

theorem Farm.Step.less {F G : Farm X} (h : Farm.Step S F G) : ListLess (Conn.Less S) G.conns F.conns := by
  cases h with
  | @connect i c h1 h2 => exact ⟨i, c, _, h1, rfl, .inl ⟨by simp [Conn.left, h2], rfl⟩⟩
  | @accept i q c h1 h2 h3 h4 => exact ⟨i, c, _, h3, rfl, .inl ⟨by simp [Conn.left, h4], rfl⟩⟩
  | @client i c y h1 h2 h3 => exact ⟨i, c, _, h1, rfl, .inr ⟨rfl, .inl h3⟩⟩
  | @server i c y h1 h2 h3 => exact ⟨i, c, _, h1, rfl, .inr ⟨rfl, .inr h3⟩⟩
  | @finish i c h1 h2 h3 => exact ⟨i, c, _, h1, rfl, .inl ⟨by simp [Conn.left, h2], rfl⟩⟩
  | @leave i c h1 h2 h3 => exact ⟨i, c, _, h1, rfl, .inl ⟨by simp [Conn.left, h2], rfl⟩⟩

theorem Farm.terminates {xs : List X} (h : ∀ x ∈ xs, S.Terminates x) : Farm.Terminates S (Farm.start xs) := by
  have : Acc (ListLess (Conn.Less S)) (Farm.start xs).conns := by
    refine listLess_acc _ fun c hc => ?_
    obtain ⟨x, hx, rfl⟩ := List.mem_map.1 hc
    exact Conn.acc _ (h x hx) _ rfl rfl
  exact Subrelation.accessible (fun h => h.less) (InvImage.accessible Farm.conns this)

theorem get_set {α : Type} {l : List α} {i j : Nat} {c c' d : α} (h : l[i]? = some c) :
    (l.set i c')[j]? = some d ↔ (j = i ∧ d = c') ∨ (j ≠ i ∧ l[j]? = some d) := by
  rw [List.getElem?_set]
  have hi : i < l.length := (List.getElem?_eq_some_iff.1 h).1
  by_cases hij : i = j
  · subst hij
    simp [hi, eq_comm]
  · rw [if_neg hij]
    constructor
    · exact fun h => .inr ⟨fun e => hij e.symm, h⟩
    · rintro (⟨e, -⟩ | ⟨-, h⟩)
      · exact absurd e.symm hij
      · exact h

/-- What holds of every configuration reached. -/
structure Farm.Inv (S : Link X) (xs : List X) (F : Farm X) : Prop where
  reach : ∀ (i : Nat) (c : Conn X), F.conns[i]? = some c → ∃ x, xs[i]? = some x ∧ S.Reach x c.x
  queue : ∀ i ∈ F.queue, ∃ c : Conn X, F.conns[i]? = some c ∧ c.sv = .waiting ∧ c.cl ≠ .idle
  waiting : ∀ (i : Nat) (c : Conn X), F.conns[i]? = some c → c.sv = .waiting → c.cl = .idle ∨ i ∈ F.queue
  idle : ∀ (i : Nat) (c : Conn X), F.conns[i]? = some c → c.cl = .idle → c.sv = .waiting ∧ i ∉ F.queue
  one : ∀ (i j : Nat) (c d : Conn X), F.conns[i]? = some c → F.conns[j]? = some d → c.sv = .serving → d.sv = .serving → i = j
  served : ∀ (i : Nat) (c : Conn X), F.conns[i]? = some c → c.sv = .served → S.doneS c.x
  left : ∀ (i : Nat) (c : Conn X), F.conns[i]? = some c → c.cl = .left → S.doneC c.x
  active : F.active = true → ∃ (i : Nat) (c : Conn X), F.conns[i]? = some c ∧ c.cl = .running
  nodup : F.queue.Nodup
  len : F.conns.length = xs.length

theorem Farm.Inv.start (xs : List X) : Farm.Inv S xs (Farm.start xs) := by
  have key : ∀ (i : Nat) (c : Conn X), (Farm.start xs).conns[i]? = some c → ∃ x, xs[i]? = some x ∧ c = ⟨.idle, .waiting, x⟩ := by
    intro i c h
    simp only [Farm.start, List.getElem?_map, Option.map_eq_some_iff] at h
    obtain ⟨x, h1, h2⟩ := h
    exact ⟨x, h1, h2.symm⟩
  refine ⟨fun i c h => ?_, fun i h => (by cases h), fun i c h _ => ?_, fun i c h _ => ?_, fun i j c d h h' hc _ => ?_,
    fun i c h hc => ?_, fun i c h hc => ?_, fun h => (by cases h), List.nodup_nil, by simp [Farm.start]⟩
  · obtain ⟨x, h1, rfl⟩ := key i c h
    exact ⟨x, h1, .refl _⟩
  · obtain ⟨x, h1, rfl⟩ := key i c h
    exact .inl rfl
  · obtain ⟨x, h1, rfl⟩ := key i c h
    exact ⟨rfl, fun h => (by cases h)⟩
  · obtain ⟨x, h1, rfl⟩ := key i c h
    cases hc
  · obtain ⟨x, h1, rfl⟩ := key i c h
    cases hc
  · obtain ⟨x, h1, rfl⟩ := key i c h
    cases hc

/-- A connection that has been made goes on. -/
theorem Farm.Inv.update {xs : List X} {F : Farm X} (h : Farm.Inv S xs F) {i : Nat} {c c' : Conn X} (h1 : F.conns[i]? = some c)
    (hr : c'.x = c.x ∨ S.stepC c.x c'.x ∨ S.stepS c.x c'.x) (hw : c'.sv = .waiting ↔ c.sv = .waiting)
    (hi : c'.cl = .idle ↔ c.cl = .idle) (hs : c'.sv = .serving → c.sv = .serving) (hd : c'.sv = .served → S.doneS c'.x)
    (hl : c'.cl = .left → S.doneC c'.x) {act : Bool} (ha : act = true → F.active = true ∧ c'.cl = c.cl) :
    Farm.Inv S xs ⟨F.conns.set i c', F.queue, act⟩ := by
  refine ⟨fun j d hd => ?_, fun j hj => ?_, fun j d hd hdw => ?_, fun j d hd hdi => ?_, fun j k d e hd he h3 h4 => ?_,
    fun j d hd hd' => ?_, fun j d hd hd' => ?_, fun hac => ?_, h.nodup, by simp [h.len]⟩
  · rcases (get_set h1).1 hd with ⟨rfl, rfl⟩ | ⟨-, hd⟩
    · obtain ⟨x, hx, hx'⟩ := h.reach _ c h1
      rcases hr with hr | hr
      · exact ⟨x, hx, hr ▸ hx'⟩
      · exact ⟨x, hx, .step hx' hr⟩
    · exact h.reach _ _ hd
  · obtain ⟨d, hd, hd1, hd2⟩ := h.queue j hj
    by_cases hji : j = i
    · subst hji
      rw [h1] at hd; cases hd
      exact ⟨_, (get_set h1).2 (.inl ⟨rfl, rfl⟩), hw.2 hd1, fun e => hd2 (hi.1 e)⟩
    · exact ⟨d, (get_set h1).2 (.inr ⟨hji, hd⟩), hd1, hd2⟩
  · rcases (get_set h1).1 hd with ⟨rfl, rfl⟩ | ⟨-, hd⟩
    · exact (h.waiting _ _ h1 (hw.1 hdw)).imp hi.2 id
    · exact h.waiting _ _ hd hdw
  · rcases (get_set h1).1 hd with ⟨rfl, rfl⟩ | ⟨-, hd⟩
    · exact (h.idle _ _ h1 (hi.1 hdi)).imp hw.2 id
    · exact h.idle _ _ hd hdi
  · have key : ∀ (j : Nat) (d : Conn X), (F.conns.set i c')[j]? = some d → d.sv = .serving →
        ∃ d', F.conns[j]? = some d' ∧ d'.sv = .serving := by
      intro j d hd hds
      rcases (get_set h1).1 hd with ⟨rfl, rfl⟩ | ⟨-, hd⟩
      · exact ⟨c, h1, hs hds⟩
      · exact ⟨d, hd, hds⟩
    obtain ⟨d', hd1, hd2⟩ := key j d hd h3
    obtain ⟨e', he1, he2⟩ := key k e he h4
    exact h.one _ _ _ _ hd1 he1 hd2 he2
  · rcases (get_set h1).1 hd with ⟨rfl, rfl⟩ | ⟨-, hd⟩
    · exact ‹d.sv = .served → _› hd'
    · exact h.served _ _ hd hd'
  · rcases (get_set h1).1 hd with ⟨rfl, rfl⟩ | ⟨-, hd⟩
    · exact hl hd'
    · exact h.left _ _ hd hd'
  · obtain ⟨ha1, ha2⟩ := ha hac
    obtain ⟨j, d, hd, hr⟩ := h.active ha1
    by_cases hji : j = i
    · subst hji
      rw [h1] at hd; cases hd
      exact ⟨j, _, (get_set h1).2 (.inl ⟨rfl, rfl⟩), ha2.trans hr⟩
    · exact ⟨j, d, (get_set h1).2 (.inr ⟨hji, hd⟩), hr⟩

theorem Farm.Inv.step (hS : S.Lawful) {xs : List X} {F G : Farm X} (h : Farm.Inv S xs F) (hs : Farm.Step S F G) :
    Farm.Inv S xs G := by
  cases hs with
  | @connect i c h1 h2 =>
    have hw := h.idle i c h1 h2
    refine ⟨fun j d hd => ?_, fun j hj => ?_, fun j d hd hdw => ?_, fun j d hd hdi => ?_, fun j k d e hd he h3 h4 => ?_,
      fun j d hd hd' => ?_, fun j d hd hd' => ?_, fun _ => ⟨i, _, (get_set h1).2 (.inl ⟨rfl, rfl⟩), rfl⟩, ?_, by simp [h.len]⟩
    · rcases (get_set h1).1 hd with ⟨rfl, rfl⟩ | ⟨-, hd⟩
      · exact h.reach _ c h1
      · exact h.reach _ _ hd
    · rcases List.mem_append.1 hj with hj | hj
      · obtain ⟨d, hd, hd1, hd2⟩ := h.queue j hj
        exact ⟨d, (get_set h1).2 (.inr ⟨fun e => hw.2 (e ▸ hj), hd⟩), hd1, hd2⟩
      · rw [List.mem_singleton.1 hj]
        exact ⟨_, (get_set h1).2 (.inl ⟨rfl, rfl⟩), hw.1, (by simp)⟩
    · rcases (get_set h1).1 hd with ⟨rfl, rfl⟩ | ⟨-, hd⟩
      · exact .inr (by simp)
      · rcases h.waiting _ _ hd hdw with h5 | h5
        · exact .inl h5
        · exact .inr (List.mem_append_left _ h5)
    · rcases (get_set h1).1 hd with ⟨rfl, rfl⟩ | ⟨hne, hd⟩
      · cases hdi
      · refine ⟨(h.idle _ _ hd hdi).1, fun hj => ?_⟩
        rcases List.mem_append.1 hj with hj | hj
        · exact (h.idle _ _ hd hdi).2 hj
        · exact hne (List.mem_singleton.1 hj)
    · rcases (get_set h1).1 hd with ⟨rfl, rfl⟩ | ⟨-, hd⟩
      · exact absurd (hw.1.symm.trans h3) (by simp)
      rcases (get_set h1).1 he with ⟨rfl, rfl⟩ | ⟨-, he⟩
      · exact absurd (hw.1.symm.trans h4) (by simp)
      exact h.one _ _ _ _ hd he h3 h4
    · rcases (get_set h1).1 hd with ⟨rfl, rfl⟩ | ⟨-, hd⟩
      · exact h.served _ c h1 hd'
      · exact h.served _ _ hd hd'
    · rcases (get_set h1).1 hd with ⟨rfl, rfl⟩ | ⟨-, hd⟩
      · cases hd'
      · exact h.left _ _ hd hd'
    · exact List.nodup_append.2 ⟨h.nodup, by simp, fun a ha b hb => by
        rw [List.mem_singleton.1 hb]; exact fun e => hw.2 (e ▸ ha)⟩
  | @accept i q c h0 hq h1 h2 =>
    have hni : c.cl ≠ .idle := by
      obtain ⟨d, hd, -, hd2⟩ := h.queue i (hq ▸ List.mem_cons_self ..)
      rw [h1] at hd; cases hd; exact hd2
    have hnd := h.nodup
    rw [hq] at hnd
    have hiq : i ∉ q := (List.nodup_cons.1 hnd).1
    have hqs : ∀ j ∈ q, j ∈ F.queue := fun j hj => hq ▸ List.mem_cons_of_mem _ hj
    refine ⟨fun j d hd => ?_, fun j hj => ?_, fun j d hd hdw => ?_, fun j d hd hdi => ?_, fun j k d e hd he h3 h4 => ?_,
      fun j d hd hd' => ?_, fun j d hd hd' => ?_, fun ha => ?_, (List.nodup_cons.1 hnd).2, by simp [h.len]⟩
    · rcases (get_set h1).1 hd with ⟨rfl, rfl⟩ | ⟨-, hd⟩
      · exact h.reach _ c h1
      · exact h.reach _ _ hd
    · obtain ⟨d, hd, hd1, hd2⟩ := h.queue j (hqs j hj)
      exact ⟨d, (get_set h1).2 (.inr ⟨fun e => hiq (e ▸ hj), hd⟩), hd1, hd2⟩
    · rcases (get_set h1).1 hd with ⟨rfl, rfl⟩ | ⟨hne, hd⟩
      · cases hdw
      · rcases h.waiting _ _ hd hdw with h5 | h5
        · exact .inl h5
        · rw [hq] at h5
          rcases List.mem_cons.1 h5 with h5 | h5
          · exact absurd h5 hne
          · exact .inr h5
    · rcases (get_set h1).1 hd with ⟨rfl, rfl⟩ | ⟨hne, hd⟩
      · exact absurd hdi hni
      · exact ⟨(h.idle _ _ hd hdi).1, fun hj => (h.idle _ _ hd hdi).2 (hqs j hj)⟩
    · have key : ∀ j d, (F.conns.set i { c with sv := .serving })[j]? = some d → d.sv = .serving → j = i := by
        intro j d hd hds
        rcases (get_set h1).1 hd with ⟨rfl, -⟩ | ⟨-, hd⟩
        · rfl
        · exact absurd hds (h0 d (List.mem_of_getElem? hd))
      rw [key j d hd h3, key k e he h4]
    · rcases (get_set h1).1 hd with ⟨rfl, rfl⟩ | ⟨-, hd⟩
      · cases hd'
      · exact h.served _ _ hd hd'
    · rcases (get_set h1).1 hd with ⟨rfl, rfl⟩ | ⟨-, hd⟩
      · exact h.left _ c h1 hd'
      · exact h.left _ _ hd hd'
    · obtain ⟨j, d, hd, hr⟩ := h.active ha
      by_cases hji : j = i
      · subst hji
        rw [h1] at hd; cases hd
        exact ⟨j, _, (get_set h1).2 (.inl ⟨rfl, rfl⟩), hr⟩
      · exact ⟨j, d, (get_set h1).2 (.inr ⟨hji, hd⟩), hr⟩
  | @client i c y h1 h2 h3 =>
    exact h.update (c' := { c with x := y }) h1 (.inr (.inl h3)) .rfl .rfl id (fun hd => hS.keepS _ _ (h.served _ _ h1 hd) h3)
      (fun hl => absurd (h2.symm.trans hl) (by simp)) fun ha => ⟨ha, rfl⟩
  | @server i c y h1 h2 h3 =>
    exact h.update (c' := { c with x := y }) h1 (.inr (.inr h3)) .rfl .rfl id (fun hd => absurd (h2.symm.trans hd) (by simp))
      (fun hl => hS.keepC _ _ (h.left _ _ h1 hl) h3) fun ha => ⟨ha, rfl⟩
  | @finish i c h1 h2 h3 =>
    exact h.update (c' := { c with sv := .served }) h1 (.inl rfl) (by simp [h2]) .rfl (fun e => (by cases e)) (fun _ => h3) (fun hl => h.left i c h1 hl)
      fun ha => ⟨ha, rfl⟩
  | @leave i c h1 h2 h3 =>
    exact h.update (c' := { c with cl := .left }) h1 (.inl rfl) .rfl (by simp [h2]) id (fun hd => h.served i c h1 hd) (fun _ => h3) fun ha => (by cases ha)

theorem Farm.Reach.trans {F G H : Farm X} (h : Farm.Reach S F G) (h' : Farm.Reach S G H) : Farm.Reach S F H := by
  induction h' with
  | refl => exact h
  | step _ hs ih => exact .step ih hs

theorem Farm.Reach.inv (hS : S.Lawful) {xs : List X} {F : Farm X} (h : Farm.Reach S (Farm.start xs) F) :
    Farm.Inv S xs F := by
  generalize hF0 : Farm.start xs = F0 at h
  induction h with
  | refl => exact hF0 ▸ .start xs
  | step _ hs ih => exact ih.step hS hs

/-- What a configuration in which nothing can happen looks like. -/
theorem Farm.Inv.final {xs : List X} {F : Farm X} (h : Farm.Inv S xs F) (hs : Farm.Stuck S F) (hS : S.Lawful)
    {i : Nat} {c : Conn X} (hc : F.conns[i]? = some c) :
    (c.cl = .running ∧ ¬ S.doneC c.x ∨ c.cl = .left ∧ S.doneC c.x) ∧
    (c.sv = .waiting ∧ (∃ (j : Nat) (d : Conn X), F.conns[j]? = some d ∧ d.sv = .serving) ∨
      c.sv = .serving ∧ S.Stuck c.x ∧ ¬ S.doneS c.x ∨ c.sv = .served ∧ S.Stuck c.x ∧ S.doneS c.x) := by
  have hcl : c.cl ≠ .idle := fun e => hs _ (.connect hc e)
  have hnoC : ∀ y, ¬ S.stepC c.x y := by
    intro y hy
    cases hcc : c.cl with
    | idle => exact hcl hcc
    | running => exact hs _ (.client hc hcc hy)
    | left => exact hS.noC _ _ (h.left _ _ hc hcc) hy
  refine ⟨?_, ?_⟩
  · cases hcc : c.cl with
    | idle => exact absurd hcc hcl
    | running => exact .inl ⟨rfl, fun hd => hs _ (.leave hc hcc hd)⟩
    | left => exact .inr ⟨rfl, h.left _ _ hc hcc⟩
  · cases hcs : c.sv with
    | waiting =>
      refine .inl ⟨rfl, Classical.byContradiction fun hn => ?_⟩
      have h0 : ∀ d ∈ F.conns, d.sv ≠ .serving := by
        intro d hd e
        obtain ⟨j, hj⟩ := List.getElem?_of_mem hd
        exact hn ⟨j, d, hj, e⟩
      have hq : i ∈ F.queue := (h.waiting _ _ hc hcs).resolve_left hcl
      cases hqq : F.queue with
      | nil => rw [hqq] at hq; cases hq
      | cons j q =>
        obtain ⟨d, hd, hd1, -⟩ := h.queue j (hqq ▸ List.mem_cons_self ..)
        exact hs _ (.accept h0 hqq hd hd1)
    | serving =>
      refine .inr (.inl ⟨rfl, fun y hy => ?_, fun hd => hs _ (.finish hc hcs hd)⟩)
      rcases hy with hy | hy
      · exact hnoC y hy
      · exact hs _ (.server hc hcs hy)
    | served =>
      have hd := h.served _ _ hc hcs
      refine .inr (.inr ⟨rfl, fun y hy => ?_, hd⟩)
      rcases hy with hy | hy
      · exact hnoC y hy
      · exact hS.noS _ _ hd hy

theorem Farm.exists_final {F : Farm X} (h : Farm.Terminates S F) : ∃ G, Farm.Reach S F G ∧ Farm.Stuck S G := by
  unfold Farm.Terminates at h
  induction h with
  | intro F _ ih =>
    by_cases hs : Farm.Stuck S F
    · exact ⟨F, .refl _, hs⟩
    · obtain ⟨G, hG⟩ := Classical.not_forall_not.1 hs
      obtain ⟨H, h1, h2⟩ := ih G hG
      refine ⟨H, ?_, h2⟩
      clear ih h2
      induction h1 with
      | refl => exact .step (.refl _) hG
      | step _ hs ih => exact .step ih hs

end Salt
