import Verif.Spec.Secrecy
import Verif.Lemmas.Session
import Verif.Lemmas.App

/-!
# Two runs in step
-/

set_option linter.unusedSimpArgs false

namespace Salt

open Spec Props

/-- Two programs in step. -/
inductive Twins {α β : Type} (R : α → β → Prop) : IT env α → IT env β → Prop
  | ret (a : α) (b : β) : R a b → Twins R (.ret a) (.ret b)
  | op (e e' : EnvOp) (k : Except Err e.Resp → IT env α) (k' : Except Err e'.Resp → IT env β) : SameCall e e' →
      (∀ r r', Alike ⟨e, r⟩ ⟨e', r'⟩ → Twins R (k r) (k' r')) → Twins R (.op (S := env) e k) (.op (S := env) e' k')

theorem Twins.mono {α β : Type} {R Q : α → β → Prop} {t : IT env α} {t' : IT env β} (h : Twins R t t')
    (hq : ∀ a b, R a b → Q a b) : Twins Q t t' := by
  induction h with
  | ret a b h => exact .ret _ _ (hq _ _ h)
  | op e e' k k' hc _ ih => exact .op _ _ _ _ hc ih

theorem Twins.bind {α β γ δ : Type} {R : α → β → Prop} {Q : γ → δ → Prop} {t : IT env α} {t' : IT env β}
    {f : α → IT env γ} {g : β → IT env δ} (h : Twins R t t') (hf : ∀ a b, R a b → Twins Q (f a) (g b)) :
    Twins Q (t.bind f) (t'.bind g) := by
  induction h with
  | ret a b h => exact hf _ _ h
  | op e e' k k' hc _ ih => exact .op _ _ _ _ hc ih

/-- Calls whose arguments and answers are not secret. -/
def Plain : EnvOp → Prop
  | .sign _ _ | .signOpen _ _ | .boxOpen _ _ _ => False
  | _ => True

theorem alike_plain {e : EnvOp} (h : Plain e) {r r' : Except Err e.Resp}
    (ha : Alike ⟨e, r⟩ ⟨e, r'⟩) : r = r' := by
  cases e <;> first | exact h.elim | (cases ha <;> rfl)

theorem Twins.step {α β : Type} {R : α → β → Prop} {e : EnvOp} {k : Except Err e.Resp → IT env α}
    {k' : Except Err e.Resp → IT env β} (he : Plain e) (h : ∀ r, Twins R (k r) (k' r)) :
    Twins R (.op (S := env) e k) (.op (S := env) e k') :=
  .op _ _ _ _ (.same e) fun _ _ ha => alike_plain he ha ▸ h _

theorem Twins.check {α β : Type} {R : α → β → Prop} {t t' : Nat} {k : Except Err Unit → IT env α}
    {k' : Except Err Unit → IT env β} (ht : t = t') (h : ∀ r, Twins R (k r) (k' r)) :
    Twins R (.op (S := env) (.check t) k) (.op (S := env) (.check t') k') := by
  subst ht
  exact Twins.step trivial h

theorem Twins.box {α β : Type} {R : α → β → Prop} {m m' n key : Bytes} {k : Except Err Bytes → IT env α}
    {k' : Except Err Bytes → IT env β} (hl : m.length = m'.length) (h : ∀ r, Twins R (k r) (k' r)) :
    Twins R (.op (S := env) (.box m n key) k) (.op (S := env) (.box m' n key) k') := by
  refine .op _ _ _ _ (.box _ _ _ _ hl) fun r r' ha => ?_
  cases ha <;> exact h _

theorem Twins.sign {α β : Type} {R : α → β → Prop} {m sk sk' : Bytes} {k : Except Err Bytes → IT env α}
    {k' : Except Err Bytes → IT env β} (he : ∀ e, Twins R (k (.error e)) (k' (.error e)))
    (h : ∀ s s', s.length = s'.length → Twins R (k (.ok s)) (k' (.ok s'))) :
    Twins R (.op (S := env) (.sign m sk) k) (.op (S := env) (.sign m sk') k') := by
  refine .op _ _ _ _ (.sign _ _ _) fun r r' ha => ?_
  cases ha with
  | same => cases r with
    | error e => exact he e
    | ok s => exact h s s rfl
  | sign _ _ _ _ _ hl => exact h _ _ hl
  | signErr => exact he _

theorem signOpen_cases {sm sm' pk pk' : Bytes} {r r' : Except Err Bytes}
    (ha : Alike ⟨.signOpen sm pk, r⟩ ⟨.signOpen sm' pk', r'⟩) :
    (∃ x y, r = .ok x ∧ r' = .ok y) ∨ ∃ e, r = .error e ∧ r' = .error e := by
  generalize hx : (⟨.signOpen sm pk, r⟩ : Ev env) = x at ha
  generalize hy : (⟨.signOpen sm' pk', r'⟩ : Ev env) = y at ha
  cases ha with
  | same ev =>
    subst hy
    cases hx
    cases r with
    | error e => exact .inr ⟨e, rfl, rfl⟩
    | ok s => exact .inl ⟨s, s, rfl, rfl⟩
  | signOpen => cases hx; cases hy; exact .inl ⟨_, _, rfl, rfl⟩
  | signOpenErr => cases hx; cases hy; exact .inr ⟨_, rfl, rfl⟩
  | box => cases hx
  | sign => cases hx
  | signErr => cases hx
  | boxOpen => cases hx

theorem Twins.signOpen {α β : Type} {R : α → β → Prop} {x y s s' m pk pk' : Bytes} {k : Except Err Bytes → IT env α}
    {k' : Except Err Bytes → IT env β} (hx : x = s ++ m) (hy : y = s' ++ m) (hs : s.length = 64) (hs' : s'.length = 64)
    (he : ∀ e, Twins R (k (.error e)) (k' (.error e))) (h : ∀ x y, Twins R (k (.ok x)) (k' (.ok y))) :
    Twins R (.op (S := env) (.signOpen x pk) k) (.op (S := env) (.signOpen y pk') k') := by
  subst hx hy
  refine .op _ _ _ _ (.signOpen _ _ _ _ _ hs hs') fun r r' ha => ?_
  rcases signOpen_cases ha with ⟨x, y, rfl, rfl⟩ | ⟨e, rfl, rfl⟩
  · exact h _ _
  · exact he _

theorem Twins.boxOpen {α β : Type} {R : α → β → Prop} {c n key : Bytes} {k : Except Err Bytes → IT env α}
    {k' : Except Err Bytes → IT env β} (he : ∀ e, Twins R (k (.error e)) (k' (.error e)))
    (h : ∀ x y, SameForm n x y → Twins R (k (.ok x)) (k' (.ok y))) :
    Twins R (.op (S := env) (.boxOpen c n key) k) (.op (S := env) (.boxOpen c n key) k') := by
  refine .op _ _ _ _ (.same _) fun r r' ha => ?_
  cases ha with
  | same => cases r with
    | error e => exact he e
    | ok s => exact h s s (.same s)
  | boxOpen _ _ _ _ _ hf => exact h _ _ hf

/-! ### Traces -/

theorem alike_wire {tr tr' : List (Ev env)} (h : InStep tr tr') : wire tr' = wire tr := by
  induction h with
  | nil => rfl
  | @cons ev ev' _ _ hab _ ih =>
    cases hab with
    | same =>
      rcases ev with ⟨op, r⟩
      cases op <;> simp [wire, ih]
    | _ => simp [wire, ih]

theorem Twins.or {α β : Type} {R : α → β → Prop} {t : IT env α} {t' : IT env β} (h : Twins R t t')
    {tr tr' : List (Ev env)} {x : α} {y : β} (h1 : Exec t tr x) (h2 : Exec t' tr' y) :
    (InStep tr tr' ∧ R x y) ∨
    ∃ p p' ev ev' q q', tr = p ++ ev :: q ∧ tr' = p' ++ ev' :: q' ∧ InStep p p' ∧
      SameCall ev.op ev'.op ∧ ¬ Alike ev ev' := by
  induction h generalizing tr tr' with
  | ret a b h => cases h1; cases h2; exact .inl ⟨.nil, h⟩
  | op e e' k k' hc _ ih =>
    cases h1 with
    | op _ _ r tr1 _ h1 =>
    cases h2 with
    | op _ _ r' tr1' _ h2 =>
    by_cases ha : Alike ⟨e, r⟩ ⟨e', r'⟩
    · rcases ih r r' ha h1 h2 with ⟨hf, hr⟩ | ⟨p, p', ev, ev', q, q', rfl, rfl, hp, hs, hn⟩
      · exact .inl ⟨.cons ha hf, hr⟩
      · exact .inr ⟨_ :: p, _ :: p', ev, ev', q, q', rfl, rfl, .cons ha hp, hs, hn⟩
    · exact .inr ⟨[], [], _, _, _, _, rfl, rfl, .nil, hc, ha⟩

theorem alike_exists {e e' : EnvOp} (h : SameCall e e') (r : Except Err e.Resp) :
    ∃ r', Alike ⟨e, r⟩ ⟨e', r'⟩ := by
  cases h with
  | same => exact ⟨r, .same _⟩
  | box _ _ _ _ hl => exact ⟨r, .box _ _ _ _ _ hl⟩
  | sign => cases r with
    | error e => exact ⟨.error e, .signErr ..⟩
    | ok s => exact ⟨.ok s, .sign _ _ _ _ _ rfl⟩
  | signOpen _ _ _ _ _ h1 h2 => cases r with
    | error e => exact ⟨.error e, .signOpenErr _ _ _ _ _ _ h1 h2⟩
    | ok s => exact ⟨.ok s, .signOpen _ _ _ _ _ _ _ h1 h2⟩

theorem alike_exists' {e e' : EnvOp} (h : SameCall e e') (r' : Except Err e'.Resp) :
    ∃ r, Alike ⟨e, r⟩ ⟨e', r'⟩ := by
  cases h with
  | same => exact ⟨r', .same _⟩
  | box _ _ _ _ hl => exact ⟨r', .box _ _ _ _ _ hl⟩
  | sign => cases r' with
    | error e => exact ⟨.error e, .signErr ..⟩
    | ok s => exact ⟨.ok s, .sign _ _ _ _ _ rfl⟩
  | signOpen _ _ _ _ _ h1 h2 => cases r' with
    | error e => exact ⟨.error e, .signOpenErr _ _ _ _ _ _ h1 h2⟩
    | ok s => exact ⟨.ok s, .signOpen _ _ _ _ _ _ _ h1 h2⟩

theorem Twins.right {α β : Type} {R : α → β → Prop} {t : IT env α} {t' : IT env β} (h : Twins R t t')
    {tr : List (Ev env)} {x : α} (h1 : Exec t tr x) :
    ∃ tr' y, Exec t' tr' y ∧ InStep tr tr' ∧ R x y := by
  induction h generalizing tr with
  | ret a b h => cases h1; exact ⟨_, _, .ret b, .nil, h⟩
  | op e e' k k' hc _ ih =>
    cases h1 with
    | op _ _ r tr1 _ h1 =>
    obtain ⟨r', ha⟩ := alike_exists hc r
    obtain ⟨tr', y, h2, h3, h4⟩ := ih r r' ha h1
    exact ⟨_, _, .op _ _ r' _ _ h2, .cons ha h3, h4⟩

theorem Twins.left {α β : Type} {R : α → β → Prop} {t : IT env α} {t' : IT env β} (h : Twins R t t')
    {tr' : List (Ev env)} {y : β} (h1 : Exec t' tr' y) :
    ∃ tr x, Exec t tr x ∧ InStep tr tr' ∧ R x y := by
  induction h generalizing tr' with
  | ret a b h => cases h1; exact ⟨_, _, .ret a, .nil, h⟩
  | op e e' k k' hc _ ih =>
    cases h1 with
    | op _ _ r' tr1 _ h1 =>
    obtain ⟨r, ha⟩ := alike_exists' hc r'
    obtain ⟨tr, x, h2, h3, h4⟩ := ih r r' ha h1
    exact ⟨_, _, .op _ _ r _ _ h2, .cons ha h3, h4⟩

theorem Twins.indistinct {β γ σ τ : Type} {Q : β → γ → Prop} {t : IT env (Except Err β × σ)}
    {t' : IT env (Except Err γ × τ)} (h : Twins (EndAlike Q) t t') : Indistinct (fun _ => True) Q t t' :=
  ⟨fun _ _ _ _ _ _ h1 h2 => h.or h1 h2,
   fun _ _ _ h1 => let ⟨tr', y, a, b, c⟩ := h.right h1; ⟨tr', y, trivial, a, b, c, alike_wire b⟩,
   fun _ _ _ h1 => let ⟨tr, x, a, b, c⟩ := h.left h1; ⟨tr, x, trivial, a, b, c, alike_wire b⟩⟩

/-- The same when the first answer is restricted. -/
theorem indistinct_read {β γ σ τ : Type} {Q : β → γ → Prop} {k : Except Err Bytes → IT env (Except Err β × σ)}
    {k' : Except Err Bytes → IT env (Except Err γ × τ)} {P : List (Ev env) → Prop} {G : Except Err Bytes → Prop}
    (hP : ∀ r tr, P ((⟨EnvOp.read, r⟩ : Ev env) :: tr) ↔ G r) (h : ∀ r, G r → Twins (EndAlike Q) (k r) (k' r)) :
    Indistinct P Q (.op (S := env) .read k) (.op (S := env) .read k') := by
  refine ⟨fun tr tr' x y h1 h2 h3 h4 => ?_, fun tr x h1 h3 => ?_, fun tr y h1 h3 => ?_⟩
  · cases h3 with
    | op _ _ r tr1 _ h3 =>
    cases h4 with
    | op _ _ r' tr1' _ h4 =>
    by_cases hr : r = r'
    · subst hr
      rcases (h r ((hP _ _).1 h1)).or h3 h4 with ⟨hf, hr⟩ | ⟨p, p', ev, ev', q, q', rfl, rfl, hp, hs, hn⟩
      · exact .inl ⟨.cons (.same _) hf, hr⟩
      · exact .inr ⟨_ :: p, _ :: p', ev, ev', q, q', rfl, rfl, .cons (.same _) hp, hs, hn⟩
    · exact .inr ⟨[], [], _, _, _, _, rfl, rfl, .nil, .same _, fun ha => hr (alike_plain (e := .read) trivial ha)⟩
  · cases h3 with
    | op _ _ r tr1 _ h3 =>
    have hg := (hP _ _).1 h1
    obtain ⟨tr', y, a, b, c⟩ := (h r hg).right h3
    exact ⟨_, y, (hP _ _).2 hg, .op _ _ r _ _ a, .cons (.same _) b, c, alike_wire (.cons (.same _) b)⟩
  · cases h3 with
    | op _ _ r tr1 _ h3 =>
    have hg := (hP _ _).1 h1
    obtain ⟨tr', y, a, b, c⟩ := (h r hg).left h3
    exact ⟨_, y, (hP _ _).2 hg, .op _ _ r _ _ a, .cons (.same _) b, c, alike_wire (.cons (.same _) b)⟩

theorem indistinct_ret {β γ σ τ : Type} {Q : β → γ → Prop} {P : List (Ev env) → Prop} {x : Except Err β × σ}
    {y : Except Err γ × τ} (h : EndAlike Q x y) : Indistinct P Q (.ret x) (.ret y) :=
  ⟨fun _ _ _ _ _ _ h1 h2 => by cases h1; cases h2; exact .inl ⟨.nil, h⟩,
   fun _ _ hp h1 => by cases h1; exact ⟨_, _, hp, .ret _, .nil, h, rfl⟩,
   fun _ _ hp h1 => by cases h1; exact ⟨_, _, hp, .ret _, .nil, h, rfl⟩⟩

/-! ### Programs -/

theorem Spec.SameShape.bind {α β γ δ : Type} {Q : α → β → Prop} {Z : γ → δ → Prop} {t : IT appSig α} {t' : IT appSig β}
    {f : α → IT appSig γ} {g : β → IT appSig δ} (h : SameShape Q t t') (hf : ∀ a b, Q a b → SameShape Z (f a) (g b)) :
    SameShape Z (t.bind f) (t'.bind g) := by
  induction h with
  | ret a b h => exact hf _ _ h
  | read k k' _ _ ih1 ih2 => exact .read _ _ ih1 ih2
  | write ms ms' l k k' hm _ ih => exact .write _ _ _ _ _ hm ih

/-! ### The encrypted channel -/

/-- Both results are exceptions, the same, or values related by `Q`; `E` relates the states after an
exception. -/
def Res {α β σ τ : Type} (Q : α → β → σ → τ → Prop) (E : σ → τ → Prop) (x : Except Err α × σ) (y : Except Err β × τ) :
    Prop :=
  (∃ a b, x.1 = .ok a ∧ y.1 = .ok b ∧ Q a b x.2 y.2) ∨ ∃ e, x.1 = .error e ∧ y.1 = .error e ∧ E x.2 y.2

theorem openPkt_twins (raw : Bytes) (s : EncSt) :
    Twins (Res (fun d d' s1 s2 => s1 = s2 ∧ s1.readNonce = s.readNonce + 2 ∧ s1.sessionNonce = s.sessionNonce ∧
        ∃ n, nonceBytes s.readNonce s.sessionNonce = .ok n ∧ SameForm n d d')
      (fun s1 s2 => s1 = s2 ∧ s1.readNonce = s.readNonce ∧ s1.sessionNonce = s.sessionNonce))
      (openPkt raw s) (openPkt raw s) := by
  unfold openPkt
  split
  · exact .ret _ _ (.inr ⟨_, rfl, rfl, rfl, rfl, rfl⟩)
  split
  · cases hn : nonceBytes s.readNonce s.sessionNonce with
    | error e => exact .ret _ _ (.inr ⟨_, rfl, rfl, rfl, rfl, rfl⟩)
    | ok n =>
      refine Twins.boxOpen (fun e => .ret _ _ (.inr ⟨_, rfl, rfl, rfl, rfl, rfl⟩)) fun x y hf => ?_
      exact .ret _ _ (.inl ⟨_, _, rfl, rfl, rfl, rfl, rfl, n, rfl, hf⟩)
  · exact .ret _ _ (.inr ⟨_, rfl, rfl, rfl, rfl, rfl⟩)

theorem enc_read_twins (s : EncSt) :
    Twins (Res (fun d d' s1 s2 => s1 = s2 ∧ s1.readNonce = s.readNonce + 2 ∧ s1.sessionNonce = s.sessionNonce ∧
        ∃ n, nonceBytes s.readNonce s.sessionNonce = .ok n ∧ SameForm n d d')
      (fun s1 s2 => s1 = s2 ∧ s1.readNonce = s.readNonce ∧ s1.sessionNonce = s.sessionNonce))
      (Enc.read s) (Enc.read s) := by
  rw [Enc_read_run]
  split
  · exact openPkt_twins _ { s with pushback := [] }
  · refine Twins.step trivial fun r => ?_
    cases r with
    | error e => exact .ret _ _ (.inr ⟨_, rfl, rfl, rfl, rfl, rfl⟩)
    | ok raw => exact openPkt_twins raw s

theorem encryptAll_twins (l : Bool) (ms ms' : List Bytes) (h : ms.map List.length = ms'.map List.length) (s : EncSt) :
    Twins (fun x y => x = y ∧ x.2.readNonce = s.readNonce ∧ x.2.sessionNonce = s.sessionNonce)
      (Enc.encryptAll l ms s) (Enc.encryptAll l ms' s) := by
  induction ms generalizing ms' s with
  | nil =>
    cases ms' with
    | nil => exact .ret _ _ ⟨rfl, rfl, rfl⟩
    | cons => simp at h
  | cons m ms ih =>
    cases ms' with
    | nil => simp at h
    | cons m' ms' =>
      simp only [List.map_cons, List.cons.injEq] at h
      rw [encryptAll_cons_run, encryptAll_cons_run]
      cases nonceBytes s.writeNonce s.sessionNonce with
      | error e => exact .ret _ _ ⟨rfl, rfl, rfl⟩
      | ok n =>
        refine Twins.box h.1 fun r => ?_
        cases r with
        | error e => exact .ret _ _ ⟨rfl, rfl, rfl⟩
        | ok c =>
          refine (ih ms' h.2 { s with writeNonce := s.writeNonce + 2 }).bind ?_
          rintro ⟨r, s1⟩ _ ⟨rfl, h1, h2⟩
          have hl : ms.isEmpty = ms'.isEmpty := by
            have := congrArg List.length h.2
            cases ms <;> cases ms' <;> simp_all
          cases r with
          | error e => exact .ret _ _ ⟨rfl, h1, h2⟩
          | ok rest => exact .ret _ _ ⟨by rw [hl], h1, h2⟩

theorem enc_write_twins (l : Bool) (ms ms' : List Bytes) (h : ms.map List.length = ms'.map List.length) (s : EncSt) :
    Twins (fun x y => x = y ∧ x.2.readNonce = s.readNonce ∧ x.2.sessionNonce = s.sessionNonce)
      (Enc.write ms l s) (Enc.write ms' l s) := by
  rw [Enc_write_run, Enc_write_run]
  refine (encryptAll_twins l ms ms' h s).bind ?_
  rintro ⟨r, s1⟩ _ ⟨rfl, h1, h2⟩
  cases r with
  | error e => exact .ret _ _ ⟨rfl, h1, h2⟩
  | ok ps => exact Twins.step trivial fun r => .ret _ _ ⟨rfl, h1, h2⟩

/-! ### The application channel -/

/-- The channels of the two sessions. -/
structure AppTwin (s s' : AppSt) : Prop where
  enc : s.enc = s'.enc
  zero : s.enc.sessionNonce = zeros 8
  late : 3 ≤ s.enc.readNonce
  queue : s.readQ.map List.length = s'.readQ.map List.length
  m4 : ∀ t, (pending s t).map List.length = (pending s' t).map List.length

theorem sameForm_parse {v : Nat} (hv : 3 ≤ v) {n d d' : Bytes} (hn : nonceBytes v (zeros 8) = .ok n)
    (h : SameForm n d d') :
    (∃ e, appParse d = .error e ∧ appParse d' = .error e) ∨
    ∃ t, (∃ m q m' q', appParse d = .ok (t, .ok (m, q)) ∧ appParse d' = .ok (t, .ok (m', q')) ∧
        m.length = m'.length ∧ q.map List.length = q'.map List.length) ∨
      ∃ e, appParse d = .ok (t, .error e) ∧ appParse d' = .ok (t, .error e) := by
  have hne : ∀ w, w < 3 → n ≠ Spec.nonce w := by
    intro w hw hx
    rw [nonceBytes_eq] at hn
    split at hn
    · rename_i hl
      rw [← Except.ok.inj hn] at hx
      have := nonce_inj hl (by omega) hx
      omega
    · simp at hn
  cases h with
  | same =>
    cases h1 : appParse d with
    | error e => exact .inl ⟨e, rfl, rfl⟩
    | ok p =>
      obtain ⟨t, r⟩ := p
      cases r with
      | error e => exact .inr ⟨t, .inr ⟨e, rfl, rfl⟩⟩
      | ok x => exact .inr ⟨t, .inl ⟨x.1, x.2, x.1, x.2, rfl, rfl, rfl, rfl⟩⟩
  | app t m m' hl => exact .inr ⟨_, .inl ⟨m, [], m', [], appParse_app t m, appParse_app t m', hl, rfl⟩⟩
  | multi t ms ms' h1 h2 h3 hl =>
    have hlen : ms.length = ms'.length := by simpa using congrArg List.length hl
    have h3' : ∀ m ∈ ms', m.length ≤ 65535 := by
      intro m hm
      have : m.length ∈ ms.map List.length := hl ▸ List.mem_map.2 ⟨m, hm, rfl⟩
      obtain ⟨x, hx, he⟩ := List.mem_map.1 this
      rw [← he]; exact h3 x hx
    match ms, ms', h1, hl with
    | m :: q, m' :: q', _, hl =>
      simp only [List.map_cons, List.cons.injEq] at hl
      exact .inr ⟨_, .inl ⟨m, q, m', q', appParse_multi t m q h2 h3, appParse_multi t m' q' (hlen ▸ h2) h3', hl.1, hl.2⟩⟩
    | m :: q, [], _, hl => simp at hl
  | m3 t key key' sig sig' hx => exact absurd hx (hne 2 (by omega))
  | m4 t key key' sig sig' hx => exact absurd hx (hne 1 (by omega))

theorem app_read_twins {s s' : AppSt} (h : AppTwin s s') :
    Twins (Res (fun m m' s1 s2 => m.length = m'.length ∧ AppTwin s1 s2) AppTwin) (App.read s) (App.read s') := by
  have hq := h.queue
  cases hs : s.readQ with
  | cons m q =>
    cases hs' : s'.readQ with
    | nil => rw [hs, hs'] at hq; simp at hq
    | cons m' q' =>
      rw [hs, hs'] at hq
      simp only [List.map_cons, List.cons.injEq] at hq
      rw [App_read_queued s m q hs, App_read_queued s' m' q' hs']
      exact .ret _ _ (.inl ⟨m, m', rfl, rfl, hq.1, h.enc, h.zero, h.late, hq.2, h.m4⟩)
  | nil =>
    cases hs' : s'.readQ with
    | cons m q => rw [hs, hs'] at hq; simp at hq
    | nil =>
      rw [App_read_run s hs, App_read_run s' hs', ← h.enc]
      refine (enc_read_twins s.enc).bind ?_
      rintro ⟨r, e⟩ ⟨r', e'⟩ (⟨d, d', hr, hr', he, hl, hz, n, hn, hf⟩ | ⟨x, hr, hr', he, hl, hz⟩)
      · simp only at hr hr' he hl hz
        subst hr hr' he
        have ht : ∀ q q', q.map List.length = q'.map List.length →
            AppTwin { s with enc := e, readQ := q } { s' with enc := e, readQ := q' } := fun q q' hqq =>
          ⟨rfl, by rw [← h.zero]; exact hz, by have := h.late; simp only; omega, hqq, h.m4⟩
        have ht0 : AppTwin { s with enc := e } { s' with enc := e } :=
          ⟨rfl, by rw [← h.zero]; exact hz, by have := h.late; simp only; omega, h.queue, h.m4⟩
        rw [h.zero] at hn
        rcases sameForm_parse h.late hn hf with ⟨x, h1, h2⟩ | ⟨t, ⟨m, q, m', q', h1, h2, h3, h4⟩ | ⟨x, h1, h2⟩⟩
        · simp only [h1, h2]
          exact .ret _ _ (.inr ⟨_, rfl, rfl, ht0⟩)
        · simp only [h1, h2]
          refine Twins.step trivial fun r => ?_
          cases r with
          | error x => exact .ret _ _ (.inr ⟨_, rfl, rfl, ht0⟩)
          | ok _ => exact .ret _ _ (.inl ⟨_, _, rfl, rfl, h3, ht q q' h4⟩)
        · simp only [h1, h2]
          refine Twins.step trivial fun r => ?_
          cases r with
          | error x => exact .ret _ _ (.inr ⟨_, rfl, rfl, ht0⟩)
          | ok _ => exact .ret _ _ (.inr ⟨_, rfl, rfl, ht0⟩)
      · simp only at hr hr' he hl hz
        subst hr hr' he
        exact .ret _ _ (.inr ⟨_, rfl, rfl, rfl, by rw [← h.zero]; exact hz, by have := h.late; simp only; omega, h.queue,
          h.m4⟩)

theorem appPackets_lengths (t : Nat) {ms ms' : List Bytes} (h : ms.map List.length = ms'.map List.length) :
    (appPackets t ms).map List.length = (appPackets t ms').map List.length := by
  have hlen : ms.length = ms'.length := by simpa using congrArg List.length h
  have key : ∀ a b : List Bytes, a.map List.length = b.map List.length → (∀ m ∈ a, m.length ≤ 65535) →
      ∀ m ∈ b, m.length ≤ 65535 := by
    intro a b hab ha m hm
    have : m.length ∈ a.map List.length := hab ▸ List.mem_map.2 ⟨m, hm, rfl⟩
    obtain ⟨x, hx, he⟩ := List.mem_map.1 this
    rw [← he]; exact ha x hx
  unfold appPackets
  by_cases hc : 2 ≤ ms.length ∧ ∀ m ∈ ms, m.length ≤ 65535
  · rw [if_pos hc, if_pos ⟨hlen ▸ hc.1, key _ _ h hc.2⟩]
    simp only [List.map_cons, List.map_nil, multiApp, List.length_append, hlen, List.length_flatten, List.map_map]
    congr 3
    have e : ∀ l : List Bytes, l.map (List.length ∘ fun m => le16 m.length ++ m) = (l.map List.length).map (2 + ·) := by
      intro l; simp [List.map_map, Function.comp_def, le16]; intro a _; omega
    rw [e, e, h]
  · rw [if_neg hc, if_neg (fun h' => hc ⟨hlen ▸ h'.1, key _ _ h.symm h'.2⟩)]
    have e : ∀ l : List Bytes, (l.map (app t)).map List.length = (l.map List.length).map (6 + ·) := by
      intro l
      simp only [List.map_map]
      apply List.map_congr_left
      intro m _
      simp [app, le32]
      omega
    rw [e, e, h]

theorem app_write_twins {s s' : AppSt} (h : AppTwin s s') (l : Bool) {ms ms' : List Bytes}
    (hm : ms.map List.length = ms'.map List.length) :
    Twins (fun x y => x.1 = y.1 ∧ AppTwin x.2 y.2) (App.write ms l s) (App.write ms' l s') := by
  rw [App_write_run, App_write_run]
  refine Twins.step trivial fun r => ?_
  cases r with
  | error x => exact .ret _ _ ⟨rfl, h⟩
  | ok t =>
    simp only
    rw [← h.enc]
    refine (enc_write_twins l _ _ (by rw [List.map_append, List.map_append, h.m4 t, appPackets_lengths t hm])
      s.enc).bind ?_
    rintro ⟨r, e⟩ _ ⟨rfl, h1, h2⟩
    exact .ret _ _ ⟨rfl, rfl, by rw [← h.zero]; exact h2, by have := h.late; simp only at h1 ⊢; omega, h.queue, fun _ => rfl⟩

theorem app_run_twins {β γ : Type} {Q : β → γ → Prop} {prog : IT appSig β} {prog' : IT appSig γ}
    (h : SameShape Q prog prog') {s s' : AppSt} (hs : AppTwin s s') :
    Twins (fun x y => Q x.1 y.1) (App.run prog s) (App.run prog' s') := by
  induction h generalizing s s' with
  | ret b c hq => exact .ret _ _ hq
  | read k k' _ _ ih1 ih2 =>
    refine (app_read_twins hs).bind ?_
    rintro ⟨r, e⟩ ⟨r', e'⟩ (⟨d, d', hr, hr', he, ht⟩ | ⟨x, hr, hr', ht⟩)
    · simp only at hr hr'
      subst hr hr'
      exact ih1 d d' he ht
    · simp only at hr hr'
      subst hr hr'
      exact ih2 x ht
  | write ms ms' l k k' hm _ ih =>
    refine (app_write_twins hs l hm).bind ?_
    rintro ⟨r, e⟩ ⟨r', e'⟩ ⟨rfl, ht⟩
    exact ih r ht

/-! ### The handshakes -/

/-- The two methods, started in related states, stay in step. -/
def Both {σ α β : Type} (P : σ → σ → Prop) (m : Py env σ α) (m' : Py env σ β) (Q : α → β → σ → σ → Prop) : Prop :=
  ∀ s s', P s s' → Twins (Res Q fun _ _ => True) (m s) (m' s')

theorem Both.bind {σ α β γ δ : Type} {P : σ → σ → Prop} {m : Py env σ α} {m' : Py env σ β} {Q : α → β → σ → σ → Prop}
    {f : α → Py env σ γ} {g : β → Py env σ δ} {Z : γ → δ → σ → σ → Prop} (h : Both P m m' Q)
    (hf : ∀ a b, Both (Q a b) (f a) (g b) Z) : Both P (m >>= f) (m' >>= g) Z := by
  intro s s' hs
  rw [Py.bind_run, Py.bind_run]
  refine (h s s' hs).bind ?_
  rintro ⟨r, e⟩ ⟨r', e'⟩ (⟨d, d', hr, hr', he⟩ | ⟨x, hr, hr', -⟩)
  · simp only at hr hr'
    subst hr hr'
    exact hf _ _ _ _ he
  · simp only at hr hr'
    subst hr hr'
    exact .ret _ _ (.inr ⟨_, rfl, rfl, trivial⟩)

theorem Both.given {σ α β : Type} {φ : Prop} {P : σ → σ → Prop} {m : Py env σ α} {m' : Py env σ β}
    {Q : α → β → σ → σ → Prop} (h : φ → Both P m m' Q) : Both (fun s s' => φ ∧ P s s') m m' Q :=
  fun s s' hs => h hs.1 s s' hs.2

/-- The client's two sessions before the channel exists. -/
def CEq (s s' : ClientSt) : Prop := s = s'

theorem c_doM1_twins (kp : KeyPair) : Both CEq (Client.doM1 kp) (Client.doM1 kp) fun _ _ s s' => s = s' := by
  rintro s _ rfl
  rw [c_doM1_run]
  refine Twins.step trivial fun r => ?_
  cases r with
  | error e => exact .ret _ _ (.inr ⟨_, rfl, rfl, trivial⟩)
  | ok t =>
    simp only
    split
    · refine Twins.step trivial fun r => ?_
      cases r with
      | error e => exact .ret _ _ (.inr ⟨_, rfl, rfl, trivial⟩)
      | ok h =>
        refine Twins.step trivial fun r => ?_
        cases r with
        | error e => exact .ret _ _ (.inr ⟨_, rfl, rfl, trivial⟩)
        | ok h => exact .ret _ _ (.inl ⟨_, _, rfl, rfl, rfl⟩)
    · exact .ret _ _ (.inr ⟨_, rfl, rfl, trivial⟩)

theorem c_doM2_twins : Both (fun s s' => s = s') Client.doM2 Client.doM2
    fun a b s s' => a = true ∧ b = true ∧ s = s' ∧ ∃ raw m2, M2.ctor raw = .ok m2 ∧ s.m2 = some m2 := by
  rintro s _ rfl
  rw [c_doM2_run]
  refine Twins.step trivial fun r => ?_
  cases r with
  | error e => exact .ret _ _ (.inr ⟨_, rfl, rfl, trivial⟩)
  | ok raw =>
    simp only
    cases hc : M2.ctor raw with
    | error e => exact .ret _ _ (.inr ⟨_, rfl, rfl, trivial⟩)
    | ok m2 =>
      refine Twins.step trivial fun r => ?_
      cases r with
      | error e => exact .ret _ _ (.inr ⟨_, rfl, rfl, trivial⟩)
      | ok _ =>
        refine Twins.step trivial fun r => ?_
        cases r with
        | error e => exact .ret _ _ (.inr ⟨_, rfl, rfl, trivial⟩)
        | ok h =>
          simp only
          split
          · exact .ret _ _ (.inl ⟨_, _, rfl, rfl, rfl, rfl, rfl, raw, m2, hc, rfl⟩)
          · exact .ret _ _ (.inr ⟨_, rfl, rfl, trivial⟩)

theorem c_create_twins (kp : KeyPair) :
    Both (fun s s' => s = s' ∧ ∃ raw m2, M2.ctor raw = .ok m2 ∧ s.m2 = some m2)
      (Client.createEncryptedChannel kp) (Client.createEncryptedChannel kp)
      fun _ _ s s' => s = s' ∧ ∃ k, s.chan = some (App.init (encInit k .client)) := by
  rintro s _ ⟨rfl, raw, m2, hm, hs⟩
  rw [c_create_run kp s raw m2 hm hs]
  split
  · refine Twins.step trivial fun r => ?_
    cases r with
    | error e => exact .ret _ _ (.inr ⟨_, rfl, rfl, trivial⟩)
    | ok k =>
      simp only
      split
      · exact .ret _ _ (.inl ⟨_, _, rfl, rfl, rfl, k, rfl⟩)
      · exact .ret _ _ (.inr ⟨_, rfl, rfl, trivial⟩)
  · exact .ret _ _ (.inr ⟨_, rfl, rfl, trivial⟩)

/-- The client's two sessions once M3 has been read. -/
structure CTwin (s s' : ClientSt) : Prop where
  h1 : s.m1Hash = s'.m1Hash
  h2 : s.m2Hash = s'.m2Hash
  chan : ∃ c, s.chan = some c ∧ s'.chan = some c ∧ AppTwin c c

/-- What `M3Packet`/`M4Packet` make of two opened packets. -/
theorem sameForm_m34 {ty : PacketType} {x : UInt8} (hx : x.toNat = ty.value) {n d d' : Bytes} (h : SameForm n d d') :
    d.length = d'.length ∧ field d 2 4 = field d' 2 4 ∧
    ((∃ e, M34.ctor ty d = .error e ∧ M34.ctor ty d' = .error e) ∨
      ∃ p p', M34.ctor ty d = .ok p ∧ M34.ctor ty d' = .ok p') := by
  have hspec := fun src hne => M34_ctor_spec ty x hx src hne
  have key : ∀ (y : UInt8) (t : Nat) (a b : Bytes), a.length = b.length →
      ([y, 0] ++ Spec.le32 t ++ a).length = ([y, 0] ++ Spec.le32 t ++ b).length ∧
      field ([y, 0] ++ Spec.le32 t ++ a) 2 4 = field ([y, 0] ++ Spec.le32 t ++ b) 2 4 ∧
      ((∃ e, M34.ctor ty ([y, 0] ++ Spec.le32 t ++ a) = .error e ∧ M34.ctor ty ([y, 0] ++ Spec.le32 t ++ b) = .error e) ∨
        ∃ p p', M34.ctor ty ([y, 0] ++ Spec.le32 t ++ a) = .ok p ∧ M34.ctor ty ([y, 0] ++ Spec.le32 t ++ b) = .ok p') := by
    intro y t a b hab
    refine ⟨by simp [hab], by simp [field, Spec.le32], ?_⟩
    rw [hspec _ (by simp), hspec _ (by simp)]
    by_cases hy : y = x
    · exact .inr (by simp [hy])
    · exact .inl (by simp [hy])
  cases h with
  | same =>
    refine ⟨rfl, rfl, ?_⟩
    cases hc : M34.ctor ty d with
    | error e => exact .inl ⟨e, rfl, rfl⟩
    | ok p => exact .inr ⟨p, p, rfl, rfl⟩
  | app t m m' hl => exact key 5 t m m' hl
  | multi t ms ms' h1 h2 h3 hl =>
    have hlen : ms.length = ms'.length := by simpa using congrArg List.length hl
    have := key 11 t (le16 ms.length ++ (ms.map fun m => le16 m.length ++ m).flatten)
      (le16 ms'.length ++ (ms'.map fun m => le16 m.length ++ m).flatten) (by
        simp only [List.length_append, hlen, List.length_flatten, List.map_map]
        congr 2
        have e : ∀ l : List Bytes, l.map (List.length ∘ fun m => le16 m.length ++ m) = (l.map List.length).map (2 + ·) := by
          intro l; simp [List.map_map, Function.comp_def, le16]; intro a _; omega
        rw [e, e, hl])
    simpa [Spec.multiApp, List.append_assoc] using this
  | m3 t k k' sg sg' _ h1 h2 h3 h4 =>
    have := key 3 t (k ++ sg) (k' ++ sg') (by simp [h1, h2, h3, h4])
    simpa [Spec.m3, List.append_assoc] using this
  | m4 t k k' sg sg' _ h1 h2 h3 h4 =>
    have := key 4 t (k ++ sg) (k' ++ sg') (by simp [h1, h2, h3, h4])
    simpa [Spec.m4, List.append_assoc] using this

theorem field64_length (d : Bytes) (i n : Nat) : (field d i n).length = n := field_length ..

theorem c_doM3_twins :
    Both (fun s s' : ClientSt => s = s' ∧ ∃ k, s.chan = some (App.init (encInit k .client))) Client.doM3 Client.doM3
      fun _ _ s s' => CTwin s s' ∧ (∃ d p, M34.ctor .m3 d = .ok p ∧ s.m3 = some p) ∧
        ∃ d p, M34.ctor .m3 d = .ok p ∧ s'.m3 = some p := by
  rintro s _ ⟨rfl, k, hk⟩
  rw [c_doM3_run s _ hk]
  refine (enc_read_twins _).bind ?_
  rintro ⟨r, e⟩ ⟨r', e'⟩ (⟨d, d', hr, hr', he, hl, hz, n, hn, hf⟩ | ⟨x, hr, hr', he, hl, hz⟩)
  · simp only at hr hr' he hl hz
    subst hr hr' he
    obtain ⟨h1, h2, h3⟩ := sameForm_m34 (ty := .m3) (x := 3) rfl hf
    simp only [← h1, ← h2]
    split
    · rcases h3 with ⟨x, h3, h4⟩ | ⟨p, p', h3, h4⟩
      · simp only [h3, h4]
        exact .ret _ _ (.inr ⟨_, rfl, rfl, trivial⟩)
      · simp only [h3, h4]
        refine Twins.check (by rw [h2]) fun r => ?_
        cases r with
        | error e => exact .ret _ _ (.inr ⟨_, rfl, rfl, trivial⟩)
        | ok _ =>
          refine .ret _ _ (.inl ⟨_, _, rfl, rfl, ⟨rfl, rfl, _, rfl, rfl, ?_⟩, ⟨d, p, h3, rfl⟩, d', p', h4, rfl⟩)
          exact ⟨rfl, hz, by simp only [hl]; simp [App.init, encInit], rfl, fun _ => rfl⟩
    · exact .ret _ _ (.inr ⟨_, rfl, rfl, trivial⟩)
  · simp only at hr hr'
    subst hr hr'
    exact .ret _ _ (.inr ⟨_, rfl, rfl, trivial⟩)

theorem c_validate_twins :
    Both (fun s s' : ClientSt => CTwin s s' ∧ (∃ d p, M34.ctor .m3 d = .ok p ∧ s.m3 = some p) ∧
        ∃ d p, M34.ctor .m3 d = .ok p ∧ s'.m3 = some p) Client.validateSignature1 Client.validateSignature1
      fun _ _ => CTwin := by
  rintro s s' ⟨ht, ⟨d, p, hp, hs⟩, d', p', hp', hs'⟩
  rw [c_validate_run s d p hp hs, c_validate_run s' d' p' hp' hs', ht.h1, ht.h2]
  refine Twins.signOpen (s := field d 38 64) (s' := field d' 38 64) (m := scSig01 ++ s'.m1Hash ++ s'.m2Hash) (by simp) (by simp) (field64_length ..) (field64_length ..) (fun e => ?_) fun x y => ?_
  · exact .ret _ _ (.inr ⟨_, rfl, rfl, trivial⟩)
  · exact .ret _ _ (.inl ⟨_, _, rfl, rfl, ht⟩)

theorem c_doM4_twins (cfg : ClientCfg) (kp : KeyPair) (hk : cfg.sigKp.pub.length = kp.pub.length) :
    Both CTwin (Client.doM4 cfg) (Client.doM4 { cfg with sigKp := kp })
      fun _ _ s s' => ∃ c c', s.chan = some c ∧ s'.chan = some c' ∧ AppTwin c c' := by
  rintro s s' ⟨h1, h2, c, hc, hc', ht⟩
  rw [c_doM4_run cfg s c hc, c_doM4_run _ s' c hc', h1, h2]
  refine Twins.step trivial fun r => ?_
  cases r with
  | error e => exact .ret _ _ (.inr ⟨_, rfl, rfl, trivial⟩)
  | ok t =>
    simp only [← hk]
    split
    · rename_i hp
      refine Twins.sign (fun e => .ret _ _ (.inr ⟨_, rfl, rfl, trivial⟩)) fun sm sm' hl => ?_
      simp only [← hl]
      split
      · rename_i h64
        have hlen : (Spec.m4 t cfg.sigKp.pub (sm.take 64)).length = (Spec.m4 t kp.pub (sm'.take 64)).length := by
          simp [Spec.m4, ← hl, hk]
        have h6 : 2 + 4 ≤ (Spec.m4 t cfg.sigKp.pub (sm.take 64)).length := by
          simp [Spec.m4, Spec.le32]
        have h6' := hlen ▸ h6
        split
        · refine .ret _ _ (.inl ⟨_, _, rfl, rfl, _, _, rfl, rfl, ht.enc, ht.zero, ht.late, ht.queue, fun t => ?_⟩)
          simp only [pending, List.map_cons, List.map_nil, Packet.toBytes, Packet.optBytes, M34.setTime,
            Option.getD_none, List.append_nil, Props.setLE_length _ _ _ _ h6, Props.setLE_length _ _ _ _ h6', hlen]
        · refine (enc_write_twins false _ _ (by simp [hlen]) c.enc).bind ?_
          rintro ⟨r, e⟩ _ ⟨rfl, h3, h4⟩
          cases r with
          | error x => exact .ret _ _ (.inr ⟨_, rfl, rfl, trivial⟩)
          | ok _ =>
            exact .ret _ _ (.inl ⟨_, _, rfl, rfl, _, _, rfl, rfl, rfl, by rw [← ht.zero]; exact h4,
              by have := ht.late; simp only at h3 ⊢; omega, ht.queue, ht.m4⟩)
      · exact .ret _ _ (.inr ⟨_, rfl, rfl, trivial⟩)
    · exact .ret _ _ (.inr ⟨_, rfl, rfl, trivial⟩)

theorem client_handshake_twins (cfg : ClientCfg) (kp : KeyPair) (hk : cfg.sigKp.pub.length = kp.pub.length) :
    Both CEq (Client.handshake cfg) (Client.handshake { cfg with sigKp := kp })
      fun _ _ s s' => ∃ c c', s.chan = some c ∧ s'.chan = some c' ∧ AppTwin c c' := by
  unfold Client.handshake Client.validate
  cases he : cfg.encKp with
  | none =>
    rintro s _ rfl
    exact .ret _ _ (.inr ⟨_, rfl, rfl, trivial⟩)
  | some encKp =>
    simp only
    refine Both.bind (Q := fun a b s s' => (a = encKp ∧ b = encKp) ∧ CEq s s') ?_ ?_
    · rintro s _ rfl
      exact .ret _ _ (.inl ⟨_, _, rfl, rfl, ⟨rfl, rfl⟩, rfl⟩)
    intro a b
    refine Both.given ?_
    rintro ⟨rfl, rfl⟩
    refine (c_doM1_twins _).bind fun _ _ => ?_
    refine c_doM2_twins.bind fun x y => ?_
    intro s s' ⟨hx, hy, h⟩
    subst hx hy
    revert s s'
    change Both _ _ _ _
    simp only [not_true_eq_false, if_false]
    refine (c_create_twins _).bind fun _ _ => ?_
    refine c_doM3_twins.bind fun _ _ => ?_
    refine c_validate_twins.bind fun _ _ => ?_
    exact c_doM4_twins cfg kp hk

/-! ### The server -/

theorem s_doM2_twins (cfg : ServerCfg) (kp kp' : KeyPair) :
    Both (fun s s' : ServerSt => s = s' ∧ ∃ raw m1, M1.ctor raw = .ok m1 ∧ s.m1 = some m1) (Server.doM2 cfg kp)
      (Server.doM2 { cfg with sigKp := kp' } kp)
      fun _ _ s s' => s = s' ∧ (∃ raw m1, M1.ctor raw = .ok m1 ∧ s.m1 = some m1) ∧
        ∃ t key, s.m2 = some ⟨Spec.m2 false false t key, none⟩ := by
  rintro s _ ⟨rfl, hm⟩
  rw [s_doM2_run, s_doM2_run]
  refine Twins.step trivial fun r => ?_
  cases r with
  | error e => exact .ret _ _ (.inr ⟨_, rfl, rfl, trivial⟩)
  | ok t =>
    simp only
    split
    · split
      · exact .ret _ _ (.inl ⟨_, _, rfl, rfl, rfl, hm, t, kp.pub, rfl⟩)
      · refine Twins.step trivial fun r => ?_
        cases r with
        | error e => exact .ret _ _ (.inr ⟨_, rfl, rfl, trivial⟩)
        | ok _ =>
          refine Twins.step trivial fun r => ?_
          cases r with
          | error e => exact .ret _ _ (.inr ⟨_, rfl, rfl, trivial⟩)
          | ok h => exact .ret _ _ (.inl ⟨_, _, rfl, rfl, rfl, hm, t, kp.pub, rfl⟩)
    · exact .ret _ _ (.inr ⟨_, rfl, rfl, trivial⟩)

theorem s_create_twins (kp : KeyPair) :
    Both (fun s s' : ServerSt => s = s' ∧ (∃ raw m1, M1.ctor raw = .ok m1 ∧ s.m1 = some m1) ∧
        ∃ t key, s.m2 = some ⟨Spec.m2 false false t key, none⟩)
      (Server.createEncryptedChannel kp) (Server.createEncryptedChannel kp)
      fun _ _ s s' => s = s' ∧ (∃ t key, s.m2 = some ⟨Spec.m2 false false t key, none⟩) ∧
        ∃ k, s.chan = some (App.init (encInit k .server)) := by
  rintro s _ ⟨rfl, ⟨raw, m1, hm, hs⟩, h2⟩
  rw [s_create_run kp s raw m1 hm hs]
  split
  · refine Twins.step trivial fun r => ?_
    cases r with
    | error e => exact .ret _ _ (.inr ⟨_, rfl, rfl, trivial⟩)
    | ok k =>
      simp only
      split
      · exact .ret _ _ (.inl ⟨_, _, rfl, rfl, rfl, h2, k, rfl⟩)
      · exact .ret _ _ (.inr ⟨_, rfl, rfl, trivial⟩)
  · exact .ret _ _ (.inr ⟨_, rfl, rfl, trivial⟩)

theorem m3Tail_twins (cfg : ServerCfg) (kp : KeyPair) (hk : cfg.sigKp.pub.length = kp.pub.length) (msgs : List Bytes)
    (t : Nat) (c : AppSt) (s : ServerSt) :
    Twins (Res (fun _ _ s1 s2 => s1 = s2 ∧ s1.chan =
        some { c with enc := { c.enc with writeNonce := c.enc.writeNonce + 2 } }) fun _ _ => True)
      (m3Tail cfg msgs t c s) (m3Tail { cfg with sigKp := kp } msgs t c s) := by
  unfold m3Tail
  simp only [← hk]
  split
  · refine Twins.sign (fun e => .ret _ _ (.inr ⟨_, rfl, rfl, trivial⟩)) fun sm sm' hl => ?_
    simp only [← hl]
    split
    · cases nonceBytes c.enc.writeNonce c.enc.sessionNonce with
      | error e => exact .ret _ _ (.inr ⟨_, rfl, rfl, trivial⟩)
      | ok n =>
        refine Twins.box (by simp [Spec.m3, ← hl, hk]) fun r => ?_
        cases r with
        | error e => exact .ret _ _ (.inr ⟨_, rfl, rfl, trivial⟩)
        | ok x =>
          refine Twins.step trivial fun r => ?_
          cases r with
          | error e => exact .ret _ _ (.inr ⟨_, rfl, rfl, trivial⟩)
          | ok _ => exact .ret _ _ (.inl ⟨_, _, rfl, rfl, rfl, rfl⟩)
    · exact .ret _ _ (.inr ⟨_, rfl, rfl, trivial⟩)
  · exact .ret _ _ (.inr ⟨_, rfl, rfl, trivial⟩)

theorem s_doM3_twins (cfg : ServerCfg) (kp : KeyPair) (hk : cfg.sigKp.pub.length = kp.pub.length) :
    Both (fun s s' : ServerSt => s = s' ∧ (∃ t key, s.m2 = some ⟨Spec.m2 false false t key, none⟩) ∧
        ∃ k, s.chan = some (App.init (encInit k .server)))
      (Server.doM3 cfg) (Server.doM3 { cfg with sigKp := kp })
      fun _ _ s s' => s = s' ∧ ∃ c, s.chan = some c ∧ c.bufferedM4 = none ∧ c.readQ = [] ∧ c.enc.readNonce = 1 ∧
        c.enc.sessionNonce = zeros 8 := by
  rintro s _ ⟨rfl, ⟨t, key, h2⟩, k, hc⟩
  rw [s_doM3_run cfg s t key _ h2 hc, s_doM3_run _ s t key _ h2 hc]
  have hh : Twins (Res (fun a b s1 s2 => a = b ∧ s1 = s2) fun _ _ => True)
      (Server.doM3Head cfg s) (Server.doM3Head { cfg with sigKp := kp } s) := by
    rw [s_doM3Head_run cfg s t key h2, s_doM3Head_run _ s t key h2]
    simp only
    split
    · refine Twins.step trivial fun r => ?_
      cases r with
      | error e => exact .ret _ _ (.inr ⟨_, rfl, rfl, trivial⟩)
      | ok t =>
        refine Twins.step trivial fun r => ?_
        cases r with
        | error e => exact .ret _ _ (.inr ⟨_, rfl, rfl, trivial⟩)
        | ok h => exact .ret _ _ (.inl ⟨_, _, rfl, rfl, rfl, rfl⟩)
    · refine Twins.step trivial fun r => ?_
      cases r with
      | error e => exact .ret _ _ (.inr ⟨_, rfl, rfl, trivial⟩)
      | ok t => exact .ret _ _ (.inl ⟨_, _, rfl, rfl, rfl, rfl⟩)
  refine hh.bind ?_
  rintro ⟨r, s1⟩ ⟨r', s2⟩ (⟨a, b, hr, hr', rfl, he⟩ | ⟨e, hr, hr', -⟩)
  · simp only at hr hr' he
    subst hr hr' he
    refine (m3Tail_twins cfg kp hk a.1 a.2 _ s1).mono ?_
    rintro x y (⟨u, v, h1, h2, h3, h4⟩ | h)
    · exact .inl ⟨u, v, h1, h2, h3, _, h4, rfl, rfl, rfl, rfl⟩
    · exact .inr h
  · simp only at hr hr'
    subst hr hr'
    exact .ret _ _ (.inr ⟨_, rfl, rfl, trivial⟩)

/-- The server's two sessions once M4 has been read. -/
structure STwin (s s' : ServerSt) : Prop where
  h1 : s.m1Hash = s'.m1Hash
  h2 : s.m2Hash = s'.m2Hash
  chan : ∃ c, s.chan = some c ∧ s'.chan = some c ∧ AppTwin c c

theorem s_doM4_twins :
    Both (fun s s' : ServerSt => s = s' ∧ ∃ c, s.chan = some c ∧ c.bufferedM4 = none ∧ c.readQ = [] ∧
        c.enc.readNonce = 1 ∧ c.enc.sessionNonce = zeros 8) Server.doM4 Server.doM4
      fun _ _ s s' => STwin s s' ∧ (∃ d p, M34.ctor .m4 d = .ok p ∧ s.m4 = some p) ∧
        ∃ d p, M34.ctor .m4 d = .ok p ∧ s'.m4 = some p := by
  rintro s _ ⟨rfl, c, hc, h1, h2, h3, h4⟩
  rw [s_doM4_run s _ hc]
  refine (enc_read_twins _).bind ?_
  rintro ⟨r, e⟩ ⟨r', e'⟩ (⟨d, d', hr, hr', he, hl, hz, n, hn, hf⟩ | ⟨x, hr, hr', he, hl, hz⟩)
  · simp only at hr hr' he hl hz
    subst hr hr' he
    obtain ⟨g1, g2, g3⟩ := sameForm_m34 (ty := .m4) (x := 4) rfl hf
    rcases g3 with ⟨x, g3, g4⟩ | ⟨p, p', g3, g4⟩
    · simp only [g3, g4]
      exact .ret _ _ (.inr ⟨_, rfl, rfl, trivial⟩)
    · simp only [g3, g4]
      refine Twins.check (by rw [g2]) fun r => ?_
      cases r with
      | error e => exact .ret _ _ (.inr ⟨_, rfl, rfl, trivial⟩)
      | ok _ =>
        refine .ret _ _ (.inl ⟨_, _, rfl, rfl, ⟨rfl, rfl, _, rfl, rfl, ?_⟩, ⟨d, p, g3, rfl⟩, d', p', g4, rfl⟩)
        exact ⟨rfl, hz.trans h4, by simp only [hl, h3]; decide, rfl, fun _ => rfl⟩
  · simp only at hr hr'
    subst hr hr'
    exact .ret _ _ (.inr ⟨_, rfl, rfl, trivial⟩)

theorem s_validate_twins :
    Both (fun s s' : ServerSt => STwin s s' ∧ (∃ d p, M34.ctor .m4 d = .ok p ∧ s.m4 = some p) ∧
        ∃ d p, M34.ctor .m4 d = .ok p ∧ s'.m4 = some p) Server.validateSignature2 Server.validateSignature2
      fun _ _ s s' => ∃ c c', s.chan = some c ∧ s'.chan = some c' ∧ AppTwin c c' := by
  rintro s s' ⟨ht, ⟨d, p, hp, hs⟩, d', p', hp', hs'⟩
  rw [s_validate_run s d p hp hs, s_validate_run s' d' p' hp' hs', ht.h1, ht.h2]
  refine Twins.signOpen (s := field d 38 64) (s' := field d' 38 64) (m := scSig02 ++ s'.m1Hash ++ s'.m2Hash) (by simp)
    (by simp) (field64_length ..) (field64_length ..) (fun e => ?_) fun x y => ?_
  · exact .ret _ _ (.inr ⟨_, rfl, rfl, trivial⟩)
  · obtain ⟨c, h1, h2, h3⟩ := ht.chan
    exact .ret _ _ (.inl ⟨_, _, rfl, rfl, c, c, h1, h2, h3⟩)

/-- After a valid M1. -/
theorem s_rest_twins (cfg : ServerCfg) (kp encKp : KeyPair) (hk : cfg.sigKp.pub.length = kp.pub.length) :
    Both (fun s s' : ServerSt => s = s' ∧ ∃ raw m1, M1.ctor raw = .ok m1 ∧ s.m1 = some m1)
      (Server.doM2 cfg encKp >>= fun _ => Server.createEncryptedChannel encKp >>= fun _ => Server.doM3 cfg >>= fun _ =>
        Server.doM4 >>= fun _ => Server.validateSignature2)
      (Server.doM2 { cfg with sigKp := kp } encKp >>= fun _ => Server.createEncryptedChannel encKp >>= fun _ =>
        Server.doM3 { cfg with sigKp := kp } >>= fun _ => Server.doM4 >>= fun _ => Server.validateSignature2)
      fun _ _ s s' => ∃ c c', s.chan = some c ∧ s'.chan = some c' ∧ AppTwin c c' :=
  (s_doM2_twins cfg encKp kp).bind fun _ _ => (s_create_twins encKp).bind fun _ _ =>
    (s_doM3_twins cfg kp hk).bind fun _ _ => s_doM4_twins.bind fun _ _ => s_validate_twins

/-- The handshake after the first packet has been read. -/
def sRest (cfg : ServerCfg) (encKp : KeyPair) (s : ServerSt) :
    Except Err Bytes → IT env (Except Err Unit × ServerSt)
  | .error e => .ret (.error e, s)
  | .ok raw => match M1.ctor raw with
    | .error _ => (Server.doA2 cfg raw { s with m1 := none }).bind fun
      | (.error e, s1) => .ret (.error e, s1)
      | (.ok _, s1) => .ret (.ok (), { s1 with isDone := true })
    | .ok m1 => .op (S := env) (.report (leNat (field raw 6 4))) fun
      | .error e => .ret (.error e, { s with m1 := some m1 })
      | .ok _ => .op (S := env) (.hash raw) fun
        | .error e => .ret (.error e, { s with m1 := some m1 })
        | .ok h =>
          let s1 := { s with m1 := some m1, m1Hash := h }
          if leNat (field raw 5 1) % 2 = 1 ∧ field raw 42 32 ≠ cfg.sigKp.pub then
            .op (S := env) .firstTime fun
            | .error e => .ret (.error e, s1)
            | .ok t => .op (S := env) (.write [Spec.m2 true true t (zeros 32)] true) fun
              | .error e => .ret (.error e, s1)
              | .ok _ => .ret (.error .noSuchServer, s1)
          else (Server.doM2 cfg encKp >>= fun _ => Server.createEncryptedChannel encKp >>= fun _ => Server.doM3 cfg >>=
            fun _ => Server.doM4 >>= fun _ => Server.validateSignature2) s1

theorem s_handshake_run (cfg : ServerCfg) (encKp : KeyPair) (he : cfg.encKp = some encKp) (s : ServerSt) :
    Server.handshake cfg s = .op (S := env) .read (sRest cfg encKp s) := by
  unfold Server.handshake Server.validate
  simp only [he]
  rw [Py.bind_run]
  simp only [Py.pure_run, IT.ret_bind]
  rw [Py.bind_run, s_doM1_run]
  simp only [IT.op_bind]
  congr 1
  funext r
  cases r with
  | error e => rfl
  | ok raw =>
    simp only [sRest]
    cases hc : M1.ctor raw with
    | error e =>
      simp only [IT.ret_bind, Py.bind_run]
      congr 1
      funext ⟨r, s1⟩
      cases r <;> rfl
    | ok m1 =>
      simp only [IT.op_bind]
      congr 1
      funext r
      cases r with
      | error e => rfl
      | ok _ =>
        simp only [IT.op_bind]
        congr 1
        funext r
        cases r with
        | error e => rfl
        | ok h =>
          simp only
          split
          · simp only [IT.op_bind]
            congr 1
            funext r
            cases r with
            | error e => rfl
            | ok t =>
              simp only [IT.op_bind]
              congr 1
              funext r
              cases r <;> rfl
          · simp only [IT.ret_bind]
            rw [Py.bind_run]
            simp only [Py.pure_run, IT.ret_bind]

theorem sRest_twins (cfg : ServerCfg) (kp encKp : KeyPair) (hk : cfg.sigKp.pub.length = kp.pub.length) (s : ServerSt)
    (hs : s.chan = none) (r : Except Err Bytes)
    (hr : ∀ raw, r = .ok raw → leNat (field raw 5 1) % 2 = 1 →
      (field raw 42 32 = cfg.sigKp.pub ↔ field raw 42 32 = kp.pub)) :
    Twins (Res (fun _ _ s s' => (s.chan = none ∧ s'.chan = none) ∨
        ∃ c c', s.chan = some c ∧ s'.chan = some c' ∧ AppTwin c c') fun _ _ => True)
      (sRest cfg encKp s r) (sRest { cfg with sigKp := kp } encKp s r) := by
  cases r with
  | error e => exact .ret _ _ (.inr ⟨_, rfl, rfl, trivial⟩)
  | ok raw =>
    have hr := hr raw rfl
    simp only [sRest]
    cases hc : M1.ctor raw with
    | error e =>
      simp only [s_doA2_run]
      cases A1.ctor raw with
      | error e => exact .ret _ _ (.inr ⟨_, rfl, rfl, trivial⟩)
      | ok _ =>
        refine Twins.step trivial fun r => ?_
        cases r with
        | error e => exact .ret _ _ (.inr ⟨_, rfl, rfl, trivial⟩)
        | ok _ => exact .ret _ _ (.inl ⟨_, _, rfl, rfl, .inl ⟨hs, hs⟩⟩)
    | ok m1 =>
      refine Twins.step trivial fun r => ?_
      cases r with
      | error e => exact .ret _ _ (.inr ⟨_, rfl, rfl, trivial⟩)
      | ok _ =>
        refine Twins.step trivial fun r => ?_
        cases r with
        | error e => exact .ret _ _ (.inr ⟨_, rfl, rfl, trivial⟩)
        | ok h =>
          simp only
          by_cases hn : leNat (field raw 5 1) % 2 = 1 ∧ field raw 42 32 ≠ cfg.sigKp.pub
          · rw [if_pos hn, if_pos ⟨hn.1, fun h => hn.2 ((hr hn.1).2 h)⟩]
            refine Twins.step trivial fun r => ?_
            cases r with
            | error e => exact .ret _ _ (.inr ⟨_, rfl, rfl, trivial⟩)
            | ok t =>
              refine Twins.step trivial fun r => ?_
              cases r with
              | error e => exact .ret _ _ (.inr ⟨_, rfl, rfl, trivial⟩)
              | ok _ => exact .ret _ _ (.inr ⟨_, rfl, rfl, trivial⟩)
          · rw [if_neg hn, if_neg (fun h => hn ⟨h.1, fun e => h.2 ((hr h.1).1 e)⟩)]
            refine (s_rest_twins cfg kp encKp hk _ _ ⟨rfl, raw, m1, hc, rfl⟩).mono ?_
            rintro x y (⟨u, v, h1, h2, h3⟩ | h)
            · exact .inl ⟨u, v, h1, h2, .inr h3⟩
            · exact .inr h

/-! ### Sessions -/

theorem clientSession_twins {β γ : Type} {Q : β → γ → Prop} (cfg : ClientCfg) (kp : KeyPair) (hk : cfg.sigKp.pub.length = kp.pub.length)
    {prog : IT appSig β} {prog' : IT appSig γ} (h : SameShape Q prog prog') :
    Twins (EndAlike Q) (clientSession cfg prog) (clientSession { cfg with sigKp := kp } prog') := by
  refine (client_handshake_twins cfg kp hk Client.init Client.init rfl).bind ?_
  rintro ⟨r, s1⟩ ⟨r', s2⟩ (⟨a, b, hr, hr', c, c', hc, hc', ht⟩ | ⟨e, hr, hr', -⟩)
  · simp only at hr hr' hc hc'
    subst hr hr'
    simp only [clientAfter, hc, hc']
    refine (app_run_twins h ht).bind fun x y hq => ?_
    exact .ret _ _ (.inl ⟨_, _, rfl, rfl, hq⟩)
  · simp only at hr hr'
    subst hr hr'
    exact .ret _ _ (.inr ⟨_, rfl, rfl⟩)

theorem serverSession_twins {β γ : Type} {Q : β → γ → Prop} (cfg : ServerCfg) (kp : KeyPair) (hk : cfg.sigKp.pub.length = kp.pub.length)
    {prog : IT appSig β} {prog' : IT appSig γ} (h : SameShape Q prog prog') :
    (∃ e, serverSession cfg prog = .ret (.error e, Server.init) ∧
      serverSession { cfg with sigKp := kp } prog' = .ret (.error e, Server.init)) ∨
    ∃ k k', serverSession cfg prog = .op (S := env) .read k ∧
      serverSession { cfg with sigKp := kp } prog' = .op (S := env) .read k' ∧
      ∀ r, (∀ raw, r = .ok raw → leNat (field raw 5 1) % 2 = 1 →
        (field raw 42 32 = cfg.sigKp.pub ↔ field raw 42 32 = kp.pub)) → Twins (EndAlike Q) (k r) (k' r) := by
  rcases Option.eq_none_or_eq_some cfg.encKp with he | ⟨encKp, he⟩
  · refine .inl ⟨.valueError, ?_, ?_⟩ <;>
      simp [serverSession, Server.handshake, Server.validate, he, Py.bind_run, Py.raise_run, serverAfter]
  · refine .inr ⟨fun r => (sRest cfg encKp Server.init r).bind (serverAfter prog),
      fun r => (sRest { cfg with sigKp := kp } encKp Server.init r).bind (serverAfter prog'), ?_, ?_, ?_⟩
    · rw [serverSession, s_handshake_run cfg encKp he, IT.op_bind]
    · rw [serverSession, s_handshake_run { cfg with sigKp := kp } encKp he, IT.op_bind]
    intro r hr
    refine (sRest_twins cfg kp encKp hk Server.init rfl r hr).bind ?_
    rintro ⟨r, s1⟩ ⟨r', s2⟩ (⟨a, b, hr, hr', ⟨hc, hc'⟩ | ⟨c, c', hc, hc', ht⟩⟩ | ⟨e, hr, hr', -⟩)
    · simp only at hr hr' hc hc'
      subst hr hr'
      simp only [serverAfter, hc, hc']
      exact .ret _ _ (.inr ⟨_, rfl, rfl⟩)
    · simp only at hr hr' hc hc'
      subst hr hr'
      simp only [serverAfter, hc, hc']
      refine (app_run_twins h ht).bind fun x y hq => ?_
      exact .ret _ _ (.inl ⟨_, _, rfl, rfl, hq⟩)
    · simp only at hr hr'
      subst hr hr'
      exact .ret _ _ (.inr ⟨_, rfl, rfl⟩)

end Salt
