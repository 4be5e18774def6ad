import Verif.Lemmas.Again
import Verif.Lemmas.Net

/-!
# Networks of used session objects
-/

namespace Salt

open Spec

variable {S : Sig} {α β γ δ : Type}

/-- Two programs that make the same calls, and whose results are related; but the first one may go on in any way where the
second one ends in `Bad`. -/
inductive ParUpto (Bad : β → Prop) (R : α → β → Prop) : IT S α → IT S β → Prop
  | ret (a : α) (b : β) : R a b → ParUpto Bad R (.ret a) (.ret b)
  | op (e : S.Op) (k : Except Err (S.Resp e) → IT S α) (k' : Except Err (S.Resp e) → IT S β) :
      (∀ r, ParUpto Bad R (k r) (k' r)) → ParUpto Bad R (.op e k) (.op e k')
  | bad (t : IT S α) (b : β) : Bad b → ParUpto Bad R t (.ret b)

variable {Bad : β → Prop} {R : α → β → Prop}

theorem Par.upto {t : IT S α} {t' : IT S β} (h : Par R t t') : ParUpto Bad R t t' := by
  induction h with
  | ret a b h => exact .ret _ _ h
  | op e k k' _ ih => exact .op _ _ _ ih

theorem Par.bindUpto {Bad : δ → Prop} {Q : γ → δ → Prop} {t : IT S α} {t' : IT S β} {f : α → IT S γ} {g : β → IT S δ}
    (h : Par R t t') (hf : ∀ a b, R a b → ParUpto Bad Q (f a) (g b)) : ParUpto Bad Q (t.bind f) (t'.bind g) := by
  induction h with
  | ret a b h => exact hf _ _ h
  | op e k k' _ ih => exact .op _ _ _ ih

theorem ParUpto.party {t : IT env α} {t' : IT env β} (h : ParUpto Bad R t t') (L : Lib) (c : Clock) (i : Nat) :
    ParUpto Bad R (Spec.party L c t i) (Spec.party L c t' i) := by
  induction h generalizing i with
  | ret a b h => exact .ret _ _ h
  | bad t b h => exact .bad _ _ h
  | op e k k' _ ih =>
    cases e <;> simp only [Spec.party] <;> first | exact ih _ _ | exact .op _ _ _ fun r => ih _ _

section
variable {α' β' : Type} {Ra : α' → α → Prop} {Rb : β' → β → Prop} {Ba : α → Prop} {Bb : β → Prop}

/-- Networks of such programs. -/
structure NetUpto (Ba : α → Prop) (Bb : β → Prop) (Ra : α' → α → Prop) (Rb : β' → β → Prop) (x : Net α' β') (X : Net α β) :
    Prop where
  a : ParUpto Ba Ra x.a X.a
  b : ParUpto Bb Rb x.b X.b
  ab : x.ab = X.ab
  ba : x.ba = X.ba

/-- Neither has ended badly. -/
def Fine (Ba : α → Prop) (Bb : β → Prop) (X : Net α β) : Prop :=
  (∀ r, X.a = .ret r → ¬ Ba r) ∧ ∀ r, X.b = .ret r → ¬ Bb r

theorem NetUpto.forth {x : Net α' β'} {X Y : Net α β} (h : NetUpto Ba Bb Ra Rb x X) (hs : Net.Step X Y) :
    ∃ y, Net.Step x y ∧ NetUpto Ba Bb Ra Rb y Y := by
  obtain ⟨a, b, ab, ba⟩ := x
  obtain ⟨h1, h2, h3, h4⟩ := h
  simp only at h1 h2 h3 h4
  cases hs with
  | aWrite ms l k =>
    cases h1 with
    | op _ k0 _ h1 => exact ⟨_, .aWrite ms l k0, h1 _, h2, by simp [h3], h4⟩
  | aRead m k =>
    cases h1 with
    | op _ k0 _ h1 =>
      simp only at h4
      subst h4
      exact ⟨_, .aRead m k0, h1 _, h2, h3, rfl⟩
  | bWrite ms l k =>
    cases h2 with
    | op _ k0 _ h2 => exact ⟨_, .bWrite ms l k0, h1, h2 _, h3, by simp [h4]⟩
  | bRead m k =>
    cases h2 with
    | op _ k0 _ h2 =>
      simp only at h3
      subst h3
      exact ⟨_, .bRead m k0, h1, h2 _, rfl, h4⟩

theorem NetUpto.back {x y : Net α' β'} {X : Net α β} (h : NetUpto Ba Bb Ra Rb x X) (hf : Fine Ba Bb X) (hs : Net.Step x y) :
    ∃ Y, Net.Step X Y ∧ NetUpto Ba Bb Ra Rb y Y := by
  obtain ⟨a, b, ab, ba⟩ := X
  obtain ⟨h1, h2, h3, h4⟩ := h
  obtain ⟨f1, f2⟩ := hf
  simp only at h1 h2 h3 h4 f1 f2
  cases hs with
  | aWrite ms l k =>
    cases h1 with
    | op _ _ k0 h1 => exact ⟨_, .aWrite ms l k0, h1 _, h2, by simp [← h3], h4⟩
    | bad _ r h1 => exact absurd h1 (f1 r rfl)
  | aRead m k =>
    cases h1 with
    | op _ _ k0 h1 =>
      simp only at h4
      subst h4
      exact ⟨_, .aRead m k0, h1 _, h2, h3, rfl⟩
    | bad _ r h1 => exact absurd h1 (f1 r rfl)
  | bWrite ms l k =>
    cases h2 with
    | op _ _ k0 h2 => exact ⟨_, .bWrite ms l k0, h1, h2 _, h3, by simp [← h4]⟩
    | bad _ r h2 => exact absurd h2 (f2 r rfl)
  | bRead m k =>
    cases h2 with
    | op _ _ k0 h2 =>
      simp only at h3
      subst h3
      exact ⟨_, .bRead m k0, h1, h2 _, rfl, h4⟩
    | bad _ r h2 => exact absurd h2 (f2 r rfl)

theorem netRun_keeps {n : Nat} {X Y : Net α β} (h : Net.Run n X Y) :
    (∀ r, X.a = .ret r → Y.a = .ret r) ∧ ∀ r, X.b = .ret r → Y.b = .ret r := by
  induction h with
  | refl => exact ⟨fun _ h => h, fun _ h => h⟩
  | step hs _ ih =>
    refine ⟨fun r hr => ih.1 r ?_, fun r hr => ih.2 r ?_⟩ <;> cases hs <;> first | exact hr | cases hr

theorem netRun_fine {n : Nat} {X Y : Net α β} (h : Net.Run n X Y) (hf : Fine Ba Bb Y) : Fine Ba Bb X :=
  ⟨fun r hr => hf.1 r ((netRun_keeps h).1 r hr), fun r hr => hf.2 r ((netRun_keeps h).2 r hr)⟩

theorem NetUpto.run {n : Nat} {x : Net α' β'} {X Y : Net α β} (h : NetUpto Ba Bb Ra Rb x X) (hs : Net.Run n X Y) :
    ∃ y, Net.Run n x y ∧ NetUpto Ba Bb Ra Rb y Y := by
  induction hs generalizing x with
  | refl => exact ⟨x, .refl _, h⟩
  | step hs _ ih =>
    obtain ⟨y, h1, h2⟩ := h.forth hs
    obtain ⟨z, h3, h4⟩ := ih h2
    exact ⟨z, .step h1 h3, h4⟩

/-- If the second network ends, and not badly, then the first one ends likewise. -/
theorem NetUpto.endsIn {x : Net α' β'} {X Y : Net α β} (h : NetUpto Ba Bb Ra Rb x X) (he : EndsIn X Y) (hf : Fine Ba Bb Y) :
    ∃ y, EndsIn x y ∧ NetUpto Ba Bb Ra Rb y Y := by
  obtain ⟨hst, n, hr, -⟩ := he
  obtain ⟨y, h1, h2⟩ := h.run hr
  have hy : Net.Stuck y := fun z hz => by
    obtain ⟨Z, h3, -⟩ := h2.back hf hz
    exact hst Z h3
  exact ⟨y, ⟨hy, n, h1, fun m z hz => ⟨(h1.confluent hy hz).1, fun hzs => (h1.unique hy hz hzs).2⟩⟩, h2⟩

theorem SameEnd.upto {τ : Type} {Q : τ → α → Prop} {Q' : τ → α' → Prop} {t : IT appSig τ} {p : IT appSig α'} {q : IT appSig α}
    (h : SameEnd Q t q) (hp : ParUpto Ba Ra p q) (hb : ∀ r, q = .ret r → ¬ Ba r)
    (hq : ∀ a b b', Q a b → Ra b' b → Q' a b') : SameEnd Q' t p := by
  cases h with
  | ret h =>
    cases hp with
    | ret a b hr => exact .ret (hq _ _ _ h hr)
    | bad _ _ h => exact absurd h (hb _ rfl)
  | wait k k' =>
    cases hp with
    | op _ k0 _ _ => exact .wait _ _

end

/-- How a session on a used client object ends, against a new one. -/
def ClientOnEnd {β : Type} (p q : Except Err β × ClientSt) : Prop := p.1 = q.1 ∧ ∀ b, p.1 = .ok b → p.2 = q.2

/-- The same for the server. -/
def ServerOnEnd {β : Type} (d : Bool) (p q : Except Err β × ServerSt) : Prop :=
  p.1 = q.1 ∧ ∀ b, p.1 = .ok b → p.2 = { q.2 with isDone := d }

/-- The server has answered an A1, or something failed. -/
def NotServed {β : Type} (q : Except Err β × ServerSt) : Prop := ∃ e, q.1 = .error e

theorem clientSessionOn_par {β : Type} (cfg : ClientCfg) (s : ClientSt) (prog : IT appSig β) :
    Par ClientOnEnd (clientSessionOn cfg s prog) (clientSession cfg prog) := by
  refine (client_again cfg s s Client.init ⟨ClientMixed.start s _, by simp, by simp, by simp, by simp, by simp⟩).bind ?_
  rintro ⟨r, x⟩ ⟨r', y⟩ ⟨hr, h⟩
  cases hr
  cases r with
  | error e => exact .ret _ _ ⟨rfl, nofun⟩
  | ok u =>
    cases (show x = y from h)
    exact Par.refl _ fun _ => ⟨rfl, fun _ _ => rfl⟩

theorem serverSessionOn_par {β : Type} (cfg : ServerCfg) (s : ServerSt) (prog : IT appSig β) :
    ParUpto NotServed (ServerOnEnd s.isDone) (serverSessionOn cfg s prog) (serverSession cfg prog) := by
  refine (server_again cfg s s Server.init ⟨rfl, rfl⟩).bindUpto ?_
  rintro ⟨r, x⟩ ⟨r', y⟩ ⟨hr, h⟩
  cases hr
  cases r with
  | error e => exact .ret _ _ ⟨rfl, nofun⟩
  | ok u =>
    rcases (show ServerOkAgain s x y from h) with ⟨rfl, rfl⟩ | ⟨hd, rfl⟩
    · exact .bad _ _ ⟨_, rfl⟩
    · refine Par.upto ?_
      simp only [serverAfter]
      cases y.chan with
      | none => exact .ret _ _ ⟨rfl, nofun⟩
      | some c =>
        refine (Par.refl (R := fun a b => a = b) _ fun _ => rfl).bind ?_
        rintro ⟨b, c'⟩ _ rfl
        exact .ret _ _ ⟨rfl, fun _ _ => rfl⟩

/-- What is known of sessions of new objects holds for used ones. -/
theorem sameOutcome_on {α β : Type} {L : Lib} {cc cs : Clock} {cfgC : ClientCfg} {cfgS : ServerCfg} (s : ClientSt) (t : ServerSt)
    (pA : IT appSig α) (pB : IT appSig β) {x : Net α β} {key h1 h2 pc ps : Bytes}
    (h : SameOutcome (ClientEnd key h1 h2 ps) (ServerEnd key h1 h2 pc) x
      (Net.start (party L cc (clientSession cfgC pA) 0) (party L cs (serverSession cfgS pB) 0))) :
    SameOutcome (ClientEnd key h1 h2 ps) (fun b p => ServerEnd key h1 h2 pc b p ∧ p.2.isDone = t.isDone) x
      (Net.start (party L cc (clientSessionOn cfgC s pA) 0) (party L cs (serverSessionOn cfgS t pB) 0)) := by
  obtain ⟨y, Y, e1, e2, e3, e4, e5, e6⟩ := h
  have hf : Fine (fun _ => False) NotServed Y := by
    refine ⟨fun _ _ h => h, fun r hr => ?_⟩
    rintro ⟨e, he⟩
    rw [hr] at e4
    generalize y.b = w at e4
    cases e4 with
    | ret h =>
      rw [h.1] at he
      cases he
  obtain ⟨z, f1, f2⟩ := NetUpto.endsIn (Ra := ClientOnEnd) (Rb := ServerOnEnd t.isDone)
    (x := Net.start (party L cc (clientSessionOn cfgC s pA) 0) (party L cs (serverSessionOn cfgS t pB) 0))
    (X := Net.start (party L cc (clientSession cfgC pA) 0) (party L cs (serverSession cfgS pB) 0))
    ⟨(clientSessionOn_par cfgC s pA).upto.party L cc 0, (serverSessionOn_par cfgS t pB).party L cs 0, rfl, rfl⟩ e2 hf
  refine ⟨y, z, e1, f1, SameEnd.upto e3 f2.a hf.1 ?_, SameEnd.upto e4 f2.b hf.2 ?_, fun h => by rw [f2.ab, e5 h],
    fun h => by rw [f2.ba, e6 h]⟩
  · rintro a q p hq ⟨h1, h2⟩
    obtain ⟨c1, c2⟩ := hq
    have := h2 a (h1.trans c1)
    unfold ClientEnd
    rw [h1, this]
    exact ⟨c1, c2⟩
  · rintro b q p hq ⟨h1, h2⟩
    obtain ⟨c1, c2⟩ := hq
    have := h2 b (h1.trans c1)
    unfold ServerEnd
    rw [h1, this]
    exact ⟨⟨c1, c2⟩, rfl⟩

end Salt
