import Verif.Lemmas.TaskSim
import Verif.Lemmas.SimLog
import Verif.Spec.OpenTasks
import Verif.Spec.Log

/-!
# Tasks on a channel with a buffered M4, with any peer
-/

set_option linter.unusedSimpArgs false
set_option linter.unusedSectionVars false

namespace Salt

open Spec

variable {σ τ α β γ : Type}

/-- The coroutine neither reads nor writes messages, and leaves `g` of the attributes as it is. -/
def Leaves (g : σ → γ) (v : γ) : IT (sh σ) α → Prop
  | .ret _ => True
  | .op .get k => ∀ s, g s = v → Leaves g v (k (.ok s))
  | .op (.put s) k => g s = v ∧ Leaves g v (k (.ok ()))
  | .op (.env .read) _ => False
  | .op (.env (.write _ _)) _ => False
  | .op (.env _) k => ∀ r, Leaves g v (k r)

variable {g : σ → γ} {v : γ}

theorem Leaves.bind {t : IT (sh σ) α} {f : α → IT (sh σ) β} (h : Leaves g v t) (h' : ∀ a, Leaves g v (f a)) : Leaves g v (t.bind f) := by
  induction t with
  | ret a => exact h' a
  | op e k ih =>
    rcases e with _ | _ | e
    · exact fun s hs => ih _ (h s hs)
    · exact ⟨h.1, ih _ h.2⟩
    · cases e <;> first | exact absurd h id | exact fun r => ih r (h r)

theorem Leaves.co {t : Co σ α} {f : α → Co σ β} (h : Leaves (σ := σ) (α := Except Err α) g v t)
    (h' : ∀ a, Leaves (σ := σ) (α := Except Err β) g v (f a)) : Leaves (σ := σ) (α := Except Err β) g v (t >>= f : Co σ β) := by
  refine Leaves.bind (σ := σ) (t := t) (β := Except Err β) h fun a => ?_
  cases a with
  | ok a => exact h' a
  | error e => trivial

theorem leaves_modify (f : σ → σ) (hf : ∀ s, g (f s) = g s) : Leaves (σ := σ) (α := Except Err Unit) g v (Co.modifySt f) :=
  fun s hs => ⟨(hf s).trans hs, trivial⟩

theorem Leaves.zoom {get : σ → τ} {set : τ → σ → σ} {gt : τ → γ} {gs : σ → β} {v : γ} {w : β}
    (hg : ∀ s, gs s = w → gt (get s) = v) (hs : ∀ t s, gt t = v → gs s = w → gs (set t s) = w) {t : IT (sh τ) α} (h : Leaves gt v t) :
    Leaves gs w (Co.zoom get set t) := by
  induction t with
  | ret a => trivial
  | op e k ih =>
    rcases e with _ | _ | e
    · exact fun s h' => ih _ (h _ (hg s h'))
    · rw [Co.zoom, Leaves]
      intro s h'
      exact ⟨hs _ _ h.1 h', ih _ h.2⟩
    · cases e <;> first | exact absurd h id | exact fun r => ih r (h r)

/-- A part of a task that neither reads nor writes messages. -/
theorem block_leaves {L : Lib} {c : Clock} {t : IT (sh σ) α} (f : α → IT (sh σ) β) (h : Leaves g v t) (s : σ) (i : Nat) (hs : g s = v) :
    ∃ b s' j, block L c (t.bind f) s i = block L c (f b) s' j ∧ g s' = v := by
  induction t generalizing s i with
  | ret a => exact ⟨a, s, i, rfl, hs⟩
  | op e k ih =>
    rcases e with _ | s' | e
    · exact ih _ (h s hs) s i hs
    · exact ih _ h.2 s' i h.1
    · cases e <;> first | exact absurd h id | exact ih _ (h _) s _ hs

/-- What reading leaves as it is in an encrypted channel. -/
def encKept (s : EncSt) : Bytes × Bytes × Nat × Bytes := (s.key, s.sessionNonce, s.writeNonce, s.pushback)

/-- What reading leaves as it is in an application channel. -/
def appKept (s : AppSt) : (Bytes × Bytes × Nat × Bytes) × Option Packet := (encKept s.enc, s.bufferedM4)

theorem leaves_decrypt {v} (b : Bytes) : Leaves (σ := EncSt) (α := Except Err Bytes) encKept v (Co.decrypt b) := by
  refine Leaves.bind (σ := EncSt) (t := _) ?_ fun a => ?_
  · exact Leaves.co (t := Co.getSt) (fun _ _ => trivial) fun _ => Leaves.co (t := Co.lift _) trivial fun _ _ => trivial
  · cases a with
    | ok a => trivial
    | error e =>
      simp only []
      split <;> trivial

theorem leaves_opened {v} (raw : Bytes) : Leaves (σ := EncSt) (α := Except Err Bytes) encKept v (Co.opened raw) := by
  refine Leaves.co ?_ fun _ => Leaves.co (leaves_decrypt _) fun _ => Leaves.co (leaves_modify _ fun _ => rfl) fun _ => trivial
  exact Leaves.co (t := Co.lift _) trivial fun _ => Leaves.co (leaves_modify _ fun _ => rfl) fun _ => trivial

theorem leaves_parsed {v} (raw : Bytes) : Leaves (σ := AppSt) (α := Except Err Bytes) appKept v (Co.parsed raw) := by
  refine Leaves.co (t := Co.lift _) trivial fun ap => ?_
  split
  · exact Leaves.co (t := Co.lift _) trivial fun _ => Leaves.co (t := Co.env (.check _)) (fun _ => trivial) fun _ => trivial
  · refine Leaves.co (t := Co.lift _) trivial fun mp => Leaves.co (t := Co.env (.check _)) (fun _ => trivial) fun _ =>
      Leaves.co (leaves_modify _ fun _ => rfl) fun _ => ?_
    cases mp.opt.getD [] <;> trivial

theorem leaves_readRest {v} (r : Except Err Bytes) : Leaves (σ := AppSt) (α := Except Err Bytes) appKept v (Co.readRest r) := by
  refine Leaves.co (Leaves.zoom (gt := encKept) (v := v.1) (fun s h => by rw [← h]; rfl) (fun t s h h' => ?_)
    (Leaves.co (t := Co.lift _) trivial leaves_opened)) leaves_parsed
  rw [← h']
  simp only [appKept, h, ← h']

/-- The channel can encrypt `m` more packets. -/
structure Writable (s : AppSt) (m : Nat) : Prop where
  nonce : s.enc.sessionNonce = zeros 8
  key : s.enc.key.length = 32
  push : s.enc.pushback = []
  room : s.enc.writeNonce + 2 * (m + (pending s 0).length) ≤ 2 ^ 64

theorem pending_length (s : AppSt) (t : Nat) : (pending s t).length = (pending s 0).length := by
  unfold pending; cases s.bufferedM4 <;> rfl

theorem Writable.kept {s s' : AppSt} {m : Nat} (h : Writable s m) (hk : appKept s' = appKept s) : Writable s' m := by
  simp only [appKept, encKept, Prod.mk.injEq] at hk
  obtain ⟨⟨k1, k2, k3, k4⟩, k5⟩ := hk
  refine ⟨k2 ▸ h.nonce, k1 ▸ h.key, k4 ▸ h.push, ?_⟩
  have := h.room
  simp only [pending] at this ⊢
  rw [k3, k5]
  exact this

theorem Writable.mono {s : AppSt} {m m' : Nat} (h : Writable s m) (hm : m' ≤ m) : Writable s m' :=
  ⟨h.nonce, h.key, h.push, by have := h.room; omega⟩

/-- What a task has done to the channel: nothing that matters, or one write call. -/
def CallDid (W : List Bytes → Bool → Prop) (L : Lib) (s s' : AppSt) (m m' d : Nat) (out : List Bytes) : Prop :=
  (out = [] ∧ appKept s' = appKept s ∧ m' = m) ∨
  ∃ t l ms, W ms l ∧ SealedAll L s.enc.key s.enc.writeNonce (flagged l (pending s t ++ appPackets t ms)) out ∧
    s'.enc.key = s.enc.key ∧ s'.enc.writeNonce = s.enc.writeNonce + 2 * (flagged l (pending s t ++ appPackets t ms)).length ∧
    s'.bufferedM4 = none ∧ m' + ms.length = m ∧ Writable s' (m' + d)

theorem did_kept {W : List Bytes → Bool → Prop} {L : Lib} {s0 s s' : AppSt} {m m' d : Nat} {out : List Bytes} (hk : appKept s = appKept s0) (h : CallDid W L s s' m m' d out) :
    CallDid W L s0 s' m m' d out := by
  have hk' := hk
  simp only [appKept, encKept, Prod.mk.injEq] at hk'
  obtain ⟨⟨k1, k2, k3, k4⟩, k5⟩ := hk'
  have hp : ∀ t, pending s t = pending s0 t := fun t => by simp only [pending, k5]
  rcases h with ⟨h1, h2, h3⟩ | ⟨t, l, ms, h1, h2, h3, h4, h5⟩
  · exact .inl ⟨h1, h2.trans hk, h3⟩
  · rw [hp, k1, k3] at *
    exact .inr ⟨t, l, ms, h1, h2, h3, h4, h5⟩

/-- A task runs from a call of a method of the channel. -/
theorem open_block {L : Lib} (hb : BoxLaw L) (c : Clock) (W : List Bytes → Bool → Prop) (p : IT appSig α) (hW : ∀ ms l, MayWrite ms l p → W ms l)
    (s : AppSt) (i m d : Nat) (hm : Modest 65535 p m)
    (hw : Writable s (m + d)) :
    ∃ T s' i' out p' m', block L c (Co.task p) s i = (T, s', i', out) ∧ TaskRel p' T ∧ Modest 65535 p' m' ∧
      CallDid W L s s' m m' d out ∧ ∀ ms l, MayWrite ms l p' → W ms l := by
  induction p generalizing s i m with
  | ret b => exact ⟨_, s, i, [], .ret b, m, rfl, .call _, hm, .inl ⟨rfl, rfl, rfl⟩, hW⟩
  | op e k ih =>
    cases e with
    | read =>
      cases hq : s.readQ with
      | nil =>
        have := Co.block_read (L := L) (c := c) (i := i) (fun r => Co.task (k r)) hq hw.push
        exact ⟨_, s, i, [], .op (S := appSig) .read k, m, this, .wait k, hm, .inl ⟨rfl, rfl, rfl⟩, hW⟩
      | cons x q =>
        have hblk : block L c (Co.task (.op (S := appSig) .read k)) s i = block L c (Co.task (k (.ok x))) { s with readQ := q } i := by
          obtain ⟨e, m4, q'⟩ := s
          simp only at hq
          subst hq
          rfl
        obtain ⟨T, s', i', out, p', m', h1, h2, h3, h4, h5⟩ := ih (.ok x) (fun ms l h => hW ms l (.later _ _ _ h)) { s with readQ := q } i m (hm _) (hw.kept rfl)
        exact ⟨T, s', i', out, p', m', hblk.trans h1, h2, h3, did_kept (s := { s with readQ := q }) rfl h4, h5⟩
    | write ms l =>
      obtain ⟨w1, w2, w3, w4⟩ := hm
      have hl := appPackets_length (c.now i) ms w1
      have hp := pending_length s (c.now i)
      have hroom := hw.room
      obtain ⟨tr, ps, e1, e2, e3, e4, e5⟩ := App_write_flight hb c l ms s hw.nonce hw.key i (by simp only [List.length_append]; omega)
      have hx := e1
      rw [show App.write ms l s = Co.alone (Co.handle (.write ms l)) s from (Co.handle_means (.write ms l) s).symm] at hx
      have hblk := Co.block_write (fun r => Co.task (k r)) hx e2 e3 (Co.write_last ms l)
      refine ⟨_, _, _, ps, k (.ok ()), m - ms.length, hblk, .call _, w4 _, .inr ⟨c.now i, l, ms, hW _ _ (.here _), e5, rfl, ?_, rfl, by omega, ?_⟩,
        fun ms l h => hW ms l (.later _ _ _ h)⟩
      · rw [flagged_length]
      · refine ⟨hw.nonce, hw.key, hw.push, ?_⟩
        simp only [pending, List.length_append, List.length_nil]
        simp only [pending] at hp hroom
        omega

variable {ι : Type} [DecidableEq ι] [Fintype ι]

/-- What the tasks have written since the channel was as `s`, and what has become of the buffered M4. -/
def SentOnce (W : List Bytes → Bool → Prop) (L : Lib) (s s' : AppSt) (o : List Bytes) : Prop :=
  (o = [] ∧ appKept s' = appKept s) ∨
  (s'.bufferedM4 = none ∧ s'.enc.key = s.enc.key ∧ ∃ t l ms rest, W ms l ∧
    SealedAll L s.enc.key s.enc.writeNonce (flagged l (pending s t ++ appPackets t ms) ++ rest) o ∧
    s'.enc.writeNonce = s.enc.writeNonce + 2 * (flagged l (pending s t ++ appPackets t ms) ++ rest).length ∧
    ∀ q ∈ rest, ∃ t l ms, W ms l ∧ q ∈ flagged l (appPackets t ms))

theorem SentOnce.did {W : List Bytes → Bool → Prop} {L : Lib} {s s1 s2 : AppSt} {o out : List Bytes} {m m' d : Nat} (h : SentOnce W L s s1 o) (h' : CallDid W L s1 s2 m m' d out) :
    SentOnce W L s s2 (o ++ out) := by
  rcases h with ⟨rfl, hk⟩ | ⟨h1, h2, t, l, ms, rest, h3, h4, h5, h6⟩
  · rcases did_kept hk h' with ⟨rfl, h2, -⟩ | ⟨t, l, ms, h1, h2, h3, h4, h5, -⟩
    · exact .inl ⟨rfl, h2⟩
    · exact .inr ⟨h5, h3, t, l, ms, [], h1, by simpa using h2, by simpa using h4, by simp⟩
  · rcases h' with ⟨rfl, hk, -⟩ | ⟨t', l', ms', g1, g2, g3, g4, g5, -⟩
    · simp only [appKept, encKept, Prod.mk.injEq] at hk
      obtain ⟨⟨k1, k2, k3, k4⟩, k5⟩ := hk
      exact .inr ⟨k5.trans h1, k1.trans h2, t, l, ms, rest, h3, by simpa using h4, k3.trans h5, h6⟩
    · have hp : pending s1 t' = [] := by simp only [pending, h1]
      rw [hp, List.nil_append] at g2 g4
      rw [h2, h5] at g2
      refine .inr ⟨g5, g3.trans h2, t, l, ms, rest ++ flagged l' (appPackets t' ms'), h3, ?_, ?_, ?_⟩
      · rw [← List.append_assoc]
        exact h4.append g2
      · rw [g4, h5]
        simp only [List.length_append]
        omega
      · intro q hq
        rcases List.mem_append.1 hq with hq | hq
        · exact h6 q hq
        · exact ⟨t', l', ms', g1, hq⟩

/-- Tasks on a channel, while they run. -/
structure OpenInv (W : List Bytes → Bool → Prop) (L : Lib) (s : AppSt) (y : Loop ι AppSt α) (o : List Bytes) (p : ι → IT appSig α) (f : ι → Nat) : Prop where
  rel : ∀ t, TaskRel (p t) (y.tasks t)
  modest : ∀ t, Modest 65535 (p t) (f t)
  writable : Writable y.st (∑ t, f t)
  calls : ∀ t ms l, MayWrite ms l (p t) → W ms l
  sent : SentOnce W L s y.st o

/-- A task of the loop runs on. -/
theorem OpenInv.step {W : List Bytes → Bool → Prop} {L : Lib} (hb : BoxLaw L) {c : Clock} {s : AppSt} {y : Loop ι AppSt α} {o : List Bytes} {p : ι → IT appSig α} {f : ι → Nat}
    (h : OpenInv W L s y o p f) (t : ι) {T0 : IT (sh AppSt) α} {p0 : IT appSig α} {s0 : AppSt} {i0 : Nat} (hk : appKept s0 = appKept y.st)
    (hm : Modest 65535 p0 (f t)) (hW : ∀ ms l, MayWrite ms l p0 → W ms l)
    (hT : block L c T0 y.st y.calls = block L c (Co.task p0) s0 i0) :
    ∃ p f, OpenInv W L s (y.run L c t T0).1 (o ++ (y.run L c t T0).2) p f := by
  have hsum : ∑ u, f u = f t + ∑ u ∈ Finset.univ \ {t}, f u := by
    rw [← Finset.add_sum_erase _ _ (Finset.mem_univ t), ← Finset.sdiff_singleton_eq_erase]
  have hw := h.writable
  rw [hsum] at hw
  obtain ⟨T, s', i', out, p', m', e1, e2, e3, e4, e5⟩ := open_block hb c W p0 hW s0 i0 (f t) _ hm (hw.kept hk)
  have e4 := did_kept hk e4
  have hrun : y.run L c t T0 = (⟨Function.update y.tasks t T, s', i'⟩, out) := by
    simp only [Loop.run, hT, e1]
  rw [hrun]
  refine ⟨Function.update p t p', Function.update f t m', ?_, ?_, ?_, ?_, h.sent.did e4⟩
  · intro u
    by_cases hu : u = t
    · subst hu; simpa using e2
    · simpa [Function.update_of_ne hu] using h.rel u
  · intro u
    by_cases hu : u = t
    · subst hu; simpa using e3
    · simpa [Function.update_of_ne hu] using h.modest u
  · rw [Finset.sum_update_of_mem (Finset.mem_univ t)]
    rcases e4 with ⟨-, g1, g2⟩ | ⟨_, _, _, -, -, -, -, -, -, g⟩
    · rw [g2]
      exact hw.kept g1
    · exact g
  · intro u
    by_cases hu : u = t
    · subst hu; simpa using e5
    · simpa [Function.update_of_ne hu] using h.calls u

/-- Tasks on a channel, after any run with any peer. -/
theorem open_runs {L : Lib} (hb : BoxLaw L) {c : Clock} {s : AppSt} {i : Nat} {p : ι → IT appSig α} {n : Nat} (hm : ModestAll 65535 p n)
    (hw : Writable s n) {o : List Bytes} {y : Loop ι AppSt α} (h : Loop.Runs L c ⟨fun t => Co.task (p t), s, i⟩ o y) :
    ∃ p' f, OpenInv (fun ms l => ∃ t, MayWrite ms l (p t)) L s y o p' f := by
  induction h with
  | refl =>
    obtain ⟨f, h1, h2⟩ := hm
    exact ⟨p, f, fun t => .call _, h1, hw.mono h2, fun t ms l h => ⟨t, h⟩, .inl ⟨rfl, rfl⟩⟩
  | @run o y t _ hr ih =>
    obtain ⟨p, f, h⟩ := ih
    have hrel := h.rel t
    have hmt := h.modest t
    have hc := h.calls t
    generalize p t = p0 at hrel hmt hc
    generalize y.tasks t = T0 at hrel hr
    cases hrel with
    | call => exact h.step hb t rfl hmt hc rfl
    | wait k => exact absurd hr id
  | @recv o y t r k _ he ih =>
    obtain ⟨p, f, h⟩ := ih
    have hrel := h.rel t
    have hmt := h.modest t
    have hc := h.calls t
    rw [he] at hrel
    generalize hT : (IT.op (S := sh AppSt) (.env .read) k : IT (sh AppSt) α) = T0 at hrel
    generalize p t = p0 at hrel hmt hc
    cases hrel with
    | call => exact absurd (show AtRead (Co.task p0) by rw [← hT]; trivial) (task_not_atRead p0)
    | wait k' =>
      injection hT with _ hT
      subst hT
      obtain ⟨b, s0, i0, g1, g2⟩ := block_leaves (L := L) (c := c) (fun r => Co.task (k' r)) (leaves_readRest r) y.st y.calls rfl
      exact h.step hb t g2 (hmt b) (fun ms l h => hc ms l (.later _ _ _ h)) g1

end Salt
