import Verif.Lemmas.AioPair
import Verif.Spec.AioFork

/-!
# Tasks that start when the handshake of their side has ended
-/

set_option linter.unusedSimpArgs false
set_option linter.unusedSectionVars false

namespace Salt

open Spec Props

variable {α β γ δ : Type} {L : Lib} {c ca cb : Clock}

/-- Given the bytes `w`, the coroutine goes on to return `b` without writing anything; `i` and `j` are the numbers of calls of the time objects. -/
inductive Drains (L : Lib) (c : Clock) : IT (aio Unit) β → Nat → Bytes → β → Nat → Prop
  | ret (b i) : Drains L c (.ret b) i [] b i
  | env {e k i w b j} : Drains L c (k (answer L c e i).1) (answer L c e i).2 w b j →
      Drains L c (.op (S := aio Unit) (.sh (.env e)) k) i w b j
  | drain {k i w b j} : Drains L c (k (.ok ())) i w b j → Drains L c (.op (S := aio Unit) (.stream .drain) k) i w b j
  | eof {k i w b j} : Drains L c (k (.ok false)) i w b j → Drains L c (.op (S := aio Unit) .atEof k) i w b j
  | read {n : Int} {k : Except Err Bytes → IT (aio Unit) β} {i w b j} (v : Bytes) : n = (v.length : Nat) → Drains L c (k (.ok v)) i w b j →
      Drains L c (.op (S := aio Unit) (.stream (.readexactly n)) k) i (v ++ w) b j

/-- A coroutine that gets control. -/
theorem Drains.block {T : IT (aio Unit) β} {i j : Nat} {w : Bytes} {b : β} (h : Drains L c T i w b j) (rt : AioRt Unit Unit)
    (F E : Bytes) (hi : rt.calls = i) (he : rt.eof = false) (hw : rt.waiter = none) (hf : rt.buffer ++ F = w ++ E) :
    ∃ T' rt' w', aioBlock L c () T rt = (T', rt', []) ∧ Drains L c T' rt'.calls w' b j ∧ rt'.buffer ++ F = w' ++ E ∧
      rt'.closed = rt.closed ∧ rt'.eof = false ∧
      (rt'.waiter = none ∧ rt'.phase = rt.phase ∨ rt'.waiter = some () ∧ rt'.phase () = .pending ∧ Starved T' rt'.buffer) := by
  induction h generalizing rt with
  | ret b i => exact ⟨_, rt, [], rfl, hi ▸ .ret _ _, hf, rfl, he, .inl ⟨hw, rfl⟩⟩
  | @env e k i w b j _ ih =>
    subst hi
    obtain ⟨T', rt', w', e1, e2, e3, e4, e5, e6⟩ := ih { rt with calls := (answer L c e rt.calls).2 } rfl he hw hf
    exact ⟨T', rt', w', e1, e2, e3, e4, e5, e6⟩
  | @drain k i w b j h ih => exact ⟨_, rt, w, rfl, hi ▸ h, hf, rfl, he, .inl ⟨hw, rfl⟩⟩
  | @eof k i w b j h ih =>
    obtain ⟨T', rt', w', e1, e2, e3, e4, e5, e6⟩ := ih rt hi he hw hf
    refine ⟨T', rt', w', ?_, e2, e3, e4, e5, e6⟩
    rw [aioBlock, he]
    exact e1
  | @read n k i w b j v hn h ih =>
    subst hn
    by_cases hl : v.length ≤ rt.buffer.length
    · have ht : rt.buffer.take v.length = v ∧ rt.buffer.drop v.length ++ F = w ++ E := by
        rw [List.append_assoc] at hf
        have h1 := congrArg (List.take v.length) hf
        have h2 := congrArg (List.drop v.length) hf
        rw [List.take_append_of_le_length hl, List.take_left] at h1
        rw [List.drop_append_of_le_length hl, List.drop_left] at h2
        exact ⟨h1, h2⟩
      obtain ⟨T', rt', w', e1, e2, e3, e4, e5, e6⟩ := ih { rt with buffer := rt.buffer.drop v.length } hi he hw ht.2
      refine ⟨T', rt', w', ?_, e2, e3, e4, e5, e6⟩
      rw [aioBlock, tryRead_ok hl, ht.1]
      exact e1
    · refine ⟨_, { rt with waiter := some (), phase := Function.update rt.phase () .pending }, v ++ w, ?_, ?_, hf, rfl, he,
        .inr ⟨rfl, by simp, v.length, k, rfl, by simpa using hl⟩⟩
      · rw [aioBlock, tryRead_wait (by omega) he hw]
      · simp only [hi]
        exact .read v rfl h

theorem Solo.write_inv {ms : List Bytes} {l : Bool} {k : Except Err Unit → IT appSig β} {q q' o : List Bytes} {b : β}
    (h : Solo (.op (S := appSig) (.write ms l) k) q (.ret b) q' o) :
    ∃ o', o = ms ++ o' ∧ Solo (k (.ok ())) q (.ret b) q' o' := by
  generalize hp : IT.op (S := appSig) (.write ms l) k = p at h
  generalize hp' : IT.ret b = p' at h
  cases h with
  | refl => rw [← hp'] at hp; cases hp
  | write h => cases hp; exact ⟨_, rfl, h⟩
  | read h => cases hp

theorem Solo.read_inv {m : Bytes} {k : Except Err Bytes → IT appSig β} {q q' o : List Bytes} {b : β}
    (h : Solo (.op (S := appSig) .read k) (m :: q) (.ret b) q' o) : Solo (k (.ok m)) q (.ret b) q' o := by
  generalize hp : IT.op (S := appSig) .read k = p at h
  generalize hp' : IT.ret b = p' at h
  generalize hq : m :: q = ms at h
  cases h with
  | refl => rw [← hp'] at hp; cases hp
  | write h => cases hp
  | read h => cases hp; cases hq; exact h

/-- A coroutine for a program that goes on to return without writing. -/
theorem Impl.drains {cl : β → Bool} (hcl : ∀ b, cl b = false) {T : IT (aio Unit) β} {i : Nat} {p : IT appSig β} (h : Impl L c cl T i p)
    {msgs : List Bytes} (hm : ∀ m ∈ msgs, m.length < 2 ^ 31) {b : β} (hs : Solo p msgs (.ret b) [] []) :
    ∃ j, Drains L c T i (frames msgs) b j := by
  induction h generalizing msgs with
  | ret b' i _ => cases hs; exact ⟨i, .ret _ _⟩
  | shut b' i hc _ => rw [hcl] at hc; cases hc
  | env _ ih => obtain ⟨j, h⟩ := ih hm hs; exact ⟨j, .env h⟩
  | drain _ ih => obtain ⟨j, h⟩ := ih hm hs; exact ⟨j, .drain h⟩
  | eof _ ih => obtain ⟨j, h⟩ := ih hm hs; exact ⟨j, .eof h⟩
  | @read k i kp k' hk _ ih =>
    cases hs with
    | @read m _ q _ _ _ hs =>
      have h1 := hm m (by simp)
      obtain ⟨j, h⟩ := ih m h1 (fun x hx => hm x (by simp [hx])) hs
      refine ⟨j, ?_⟩
      have := Drains.read (L := L) (c := c) (k := k' m) m rfl h
      rw [← hk m h1] at this
      rw [frames_cons, frame, List.append_assoc]
      exact .read (leBytes 4 m.length) (by rw [leBytes_length']; rfl) this
  | @write m ms l i kp T T' _ _ ih =>
    obtain ⟨o, ho, -⟩ := hs.write_inv
    cases ho
  | @skip l k i kp _ ih =>
    obtain ⟨o, ho, hs⟩ := hs.write_inv
    simp only [List.nil_append] at ho
    subst ho
    obtain ⟨j, h⟩ := ih hm hs
    exact ⟨j, .drain h⟩

/-- When one program has returned, the other one goes on alone. -/
theorem run_ret_solo {a : α} {b : IT appSig β} {ab ba : List Bytes} {z : Net α β} {n : Nat} (h : Net.Run n ⟨.ret a, b, ab, ba⟩ z) :
    z.a = .ret a ∧ ∃ o, Solo b ab z.b z.ab o ∧ z.ba = ba ++ o := by
  induction n generalizing b ab ba with
  | zero => cases h; exact ⟨rfl, [], .refl _ _, by simp⟩
  | succ n ih =>
    cases h with
    | step hs hr =>
      cases hs with
      | bWrite ms l k =>
        obtain ⟨h1, o, h2, h3⟩ := ih hr
        exact ⟨h1, ms ++ o, .write h2, by rw [h3, List.append_assoc]⟩
      | bRead m k =>
        obtain ⟨h1, o, h2, h3⟩ := ih hr
        exact ⟨h1, o, .read h2, h3⟩

/-! ### Sides that never close the connection -/

section
variable {ι κ σ τ : Type} [DecidableEq ι] [DecidableEq κ]

/-- The coroutine does not close the connection. -/
def NoClose : IT (aio σ) β → Prop
  | .ret _ => True
  | .op .close _ => False
  | .op (.sh _) k => ∀ r, NoClose (k r)
  | .op (.stream _) k => ∀ r, NoClose (k r)
  | .op .atEof k => ∀ r, NoClose (k r)

theorem NoClose.bind {γ : Type} {t : IT (aio σ) γ} {f : γ → IT (aio σ) β} (h : NoClose t) (h' : ∀ a, NoClose (f a)) : NoClose (t.bind f) := by
  induction t with
  | ret a => exact h' a
  | op e k ih =>
    cases e with
    | close => exact absurd h id
    | sh e => exact fun r => ih r (h r)
    | stream e => exact fun r => ih r (h r)
    | atEof => exact fun r => ih r (h r)

theorem noClose_embed {γ : Type} (t : IT stream γ) : NoClose (Aio.embed (σ := σ) t) := by
  induction t with
  | ret a => trivial
  | op e k ih => exact fun r => ih r

theorem noClose_on (t : IT (sh σ) β) : NoClose (Aio.on t) := by
  induction t with
  | ret a => trivial
  | op e k ih =>
    cases e with
    | get => exact fun r => ih r
    | put s => exact fun r => ih r
    | env e =>
      refine NoClose.bind ?_ fun r => ih r
      cases e <;> first | exact NoClose.bind (noClose_embed _) fun _ => trivial | exact fun _ => trivial

theorem tryRead_closed {n : Int} {r r' : AioRt ι σ} {x} (h : tryRead n r = some (x, r')) : r'.closed = r.closed := by
  unfold tryRead at h
  split at h
  · cases h; rfl
  · split at h
    · cases h; rfl
    · split at h
      · cases h; rfl
      · split at h
        · cases h; rfl
        · cases h

theorem aioBlock_open (t : ι) (p : IT (aio σ) β) (hp : NoClose p) (r : AioRt ι σ) :
    NoClose (aioBlock L c t p r).1 ∧ (aioBlock L c t p r).2.1.closed = r.closed := by
  induction p generalizing r with
  | ret a => exact ⟨trivial, rfl⟩
  | op e k ih =>
    cases e with
    | close => exact absurd hp id
    | atEof => exact ih _ (hp _) r
    | sh e =>
      cases e with
      | get => exact ih _ (hp _) r
      | put s => exact ih _ (hp _) _
      | env e => exact ih _ (hp _) _
    | stream e =>
      cases e with
      | drain => exact ⟨hp _, rfl⟩
      | write b => exact ih _ (hp _) r
      | readexactly n =>
        rw [aioBlock]
        cases h : tryRead n r with
        | none => exact ⟨hp, rfl⟩
        | some x =>
          obtain ⟨x, r'⟩ := x
          have := ih _ (hp x) r'
          rw [tryRead_closed h] at this
          exact this

/-- All tasks of the side are such coroutines, and the connection was not closed. -/
def OpenSide (x : AioSide ι σ α) : Prop := (∀ t, NoClose (x.tasks t)) ∧ x.rt.closed = false

theorem wake_closed (r : AioRt ι σ) : r.wake.closed = r.closed := by
  unfold AioRt.wake; split <;> rfl

theorem resume_closed (r : AioRt ι σ) (t : ι) : (r.resume t).closed = r.closed := by
  unfold AioRt.resume; split <;> rfl

theorem OpenSide.run {x : AioSide ι σ α} (h : OpenSide x) (t : ι) : OpenSide (x.run L c t).1 := by
  obtain ⟨h1, h2⟩ := aioBlock_open (L := L) (c := c) t (x.tasks t) (h.1 t) (x.rt.resume t)
  refine ⟨fun u => ?_, h2.trans ((resume_closed _ _).trans h.2)⟩
  simp only [AioSide.run]
  by_cases hu : u = t
  · subst hu; simpa using h1
  · rw [Function.update_of_ne hu]; exact h.1 u

theorem open_step {x y : AioNet ι κ σ τ α β} (h : OpenSide x.a ∧ OpenSide x.b) (hs : AioNet.Step L ca cb x y) : OpenSide y.a ∧ OpenSide y.b := by
  cases hs with
  | aRun t _ => exact ⟨h.1.run t, h.2⟩
  | bRun t _ => exact ⟨h.1, h.2.run t⟩
  | aFeed chunk _ _ => exact ⟨⟨h.1.1, (wake_closed _).trans h.1.2⟩, h.2⟩
  | bFeed chunk _ _ => exact ⟨h.1, ⟨h.2.1, (wake_closed _).trans h.2.2⟩⟩
  | aEof _ _ => exact ⟨⟨h.1.1, (wake_closed _).trans h.1.2⟩, h.2⟩
  | bEof _ _ => exact ⟨h.1, ⟨h.2.1, (wake_closed _).trans h.2.2⟩⟩

theorem open_reach {x y : AioNet ι κ σ τ α β} (h : OpenSide x.a ∧ OpenSide x.b) (hr : AioNet.Reach L ca cb x y) :
    OpenSide y.a ∧ OpenSide y.b := by
  induction hr with
  | refl => exact h
  | step _ s ih => exact open_step (ih) s

/-! ### A side whose coroutine has only to read what is on the way -/

/-- The coroutine of the side will return `b` when it has read what is on the way, except the bytes `E` which come after that. -/
structure Late (L : Lib) (c : Clock) (y : AioSide Unit Unit δ) (F E : Bytes) (b : δ) (j : Nat) : Prop where
  ex : ∃ w, Drains L c (y.tasks ()) y.rt.calls w b j ∧ y.rt.buffer ++ F = w ++ E
  closed : y.rt.closed = false
  eof : y.rt.eof = false
  pend : y.rt.phase () = .pending → y.rt.waiter = some () ∧ Starved (y.tasks ()) y.rt.buffer
  wait : y.rt.waiter = some () → y.rt.phase () = .pending

variable {y : AioSide Unit Unit δ} {F E : Bytes} {b : δ} {j : Nat}

theorem Late.send (h : Late L c y F E b j) (o : Bytes) : Late L c y (F ++ o) (E ++ o) b j := by
  obtain ⟨w, h1, h2⟩ := h.ex
  exact ⟨⟨w, h1, by rw [← List.append_assoc, h2, List.append_assoc]⟩, h.closed, h.eof, h.pend, h.wait⟩

theorem Late.feed {chunk : Bytes} (h : Late L c y (chunk ++ F) E b j) : Late L c (y.feed chunk) F E b j := by
  obtain ⟨w, h1, h2⟩ := h.ex
  rw [← List.append_assoc] at h2
  cases hw : y.rt.waiter with
  | none =>
    simp only [AioSide.feed, AioRt.wake, hw]
    refine ⟨⟨w, h1, h2⟩, h.closed, h.eof, fun hp => ?_, fun hp => by cases hp⟩
    have := (h.pend hp).1
    rw [hw] at this
    cases this
  | some u =>
    simp only [AioSide.feed, AioRt.wake, hw]
    refine ⟨⟨w, h1, h2⟩, h.closed, h.eof, fun hp => ?_, fun hp => by cases hp⟩
    simp only [show u = () from rfl, Function.update_self] at hp
    cases hp

theorem Late.run (h : Late L c y F E b j) (hr : y.CanRun ()) : (y.run L c ()).2 = [] ∧ Late L c (y.run L c ()).1 F E b j := by
  obtain ⟨yt, rt⟩ := y
  obtain ⟨⟨w, h1, h2⟩, hcl, he, hpend, hwait⟩ := h
  simp only at *
  have hwn : rt.waiter = none := by
    cases hw : rt.waiter with
    | none => rfl
    | some u => exact absurd (hwait hw) hr.2
  obtain ⟨rt1, hrt1⟩ : ∃ r, rt.resume () = r := ⟨_, rfl⟩
  have hr1 : rt1.calls = rt.calls ∧ rt1.buffer = rt.buffer ∧ rt1.eof = rt.eof ∧ rt1.closed = false ∧
      rt1.waiter = none ∧ rt1.phase () = .idle := by
    cases hph : rt.phase () with
    | idle =>
      simp only [AioRt.resume, hph] at hrt1
      subst hrt1
      exact ⟨rfl, rfl, rfl, hcl, hwn, hph⟩
    | pending => exact absurd hph hr.2
    | woken =>
      simp only [AioRt.resume, hph] at hrt1
      subst hrt1
      exact ⟨rfl, rfl, rfl, hcl, rfl, by simp⟩
  obtain ⟨r1, r2, r3, r4, r5, r6⟩ := hr1
  obtain ⟨T', rt', w', e1, e2, e3, e4, e5, e6⟩ := h1.block rt1 F E r1 (r3.trans he) r5 (by rw [r2, h2])
  refine ⟨?_, ⟨w', ?_, ?_⟩, ?_, ?_, ?_, ?_⟩
  · simp only [AioSide.run, hrt1, e1]
  · simpa only [AioSide.run, hrt1, e1, Function.update_self] using e2
  · simpa only [AioSide.run, hrt1, e1] using e3
  · simpa only [AioSide.run, hrt1, e1] using e4.trans r4
  · simpa only [AioSide.run, hrt1, e1] using e5
  · simp only [AioSide.run, hrt1, e1, Function.update_self]
    intro hp
    rcases e6 with ⟨-, q⟩ | ⟨q1, q2, q3⟩
    · rw [q, r6] at hp; cases hp
    · exact ⟨q1, q3⟩
  · simp only [AioSide.run, hrt1, e1]
    intro hw
    rcases e6 with ⟨q, -⟩ | ⟨q1, q2, q3⟩
    · rw [q] at hw; cases hw
    · exact q2

theorem Late.done (h : Late L c y F E b j) {r : δ} (hr : y.tasks () = .ret r) : r = b ∧ y.rt.calls = j ∧ y.rt.buffer ++ F = E := by
  obtain ⟨w, h1, h2⟩ := h.ex
  rw [hr] at h1
  generalize y.rt.calls = i at h1
  cases h1
  exact ⟨rfl, rfl, h2⟩

theorem Late.ends (h : Late L c y [] E b j) (hr : ¬ y.CanRun ()) : y.tasks () = .ret b := by
  by_cases hret : ∃ r, y.tasks () = .ret r
  · obtain ⟨r, hr⟩ := hret
    rw [hr, (h.done hr).1]
  · exfalso
    have hph : y.rt.phase () = .pending := by
      by_contra hne
      exact hr ⟨fun b hb => hret ⟨b, hb⟩, hne⟩
    obtain ⟨-, n, k, h5, h6⟩ := h.pend hph
    obtain ⟨w, h1, h2⟩ := h.ex
    rw [h5] at h1
    generalize y.rt.calls = i at h1
    generalize hn : (n : Int) = n' at h1
    cases h1 with
    | read v hv _ =>
      have := congrArg List.length h2
      simp only [List.length_append, List.length_nil] at this
      omega

/-! ### The tasks of one side have started -/

/-- When one coroutine has returned, nothing is on the way to it, and the other one has only to read what is on the way. -/
theorem PairRel.late {x : Net γ δ} {Y : AioNet Unit Unit Unit Unit γ δ} {a : γ} {b : δ}
    (h : PairRel L ca cb (fun _ => false) (fun _ => false) x Y) (he : EndsIn x ⟨.ret a, .ret b, [], []⟩) {r : γ} (hr : Y.a.tasks () = .ret r) :
    r = a ∧ Y.ba = [] ∧ Y.a.rt.buffer = [] ∧ Y.a.rt.eof = false ∧ Y.a.rt.closed = false ∧ ∃ j, Late L cb Y.b Y.ab [] b j := by
  obtain ⟨xa, xb, xab, xba⟩ := x
  obtain ⟨Ya, Yb, Yab, Yba⟩ := Y
  obtain ⟨ha, hb, hcl, ea, eb⟩ := h
  simp only at *
  have openA : Ya.rt.closed = false := by
    cases hc : Ya.rt.closed with
    | false => rfl
    | true => obtain ⟨_, h, -⟩ := ha.closed_ret hc; cases h
  have openB : Yb.rt.closed = false := by
    cases hc : Yb.rt.closed with
    | false => rfl
    | true => obtain ⟨_, h, -⟩ := hb.closed_ret hc; cases h
  have eofA : Ya.rt.eof = false := by
    cases hc : Ya.rt.eof with
    | false => rfl
    | true =>
      rcases ea hc with h | ⟨h, -⟩
      · rw [openA] at h; cases h
      · rw [openB] at h; cases h
  have eofB : Yb.rt.eof = false := by
    cases hc : Yb.rt.eof with
    | false => rfl
    | true =>
      rcases eb hc with h | ⟨h, -⟩
      · rw [openB] at h; cases h
      · rw [openA] at h; cases h
  have hx : xa = .ret r ∧ frames xba = Ya.rt.buffer ++ Yba := by
    have hp := ha.pos
    rw [hr] at hp
    generalize Ya.rt.closed = cd at hp
    cases hp with
    | head hi hfr =>
      cases hi with
      | ret _ _ hb' => exact ⟨rfl, hfr⟩
      | write hs _ => cases hs ((hcl 0 _ (.refl _)).1 _ _ _ rfl)
    | done hb' hfr => cases hb'
  obtain ⟨rfl, hfr⟩ := hx
  obtain ⟨-, m, hm, -⟩ := he
  obtain ⟨h1, o, h2, h3⟩ := run_ret_solo hm
  simp only at h1 h2 h3
  cases h1
  obtain ⟨rfl, rfl⟩ := List.append_eq_nil_iff.1 h3.symm
  obtain ⟨hb1, hb2⟩ := List.append_eq_nil_iff.1 (show Ya.rt.buffer ++ Yba = [] from hfr.symm)
  have hd : ∃ j, Drains L cb (Yb.tasks ()) Yb.rt.calls (Yb.rt.buffer ++ Yab) b j := by
    have hp := hb.pos
    rw [openB] at hp
    generalize Yb.tasks () = T at hp ⊢
    generalize Yb.rt.buffer ++ Yab = w at hp ⊢
    cases hp with
    | head hi hf =>
      rw [← hf]
      exact hi.drains (fun _ => rfl) hb.short h2
    | @body m ms _ _ kp k' hm hi hf =>
      obtain ⟨j, hj⟩ := hi.drains (fun _ => rfl) (fun x hx => hb.short x (by simp [hx])) h2.read_inv
      rw [← hf]
      exact ⟨j, .read m rfl hj⟩
  obtain ⟨j, hj⟩ := hd
  exact ⟨rfl, hb2, hb1, eofA, openA, j, ⟨_, hj, by simp⟩, openB, eofB, hb.pend, hb.wait⟩

/-- The tasks of one side have started, compared with the configuration where those of the other side have, too, but have done nothing yet. -/
structure Ahead (L : Lib) (cb : Clock) (tb : κ → IT (aio AppSt) β) (s : AppSt) (b : δ) (Z : AioNet ι Unit AppSt Unit α δ)
    (V : AioNet ι κ AppSt AppSt α β) : Prop where
  a : Z.a = V.a
  ba : Z.ba = V.ba
  late : ∃ j, Late L cb Z.b Z.ab V.ab b j ∧ V.b = .start tb s j

variable {tb : κ → IT (aio AppSt) β} {s : AppSt}

theorem Ahead.step {Z Z' : AioNet ι Unit AppSt Unit α δ} {V : AioNet ι κ AppSt AppSt α β} (h : Ahead L cb tb s b Z V) (ho : V.a.rt.closed = false)
    (hs : AioNet.Step L ca cb Z Z') : ∃ V', (V' = V ∨ AioNet.Step L ca cb V V') ∧ Ahead L cb tb s b Z' V' := by
  obtain ⟨Va, Vb, Vab, Vba⟩ := V
  obtain ⟨h1, h2, j, h3, h4⟩ := h
  simp only at h1 h2 h3 h4 ho
  cases hs with
  | @aRun a b' ab ba t hc =>
    subst h1 h2
    exact ⟨_, .inr (.aRun t hc), rfl, rfl, j, h3.send _, h4⟩
  | @aFeed a b' ab ba chunk hne hc =>
    subst h1 h2
    exact ⟨_, .inr (.aFeed chunk hne hc), rfl, rfl, j, h3, h4⟩
  | @aEof a b' ab ba he hc =>
    subst h1 h2
    rcases hc with hc | ⟨hc, -⟩
    · exact ⟨_, .inr (.aEof he (.inl hc)), rfl, rfl, j, h3, h4⟩
    · have := h3.closed
      simp only at this hc
      rw [this] at hc
      cases hc
  | @bRun a b' ab ba t hc =>
    subst h1 h2
    obtain ⟨e1, e2⟩ := h3.run hc
    refine ⟨_, .inl rfl, rfl, ?_, j, e2, h4⟩
    simp only at e1 ⊢
    rw [e1, List.append_nil]
  | @bFeed a b' ab ba chunk hne hc =>
    subst h1 h2
    exact ⟨_, .inl rfl, rfl, rfl, j, h3.feed, h4⟩
  | @bEof a b' ab ba he hc =>
    subst h1
    rcases hc with hc | ⟨hc, -⟩
    · have := h3.closed
      simp only at this hc
      rw [this] at hc
      cases hc
    · rw [ho] at hc; cases hc

theorem Ahead.fork {Z : AioNet ι Unit AppSt Unit α δ} {V : AioNet ι κ AppSt AppSt α β} {pB : κ → IT appSig β}
    (h : Ahead L cb (fun t => Aio.on (Co.task (pB t))) s b Z V) {r : δ} (hr : Z.b.tasks () = .ret r) :
    r = b ∧ ((⟨Z.a, Z.b.fork s pB, Z.ab, Z.ba⟩ : AioNet ι κ AppSt AppSt α β) = V ∨
      AioNet.Step L ca cb V ⟨Z.a, Z.b.fork s pB, Z.ab, Z.ba⟩) := by
  obtain ⟨Va, Vb, Vab, Vba⟩ := V
  obtain ⟨Za, Zb, Zab, Zba⟩ := Z
  obtain ⟨h1, h2, j, h3, h4⟩ := h
  simp only at h1 h2 h3 h4 hr
  subst h1 h2 h4
  obtain ⟨rfl, rfl, h5⟩ := h3.done hr
  refine ⟨rfl, ?_⟩
  have hc := h3.closed
  have he := h3.eof
  cases hbuf : Zb.rt.buffer with
  | nil =>
    left
    rw [hbuf] at h5
    simp only [List.nil_append] at h5
    simp only [AioSide.fork, AioSide.start, hbuf, hc, he, h5]
  | cons x xs =>
    right
    rw [← h5]
    have := AioNet.Step.bFeed (L := L) (ca := ca) (cb := cb) (a := Za) (b := AioSide.start (fun t => Aio.on (Co.task (pB t))) s Zb.rt.calls)
      (ab := Zab) (ba := Zba) Zb.rt.buffer (by rw [hbuf]; simp) rfl
    simpa only [AioSide.fork, AioSide.start, AioSide.feed, AioRt.wake, hc, he, List.nil_append] using this

theorem Ahead.ready {Z : AioNet ι Unit AppSt Unit α δ} {V : AioNet ι κ AppSt AppSt α β} (h : Ahead L cb tb s b Z V)
    (hs : AioNet.Stuck L ca cb Z) : Z.b.tasks () = .ret b := by
  obtain ⟨Za, Zb, Zab, Zba⟩ := Z
  obtain ⟨h1, h2, j, h3, h4⟩ := h
  simp only at *
  have hf : Zab = [] := by
    cases Zab with
    | nil => rfl
    | cons x xs => exact absurd (.bFeed (ab := xs) [x] (by simp) h3.closed) (hs _)
  subst hf
  exact h3.ends fun hc => hs _ (.bRun () hc)

/-! ### The other way round -/

def turn (x : AioNet ι κ σ τ α β) : AioNet κ ι τ σ β α := ⟨x.b, x.a, x.ba, x.ab⟩

theorem step_turn {x y : AioNet ι κ σ τ α β} (h : AioNet.Step L ca cb x y) : AioNet.Step L cb ca (turn x) (turn y) := by
  cases h with
  | aRun t hc => exact .bRun t hc
  | bRun t hc => exact .aRun t hc
  | aFeed chunk h1 h2 => exact .bFeed chunk h1 h2
  | bFeed chunk h1 h2 => exact .aFeed chunk h1 h2
  | aEof h1 h2 => exact .bEof h1 h2
  | bEof h1 h2 => exact .aEof h1 h2

/-! ### Everything together -/

section
variable [Fintype ι] [Fintype κ] {fA : γ → Option AppSt} {fB : δ → Option AppSt} {pA : ι → IT appSig α} {pB : κ → IT appSig β}

theorem acc_tt (x : AioNet ι κ AppSt AppSt α β) :
    Acc (fun y x => ForkNet.Step L ca cb fA fB pA pB x y) (.tt x : ForkNet ι κ α β γ δ) := by
  have h : Acc (fun y x => AioNet.Step L ca cb x y) x := aio_terminates x
  induction h with
  | intro x _ ih =>
    refine Acc.intro _ fun y hy => ?_
    cases hy with
    | tt hs => exact ih _ hs

theorem acc_tm (x : AioNet ι Unit AppSt Unit α δ) :
    Acc (fun y x => ForkNet.Step L ca cb fA fB pA pB x y) (.tm x : ForkNet ι κ α β γ δ) := by
  have h : Acc (fun y x => AioNet.Step L ca cb x y) x := aio_terminates x
  induction h with
  | intro x _ ih =>
    refine Acc.intro _ fun y hy => ?_
    cases hy with
    | tm hs => exact ih _ hs
    | second' _ _ => exact acc_tt _

theorem acc_mt (x : AioNet Unit κ Unit AppSt γ β) :
    Acc (fun y x => ForkNet.Step L ca cb fA fB pA pB x y) (.mt x : ForkNet ι κ α β γ δ) := by
  have h : Acc (fun y x => AioNet.Step L ca cb x y) x := aio_terminates x
  induction h with
  | intro x _ ih =>
    refine Acc.intro _ fun y hy => ?_
    cases hy with
    | mt hs => exact ih _ hs
    | second _ _ => exact acc_tt _

theorem acc_mm (x : AioNet Unit Unit Unit Unit γ δ) :
    Acc (fun y x => ForkNet.Step L ca cb fA fB pA pB x y) (.mm x : ForkNet ι κ α β γ δ) := by
  have h : Acc (fun y x => AioNet.Step L ca cb x y) x := aio_terminates x
  induction h with
  | intro x _ ih =>
    refine Acc.intro _ fun y hy => ?_
    cases hy with
    | mm hs => exact ih _ hs
    | first _ _ => exact acc_tm _
    | first' _ _ => exact acc_mt _

theorem fork_final {X : ForkNet ι κ α β γ δ} (h : Acc (fun y x => ForkNet.Step L ca cb fA fB pA pB x y) X) :
    ∃ Y, ForkNet.Reach L ca cb fA fB pA pB X Y ∧ ∀ Z, ¬ ForkNet.Step L ca cb fA fB pA pB Y Z := by
  induction h with
  | intro x _ ih =>
    by_cases hs : ∃ y, ForkNet.Step L ca cb fA fB pA pB x y
    · obtain ⟨y, hy⟩ := hs
      obtain ⟨Y, h1, h2⟩ := ih y hy
      refine ⟨Y, ?_, h2⟩
      clear ih h2
      induction h1 with
      | refl => exact .step .refl hy
      | step _ s ih => exact .step ih s
    · exact ⟨x, .refl, fun z hz => hs ⟨z, hz⟩⟩

/-- What holds at any time. -/
def ForkInv (L : Lib) (ca cb : Clock) (pA : ι → IT appSig α) (pB : κ → IT appSig β) (sA sB : AppSt) (a : γ) (b : δ) : ForkNet ι κ α β γ δ → Prop
  | .mm Y => ∃ x, PairRel L ca cb (fun _ => false) (fun _ => false) x Y ∧ EndsIn x ⟨.ret a, .ret b, [], []⟩
  | .tm Z => ∃ i j V, AioNet.Reach L ca cb (onSession pA pB sA sB i j) V ∧ Ahead L cb (fun t => Aio.on (Co.task (pB t))) sB b Z V
  | .mt Z => ∃ i j V, AioNet.Reach L ca cb (onSession pA pB sA sB i j) V ∧
      Ahead L ca (fun t => Aio.on (Co.task (pA t))) sA a (turn Z) (turn V)
  | .tt Z => ∃ i j, AioNet.Reach L ca cb (onSession pA pB sA sB i j) Z

theorem session_open {sA sB : AppSt} {i j : Nat} {V : AioNet ι κ AppSt AppSt α β} (h : AioNet.Reach L ca cb (onSession pA pB sA sB i j) V) :
    V.a.rt.closed = false ∧ V.b.rt.closed = false := by
  have := open_reach ⟨⟨fun t => noClose_on _, rfl⟩, ⟨fun t => noClose_on _, rfl⟩⟩ h
  exact ⟨this.1.2, this.2.2⟩

theorem fork_start {x : AioSide Unit Unit γ} (h1 : x.rt.buffer = []) (h2 : x.rt.eof = false) (h3 : x.rt.closed = false) (s : AppSt) :
    x.fork s pA = .start (fun t => Aio.on (Co.task (pA t))) s x.rt.calls := by
  simp only [AioSide.fork, AioSide.start, h1, h2, h3]

theorem ForkInv.step {sA sB : AppSt} {a : γ} {b : δ} (hfA : fA a = some sA) (hfB : fB b = some sB) {X Y : ForkNet ι κ α β γ δ}
    (h : ForkInv L ca cb pA pB sA sB a b X) (hs : ForkNet.Step L ca cb fA fB pA pB X Y) : ForkInv L ca cb pA pB sA sB a b Y := by
  cases hs with
  | mm hs =>
    obtain ⟨x, h1, h2⟩ := h
    obtain ⟨x', n, h3, h4⟩ := h1.step ⟨h2, .inl ⟨fun _ => rfl, fun _ => rfl⟩⟩ hs
    exact ⟨x', h4, EndsIn.after h2 h3⟩
  | tm hs =>
    obtain ⟨i, j, V, h1, h2⟩ := h
    obtain ⟨V', h3, h4⟩ := h2.step (session_open h1).1 hs
    rcases h3 with rfl | h3
    · exact ⟨i, j, _, h1, h4⟩
    · exact ⟨i, j, _, .step h1 h3, h4⟩
  | mt hs =>
    obtain ⟨i, j, V, h1, h2⟩ := h
    obtain ⟨V', h3, h4⟩ := h2.step (session_open h1).2 (step_turn hs)
    rcases h3 with rfl | h3
    · exact ⟨i, j, _, h1, h4⟩
    · exact ⟨i, j, turn V', .step h1 (step_turn h3), h4⟩
  | tt hs =>
    obtain ⟨i, j, h1⟩ := h
    exact ⟨i, j, .step h1 hs⟩
  | @first x r s hr hf =>
    obtain ⟨y, h1, h2⟩ := h
    obtain ⟨rfl, h3, h4, h5, h6, j, h7⟩ := h1.late h2 hr
    rw [hfA] at hf
    cases hf
    exact ⟨x.a.rt.calls, j, _, .refl _, fork_start h4 h5 h6 _, h3, j, h7, rfl⟩
  | @first' x r s hr hf =>
    obtain ⟨y, h1, h2⟩ := h
    obtain ⟨rfl, h3, h4, h5, h6, j, h7⟩ := h1.flip.late (EndsIn.swap h2) hr
    rw [hfB] at hf
    cases hf
    exact ⟨j, x.b.rt.calls, _, .refl _, fork_start h4 h5 h6 _, h3, j, h7, rfl⟩
  | @second x r s hr hf =>
    obtain ⟨i, j, V, h1, h2⟩ := h
    obtain ⟨rfl, h3⟩ := h2.fork (ca := cb) (pB := pA) hr
    rw [hfA] at hf
    cases hf
    rcases h3 with h3 | h3
    · have h3 : (⟨x.a.fork sA pA, x.b, x.ab, x.ba⟩ : AioNet ι κ AppSt AppSt α β) = V := congrArg turn h3
      exact ⟨i, j, by exact h3 ▸ h1⟩
    · exact ⟨i, j, .step h1 (step_turn h3)⟩
  | @second' x r s hr hf =>
    obtain ⟨i, j, V, h1, h2⟩ := h
    obtain ⟨rfl, h3⟩ := h2.fork (ca := ca) (pB := pB) hr
    rw [hfB] at hf
    cases hf
    rcases h3 with h3 | h3
    · exact ⟨i, j, by exact h3 ▸ h1⟩
    · exact ⟨i, j, .step h1 h3⟩

/-- Tasks that start when the coroutine of their side has returned. -/
theorem fork_like_direct {TA : IT (aio Unit) γ} {TB : IT (aio Unit) δ} {qA : IT appSig γ} {qB : IT appSig δ}
    (hA : Impl L ca (fun _ => false) TA 0 qA) (hB : Impl L cb (fun _ => false) TB 0 qB) (hc : Net.Calls Fits (Net.start qA qB)) {a : γ} {b : δ}
    (he : EndsIn (Net.start qA qB) ⟨.ret a, .ret b, [], []⟩) {sA sB : AppSt} (hfA : fA a = some sA) (hfB : fB b = some sB)
    (hd : ∀ i j, AioLikeDirect L ca cb pA pB (onSession pA pB sA sB i j)) :
    ForkLikeDirect L ca cb fA fB pA pB (.mm (AioNet.pair TA TB)) := by
  refine ⟨acc_mm _, fork_final (acc_mm _), fun Y hY => ?_⟩
  have inv : ForkInv L ca cb pA pB sA sB a b Y := by
    induction hY with
    | refl => exact ⟨_, PairRel.start hA hB hc, he⟩
    | step _ s ih => exact ih.step hfA hfB s
  cases Y with
  | mm Y =>
    refine ⟨_, .refl _, fun _ _ h => h.elim, fun _ _ h => h.elim, fun hs => ?_⟩
    obtain ⟨x, h1, h2⟩ := inv
    obtain ⟨h3, -⟩ := h1.final ⟨h2, .inl ⟨fun _ => rfl, fun _ => rfl⟩⟩ fun Z hZ => hs _ (.mm hZ)
    have h3 : Y.a.tasks () = .ret a := by
      cases h3 with
      | ret _ h => exact h
    exact absurd (.first h3 hfA) (hs _)
  | tm Z =>
    obtain ⟨i, j, V, h1, h2⟩ := inv
    obtain ⟨y, h3, h4, -, -⟩ := (hd i j).2.2 V h1
    refine ⟨y, h3, fun t r h => h4 t r (h2.a ▸ h), fun _ _ h => h.elim, fun hs => ?_⟩
    exact absurd (.second' (h2.ready (ca := ca) fun Z hZ => hs _ (.tm hZ)) hfB) (hs _)
  | mt Z =>
    obtain ⟨i, j, V, h1, h2⟩ := inv
    obtain ⟨y, h3, -, h4, -⟩ := (hd i j).2.2 V h1
    refine ⟨y, h3, fun _ _ h => h.elim, fun t r h => h4 t r ((show Z.b = V.b from h2.a) ▸ h), fun hs => ?_⟩
    exact absurd (.second (h2.ready (ca := cb) fun Z hZ => hs _ (.mt (step_turn hZ))) hfA) (hs _)
  | tt Z =>
    obtain ⟨i, j, h1⟩ := inv
    obtain ⟨y, h3, h4, h5, h6⟩ := (hd i j).2.2 Z h1
    refine ⟨y, h3, h4, h5, fun hs => ?_⟩
    obtain ⟨h7, h8, h9⟩ := h6 fun Z hZ => hs _ (.tt hZ)
    exact ⟨h7, Z, rfl, h8, h9⟩

end

end

end Salt
