import Verif.Model.AioExamples
import Verif.Spec.AioPair
import Verif.Lemmas.AioFinal
import Verif.Lemmas.NetCalls

/-!
# A coroutine on each end of a connection behaves like a program exchanging messages
-/

set_option linter.unusedSimpArgs false
set_option linter.unusedSectionVars false

namespace Salt

open Spec Props

variable {α β : Type} {L : Lib} {c ca cb : Clock}

/-- The coroutine writes the frames of the messages, one after the other. -/
inductive Sends : List Bytes → IT (aio Unit) β → IT (aio Unit) β → Prop
  | nil (T) : Sends [] T T
  | cons {m ms k T} : m.length < 2 ^ 31 → Sends ms (k (.ok ())) T →
      Sends (m :: ms) (.op (S := aio Unit) (.stream (.write (frame m))) k) T

/-- The coroutine does on the streams what the program does with messages; `cl` tells with which results it closes the
connection at the end. -/
inductive Impl (L : Lib) (c : Clock) (cl : β → Bool) : IT (aio Unit) β → Nat → IT appSig β → Prop
  | ret (b i) : cl b = false → Impl L c cl (.ret b) i (.ret b)
  | shut {k} (b i) : cl b = true → k (.ok ()) = .ret b → Impl L c cl (.op (S := aio Unit) .close k) i (.ret b)
  | env {e k i p} : Impl L c cl (k (answer L c e i).1) (answer L c e i).2 p →
      Impl L c cl (.op (S := aio Unit) (.sh (.env e)) k) i p
  | drain {k i p} : Impl L c cl (k (.ok ())) i p → Impl L c cl (.op (S := aio Unit) (.stream .drain) k) i p
  | eof {k i kp} : Impl L c cl (k (.ok false)) i (.op (S := appSig) .read kp) →
      Impl L c cl (.op (S := aio Unit) .atEof k) i (.op (S := appSig) .read kp)
  | read {k i kp} (k' : Bytes → Except Err Bytes → IT (aio Unit) β) :
      (∀ m : Bytes, m.length < 2 ^ 31 → k (.ok (leBytes 4 m.length)) =
        .op (S := aio Unit) (.stream (.readexactly (m.length : Nat))) (k' m)) →
      (∀ m : Bytes, m.length < 2 ^ 31 → Impl L c cl (k' m (.ok m)) i (kp (.ok m))) →
      Impl L c cl (.op (S := aio Unit) (.stream (.readexactly 4)) k) i (.op (S := appSig) .read kp)
  | write {m ms l i kp T T'} : (Fits (m :: ms) → Sends (m :: ms) T T') → Impl L c cl T' i (kp (.ok ())) →
      Impl L c cl T i (.op (S := appSig) (.write (m :: ms) l) kp)
  | skip {l k i kp} : Impl L c cl (k (.ok ())) i (kp (.ok ())) →
      Impl L c cl (.op (S := aio Unit) (.stream .drain) k) i (.op (S := appSig) (.write [] l) kp)

/-- What a program does on its own: messages taken from the queue and written. -/
inductive Solo : IT appSig β → List Bytes → IT appSig β → List Bytes → List Bytes → Prop
  | refl (p q) : Solo p q p q []
  | write {ms l k q p' q' o} : Solo (k (.ok ())) q p' q' o → Solo (.op (S := appSig) (.write ms l) k) q p' q' (ms ++ o)
  | read {m k q p' q' o} : Solo (k (.ok m)) q p' q' o → Solo (.op (S := appSig) .read k) (m :: q) p' q' o

theorem Solo.run {p p' : IT appSig α} {q q' o : List Bytes} (h : Solo p q p' q' o) (b : IT appSig β) (ab : List Bytes) :
    ∃ n, Net.Run n ⟨p, b, ab, q⟩ ⟨p', b, ab ++ o, q'⟩ := by
  induction h generalizing ab with
  | refl p q => exact ⟨0, by rw [List.append_nil]; exact .refl _⟩
  | @write ms l k q p' q' o _ ih =>
    obtain ⟨n, h⟩ := ih (ab ++ ms)
    rw [List.append_assoc] at h
    exact ⟨_, .step (.aWrite ms l k) h⟩
  | read _ ih =>
    obtain ⟨n, h⟩ := ih ab
    exact ⟨_, .step (.aRead _ _) h⟩

/-- Where a coroutine is, compared with the program: `w` are the bytes it will receive. -/
inductive Pos (L : Lib) (c : Clock) (cl : β → Bool) : IT (aio Unit) β → Nat → Bytes → Bool → IT appSig β → List Bytes → Prop
  | head {T i w p msgs} : Impl L c cl T i p → frames msgs = w → Pos L c cl T i w false p msgs
  | body {m ms i w kp k'} : m.length < 2 ^ 31 → Impl L c cl (k' (.ok m)) i (kp (.ok m)) → m ++ frames ms = w →
      Pos L c cl (.op (S := aio Unit) (.stream (.readexactly (m.length : Nat))) k') i w false
        (.op (S := appSig) .read kp) (m :: ms)
  | done {b i w msgs} : cl b = true → frames msgs = w → Pos L c cl (.ret b) i w true (.ret b) msgs

theorem Sends.block {ms : List Bytes} {T T' : IT (aio Unit) β} (h : Sends ms T T') (rt : AioRt Unit Unit)
    (hc : rt.closed = false) : aioBlock L c () T rt =
      ((aioBlock L c () T' rt).1, (aioBlock L c () T' rt).2.1, frames ms ++ (aioBlock L c () T' rt).2.2) := by
  induction h with
  | nil T => rfl
  | @cons m ms k T _ _ ih =>
    rw [aioBlock]
    simp only [hc, ih, frames_cons, List.append_assoc]
    rfl

/-- The calls the program makes on its own are of limited size. -/
def SoloFits (p : IT appSig β) (msgs : List Bytes) : Prop :=
  ∀ msgs' o ms l k, Solo p msgs (.op (S := appSig) (.write ms l) k) msgs' o → Fits ms

/-- What is known when a coroutine gets control, and where it stops. -/
def RunsLike (L : Lib) (c : Clock) (cl : β → Bool) (T : IT (aio Unit) β) (i : Nat) (w : List Bytes → Bytes)
    (p : IT appSig β) (msgs : List Bytes) : Prop :=
  ∀ (rt : AioRt Unit Unit) (flight : Bytes), rt.calls = i → rt.waiter = none → rt.closed = false →
    w msgs = rt.buffer ++ flight → SoloFits p msgs →
    (rt.eof = true → flight = [] ∧ ∀ k o, ¬ Solo p msgs (.op (S := appSig) .read k) [] o) →
    ∃ T' rt' p' msgs' o, aioBlock L c () T rt = (T', rt', frames o) ∧ Solo p msgs p' msgs' o ∧
      (∀ m ∈ o, m.length < 2 ^ 31) ∧ (∀ m ∈ msgs', m ∈ msgs) ∧
      Pos L c cl T' rt'.calls (rt'.buffer ++ flight) rt'.closed p' msgs' ∧ rt'.eof = rt.eof ∧
      (rt'.waiter = none ∧ rt'.phase = rt.phase ∨
        rt'.waiter = some () ∧ rt'.phase () = .pending ∧ Starved T' rt'.buffer)

theorem body_runs {cl : β → Bool} {i : Nat} {m : Bytes} {ms : List Bytes} (hm : m.length < 2 ^ 31)
    {k' : Except Err Bytes → IT (aio Unit) β} {kp : Except Err Bytes → IT appSig β}
    (hi : Impl L c cl (k' (.ok m)) i (kp (.ok m)))
    (ih : RunsLike L c cl (k' (.ok m)) i frames (kp (.ok m)) ms) :
    RunsLike L c cl (.op (S := aio Unit) (.stream (.readexactly (m.length : Nat))) k') i
      (fun q => m ++ frames q.tail) (.op (S := appSig) .read kp) (m :: ms) := by
  intro rt flight hcalls hw hc hf hfit heof
  simp only [List.tail_cons] at hf
  by_cases hl : m.length ≤ rt.buffer.length
  · have h1 : rt.buffer.take m.length = m := by
      have := congrArg (List.take m.length) hf
      rw [List.take_append_of_le_length (by omega), List.take_of_length_le (by omega),
        List.take_append_of_le_length hl] at this
      exact this.symm
    have h2 : frames ms = rt.buffer.drop m.length ++ flight := by
      have := congrArg (List.drop m.length) hf
      rwa [List.drop_append_of_le_length (by omega), List.drop_of_length_le (by omega), List.nil_append,
        List.drop_append_of_le_length hl] at this
    obtain ⟨T', rt', p', msgs', o, e1, e2, e3, e3', e4, e5, e6⟩ := ih { rt with buffer := rt.buffer.drop m.length } flight
      hcalls hw hc h2 (fun msgs' o ms l k h => hfit msgs' o ms l k (.read h))
      fun he => ⟨(heof he).1, fun k o h => (heof he).2 k o (.read h)⟩
    refine ⟨T', rt', p', msgs', o, ?_, .read e2, e3, fun m hm => List.mem_cons_of_mem _ (e3' m hm), e4, e5, e6⟩
    rw [aioBlock, tryRead_ok hl, h1]
    exact e1
  · have he : rt.eof = false := by
      by_contra he
      obtain ⟨rfl, -⟩ := heof (by simpa using he)
      have := congrArg List.length hf
      simp only [List.length_append, List.length_nil] at this
      omega
    refine ⟨_, { rt with waiter := some (), phase := Function.update rt.phase () .pending }, _, m :: ms, [], ?_, .refl _ _,
      by simp, fun m h => h, ?_, rfl, .inr ⟨rfl, by simp, m.length, k', rfl, by simpa using hl⟩⟩
    · rw [aioBlock, tryRead_wait (by omega) he hw]
      rfl
    · simp only [hc, hcalls]
      exact .body hm hi hf

theorem impl_runs {cl : β → Bool} {T : IT (aio Unit) β} {i : Nat} {p : IT appSig β} (h : Impl L c cl T i p)
    (msgs : List Bytes) (hms : ∀ m ∈ msgs, m.length < 2 ^ 31) : RunsLike L c cl T i frames p msgs := by
  induction h generalizing msgs with
  | ret b i hb =>
    intro rt flight hcalls hw hc hf hfit heof
    exact ⟨_, rt, _, msgs, [], rfl, .refl _ _, by simp, fun m h => h, by rw [hc]; exact .head (.ret b _ hb) hf, rfl,
      .inl ⟨hw, rfl⟩⟩
  | @shut k b i hb hk =>
    intro rt flight hcalls hw hc hf hfit heof
    refine ⟨.ret b, { rt with closed := true }, _, msgs, [], ?_, .refl _ _, by simp, fun m h => h, .done hb hf, rfl,
      .inl ⟨hw, rfl⟩⟩
    rw [aioBlock, hk]
    rfl
  | env _ ih =>
    intro rt flight hcalls hw hc hf hfit heof
    subst hcalls
    exact ih msgs hms { rt with calls := _ } flight rfl hw hc hf hfit heof
  | @drain k i p hk ih =>
    intro rt flight hcalls hw hc hf hfit heof
    refine ⟨k (.ok ()), rt, p, msgs, [], rfl, .refl _ _, by simp, fun m h => h, ?_, rfl, .inl ⟨hw, rfl⟩⟩
    rw [hc, hcalls]
    exact .head hk hf
  | @skip l k i kp hk ih =>
    intro rt flight hcalls hw hc hf hfit heof
    refine ⟨k (.ok ()), rt, _, msgs, [], rfl, .write (.refl _ _), by simp, fun m h => h, ?_, rfl, .inl ⟨hw, rfl⟩⟩
    rw [hc, hcalls]
    exact .head hk hf
  | @eof k i kp _ ih =>
    intro rt flight hcalls hw hc hf hfit heof
    have he : (rt.eof && rt.buffer.isEmpty) = false := by
      by_contra he
      simp only [Bool.not_eq_false, Bool.and_eq_true, List.isEmpty_iff] at he
      obtain ⟨rfl, h⟩ := heof he.1
      rw [he.2] at hf
      cases msgs with
      | nil => exact h _ _ (.refl _ _)
      | cons m ms =>
        have := congrArg List.length hf
        simp [frames_cons, frame, leBytes_length'] at this
    have := ih msgs hms rt flight hcalls hw hc hf hfit heof
    rw [aioBlock, he]
    exact this
  | @read k i kp k' hk hi ih =>
    intro rt flight hcalls hw hc hf hfit heof
    by_cases h4 : 4 ≤ rt.buffer.length
    · obtain ⟨m, ms, rfl, h1, h2, h3⟩ := frames_head hms hf h4
      have h3' : m ++ frames ms = rt.buffer.drop 4 ++ flight := by
        rw [frames_cons, frame, List.append_assoc, List.append_assoc] at h3
        exact List.append_cancel_left h3
      obtain ⟨T', rt', p', msgs', o, e1, e2, e3, e3', e4, e5, e6⟩ := body_runs h2 (hi m h2)
        (ih m h2 ms fun m hm => hms m (by simp [hm])) { rt with buffer := rt.buffer.drop 4 } flight hcalls hw hc h3' hfit heof
      refine ⟨T', rt', p', msgs', o, ?_, e2, e3, e3', e4, e5, e6⟩
      rw [aioBlock, show (4 : Int) = ((4 : Nat) : Int) from rfl, tryRead_ok h4, h1]
      simp only [hk m h2]
      exact e1
    · have he : rt.eof = false := by
        by_contra he
        obtain ⟨rfl, h⟩ := heof (by simpa using he)
        cases msgs with
        | nil => exact h _ _ (.refl _ _)
        | cons m ms =>
          have := congrArg List.length hf
          simp only [frames_cons, frame, leBytes_length', List.length_append, List.length_nil] at this
          omega
      refine ⟨_, { rt with waiter := some (), phase := Function.update rt.phase () .pending }, _, msgs, [], ?_, .refl _ _,
        by simp, fun m h => h, ?_, rfl, .inr ⟨rfl, by simp, 4, k, rfl, by simpa using h4⟩⟩
      · rw [aioBlock, show (4 : Int) = ((4 : Nat) : Int) from rfl, tryRead_wait (by omega) he hw]
        rfl
      · simp only [hc, hcalls]
        exact .head (.read k' hk hi) hf
  | @write m ms l i kp T T' hs _ ih =>
    intro rt flight hcalls hw hc hf hfit heof
    obtain ⟨U', rt', p', msgs', o, e1, e2, e3, e3', e4, e5, e6⟩ := ih msgs hms rt flight hcalls hw hc hf
      (fun msgs' o ms l k h => hfit msgs' _ ms l k (.write h)) fun he => ⟨(heof he).1, fun k o h => (heof he).2 k _ (.write h)⟩
    refine ⟨U', rt', p', msgs', m :: ms ++ o, ?_, .write e2, ?_, e3', e4, e5, e6⟩
    · rw [(hs (hfit _ _ _ _ _ (.refl _ _))).block rt hc, e1, frames_append]
    · intro x hx
      rcases List.mem_append.1 hx with hx | hx
      · exact hfit _ _ _ _ _ (.refl _ _) x hx
      · exact e3 x hx

/-- One side of a message network and the same side on the streams. -/
structure OneRel (L : Lib) (c : Clock) (cl : β → Bool) (y : AioSide Unit Unit β) (flight : Bytes) (p : IT appSig β)
    (msgs : List Bytes) : Prop where
  short : ∀ m ∈ msgs, m.length < 2 ^ 31
  pos : Pos L c cl (y.tasks ()) y.rt.calls (y.rt.buffer ++ flight) y.rt.closed p msgs
  pend : y.rt.phase () = .pending → y.rt.waiter = some () ∧ Starved (y.tasks ()) y.rt.buffer
  wait : y.rt.waiter = some () → y.rt.phase () = .pending

theorem OneRel.send {cl : β → Bool} {y : AioSide Unit Unit β} {flight : Bytes} {p : IT appSig β} {msgs : List Bytes}
    (h : OneRel L c cl y flight p msgs) {out : List Bytes} (ho : ∀ m ∈ out, m.length < 2 ^ 31) :
    OneRel L c cl y (flight ++ frames out) p (msgs ++ out) := by
  refine ⟨fun m hm => (List.mem_append.1 hm).elim (h.short m) (ho m), ?_, h.pend, h.wait⟩
  have hp := h.pos
  generalize y.tasks () = T at hp ⊢
  generalize y.rt.closed = cd at hp ⊢
  rw [← List.append_assoc]
  generalize y.rt.buffer ++ flight = w at hp ⊢
  cases hp with
  | head hi hf => exact .head hi (by rw [frames_append, hf])
  | @body m ms _ _ _ _ hm hi hf => exact .body (ms := ms ++ out) hm hi (by rw [frames_append, ← List.append_assoc, hf])
  | done hb hf => exact .done hb (by rw [frames_append, hf])

theorem OneRel.wake {cl : β → Bool} {y : AioSide Unit Unit β} {flight flight' : Bytes} {p : IT appSig β} {msgs : List Bytes}
    (h : OneRel L c cl y flight p msgs) (buf : Bytes) (e : Bool) (hb : buf ++ flight' = y.rt.buffer ++ flight) :
    OneRel L c cl { y with rt := { y.rt with buffer := buf, eof := e }.wake } flight' p msgs := by
  have hp := h.pos
  rw [← hb] at hp
  cases hw : y.rt.waiter with
  | none =>
    simp only [AioRt.wake, hw]
    refine ⟨h.short, hp, fun ht => ?_, fun ht => ?_⟩
    · have := (h.pend ht).1
      rw [hw] at this
      cases this
    · cases ht
  | some u =>
    simp only [AioRt.wake, hw]
    refine ⟨h.short, hp, fun ht => ?_, fun ht => by cases ht⟩
    simp only [show u = () from rfl, Function.update_self] at ht
    cases ht

theorem OneRel.closed_ret {cl : β → Bool} {y : AioSide Unit Unit β} {flight : Bytes} {p : IT appSig β} {msgs : List Bytes}
    (h : OneRel L c cl y flight p msgs) (hc : y.rt.closed = true) :
    ∃ b, cl b = true ∧ y.tasks () = .ret b ∧ p = .ret b ∧ frames msgs = y.rt.buffer ++ flight := by
  have hp := h.pos
  rw [hc] at hp
  generalize hT : y.tasks () = T at hp
  cases hp with
  | done hb hf => exact ⟨_, hb, rfl, rfl, hf⟩

/-- The coroutine runs. -/
theorem OneRel.run {cl : β → Bool} {y : AioSide Unit Unit β} {flight : Bytes} {p : IT appSig β} {msgs : List Bytes}
    (h : OneRel L c cl y flight p msgs) (hr : y.CanRun ()) (hfit : SoloFits p msgs)
    (heof : y.rt.eof = true → flight = [] ∧ ∀ k o, ¬ Solo p msgs (.op (S := appSig) .read k) [] o) :
    ∃ p' msgs' o, Solo p msgs p' msgs' o ∧ (∀ m ∈ o, m.length < 2 ^ 31) ∧ (y.run L c ()).2 = frames o ∧
      (y.run L c ()).1.rt.eof = y.rt.eof ∧ OneRel L c cl (y.run L c ()).1 flight p' msgs' := by
  obtain ⟨yt, rt⟩ := y
  obtain ⟨hshort, hpos, hpend, hwait⟩ := h
  simp only at *
  have hcl : rt.closed = false := by
    by_contra hc
    obtain ⟨b, -, hb, -⟩ := OneRel.closed_ret (y := ⟨yt, rt⟩) ⟨hshort, hpos, hpend, hwait⟩ (by simpa using hc)
    exact hr.1 b hb
  have hwn : rt.waiter = none := by
    cases hw : rt.waiter with
    | none => rfl
    | some u => exact absurd (hwait hw) hr.2
  obtain ⟨rt1, hrt1⟩ : ∃ r, rt.resume () = r := ⟨_, rfl⟩
  have hr1 : rt1.calls = rt.calls ∧ rt1.buffer = rt.buffer ∧ rt1.eof = rt.eof ∧ rt1.closed = false ∧
      rt1.waiter = none ∧ rt1.phase () = .idle := by
    cases hph : rt.phase () with
    | idle =>
      simp only [AioRt.resume, hph] at hrt1
      subst hrt1
      exact ⟨rfl, rfl, rfl, hcl, hwn, hph⟩
    | pending => exact absurd hph hr.2
    | woken =>
      simp only [AioRt.resume, hph] at hrt1
      subst hrt1
      exact ⟨rfl, rfl, rfl, hcl, rfl, by simp⟩
  obtain ⟨r1, r2, r3, r4, r5, r6⟩ := hr1
  have key : ∃ T' rt' p' msgs' o, aioBlock L c () (yt ()) rt1 = (T', rt', frames o) ∧ Solo p msgs p' msgs' o ∧
      (∀ m ∈ o, m.length < 2 ^ 31) ∧ (∀ m ∈ msgs', m ∈ msgs) ∧
      Pos L c cl T' rt'.calls (rt'.buffer ++ flight) rt'.closed p' msgs' ∧ rt'.eof = rt1.eof ∧
      (rt'.waiter = none ∧ rt'.phase = rt1.phase ∨
        rt'.waiter = some () ∧ rt'.phase () = .pending ∧ Starved T' rt'.buffer) := by
    rw [hcl, ← r1, ← r2] at hpos
    rw [← r3] at heof
    generalize yt () = T at hpos ⊢
    generalize hw : rt1.buffer ++ flight = w at hpos
    cases hpos with
    | head hi hf => exact impl_runs hi msgs hshort rt1 flight rfl r5 r4 (by rw [hf, hw]) hfit heof
    | @body m ms _ _ kp k' hm hi hf =>
      exact body_runs hm hi (impl_runs hi ms fun m h => hshort m (by simp [h])) rt1 flight rfl r5 r4
        (hf.trans hw.symm) hfit heof
  obtain ⟨T', rt', p', msgs', o, e1, e2, e3, e3', e4, e5, e6⟩ := key
  refine ⟨p', msgs', o, e2, e3, ?_, ?_, fun m hm => hshort m (e3' m hm), ?_, ?_, ?_⟩
  · simp only [AioSide.run, hrt1, e1]
  · simp only [AioSide.run, hrt1, e1, e5, r3]
  · simp only [AioSide.run, hrt1, e1, Function.update_self]
    exact e4
  · simp only [AioSide.run, hrt1, e1, Function.update_self]
    intro hp
    rcases e6 with ⟨-, q⟩ | ⟨q1, q2, q3⟩
    · rw [q, r6] at hp; cases hp
    · exact ⟨q1, q3⟩
  · simp only [AioSide.run, hrt1, e1]
    intro hw
    rcases e6 with ⟨q, -⟩ | ⟨q1, q2, q3⟩
    · rw [q] at hw; cases hw
    · exact q2

/-- A side on which nothing more can happen. -/
theorem OneRel.final {cl : β → Bool} {y : AioSide Unit Unit β} {flight : Bytes} {p : IT appSig β} {msgs : List Bytes}
    (h : OneRel L c cl y flight p msgs) (hr : ¬ y.CanRun ()) (hf : y.rt.closed = false → flight = [])
    (hfit : ∀ ms l k, p = .op (S := appSig) (.write ms l) k → Fits ms) :
    (∃ b, y.tasks () = .ret b ∧ p = .ret b ∧ y.rt.closed = cl b ∧ frames msgs = y.rt.buffer ++ flight) ∨
    (∃ kp n k, p = .op (S := appSig) .read kp ∧ msgs = [] ∧ flight = [] ∧ y.rt.buffer = [] ∧ y.rt.phase () = .pending ∧
      y.tasks () = .op (S := aio Unit) (.stream (.readexactly n)) k) := by
  have hp := h.pos
  by_cases hret : ∃ b, y.tasks () = .ret b
  · obtain ⟨b, hb⟩ := hret
    rw [hb] at hp
    generalize hcd : y.rt.closed = cd at hp
    left
    cases hp with
    | head hi hfr =>
      cases hi with
      | ret _ _ hb' => exact ⟨b, hb, rfl, hb'.symm, hfr⟩
      | write hs _ => cases hs (hfit _ _ _ rfl)
    | done hb' hfr => exact ⟨b, hb, rfl, hb'.symm, hfr⟩
  · right
    have hph : y.rt.phase () = .pending := by
      by_contra hne
      exact hr ⟨fun b hb => hret ⟨b, hb⟩, hne⟩
    obtain ⟨-, n, k, h5, h6⟩ := h.pend hph
    rw [h5] at hp ⊢
    generalize hcd : y.rt.closed = cd at hp hf
    generalize hw : y.rt.buffer ++ flight = w at hp
    generalize hT : IT.op (S := aio Unit) (.stream (.readexactly (n : Nat))) k = T at hp ⊢
    cases hp with
    | head hi hfr =>
      have hfl := hf rfl
      subst hT
      generalize hn : (n : Int) = n' at hi
      cases hi with
      | @read _ _ kp k' hk hi =>
        have hn4 : n = 4 := by omega
        subst hn4
        subst hfl
        rw [List.append_nil] at hw
        have : msgs = [] := by
          cases msgs with
          | nil => rfl
          | cons m ms =>
            have := congrArg List.length (hfr.trans hw.symm)
            simp only [frames_cons, frame, leBytes_length', List.length_append] at this
            omega
        subst this
        refine ⟨kp, (4 : Nat), k, rfl, rfl, rfl, ?_, hph, rfl⟩
        rw [hw, ← hfr]
        rfl
      | write hs _ => cases hs (hfit _ _ _ rfl)
    | @body m ms _ _ kp k' hm hi hfr =>
      have hfl := hf rfl
      injection hT with hT _
      injection hT with hT
      injection hT with hT
      subst hfl
      have := congrArg List.length (hfr.trans hw.symm)
      simp only [List.length_append, List.length_nil] at this
      omega
    | done => cases hT

/-- A message network and the same network on the streams. -/
structure PairRel (L : Lib) (ca cb : Clock) (clA : α → Bool) (clB : β → Bool) (x : Net α β)
    (Y : AioNet Unit Unit Unit Unit α β) : Prop where
  a : OneRel L ca clA Y.a Y.ba x.a x.ba
  b : OneRel L cb clB Y.b Y.ab x.b x.ab
  calls : Net.Calls Fits x
  eofA : Y.a.rt.eof = true → Y.a.rt.closed = true ∨ Y.b.rt.closed = true ∧ Y.ba = []
  eofB : Y.b.rt.eof = true → Y.b.rt.closed = true ∨ Y.a.rt.closed = true ∧ Y.ab = []

def Spec.AioNet.flip (Y : AioNet Unit Unit Unit Unit α β) : AioNet Unit Unit Unit Unit β α := ⟨Y.b, Y.a, Y.ba, Y.ab⟩

theorem PairRel.flip {clA : α → Bool} {clB : β → Bool} {x : Net α β} {Y : AioNet Unit Unit Unit Unit α β}
    (h : PairRel L ca cb clA clB x Y) : PairRel L cb ca clB clA x.swap Y.flip :=
  ⟨h.b, h.a, h.calls.swap, h.eofB, h.eofA⟩

/-- How the message network ends: neither side ever closes the connection, or both sides return. -/
def EndsOk (clA : α → Bool) (clB : β → Bool) (x y : Net α β) : Prop :=
  EndsIn x y ∧ (((∀ a, clA a = false) ∧ ∀ b, clB b = false) ∨ (∃ a, y.a = .ret a) ∧ ∃ b, y.b = .ret b)

theorem EndsIn.after {x y z : Net α β} {n : Nat} (h : EndsIn x y) (hr : Net.Run n x z) : EndsIn z y := by
  obtain ⟨h1, m, h2, h3⟩ := h
  obtain ⟨k, hk⟩ : ∃ k, Net.Run k z y := by
    obtain ⟨k, w, hk, hw⟩ := Net.exists_final z
    have := (h3 _ _ (hr.trans hk)).2 hw
    subst this
    exact ⟨k, hk⟩
  exact hk.endsIn h1

theorem EndsIn.swap {x y : Net α β} (h : EndsIn x y) : EndsIn x.swap y.swap := by
  obtain ⟨h1, m, h2, h3⟩ := h
  exact h2.swap.endsIn fun z hz => h1 z.swap hz.swap

theorem EndsOk.swap {clA : α → Bool} {clB : β → Bool} {x y : Net α β} (h : EndsOk clA clB x y) :
    EndsOk clB clA x.swap y.swap := ⟨EndsIn.swap h.1, h.2.imp And.symm And.symm⟩

theorem PairRel.runA {clA : α → Bool} {clB : β → Bool} {x y : Net α β} {Y : AioNet Unit Unit Unit Unit α β}
    (h : PairRel L ca cb clA clB x Y) (he : EndsOk clA clB x y) (hr : Y.a.CanRun ()) :
    ∃ x' n, Net.Run n x x' ∧ PairRel L ca cb clA clB x' ⟨(Y.a.run L ca ()).1, Y.b, Y.ab ++ (Y.a.run L ca ()).2, Y.ba⟩ := by
  obtain ⟨xa, xb, xab, xba⟩ := x
  obtain ⟨Ya, Yb, Yab, Yba⟩ := Y
  obtain ⟨ha, hb, hcl, ea, eb⟩ := h
  simp only at *
  have hnc : Ya.rt.closed = false := by
    by_contra hc
    obtain ⟨b, -, hb, -⟩ := ha.closed_ret (by simpa using hc)
    exact hr.1 b hb
  obtain ⟨p', msgs', o, e1, e2, e3, e4, e5⟩ := ha.run hr (by
    intro msgs' o ms l k hs
    obtain ⟨n, hn⟩ := hs.run xb xab
    exact (hcl n _ hn).1 ms l k rfl) (by
    intro heof
    rcases ea heof with h | ⟨h1, h2⟩
    · rw [hnc] at h; cases h
    · refine ⟨h2, fun k o hs => ?_⟩
      obtain ⟨b, hb1, -, rfl, -⟩ := hb.closed_ret h1
      obtain ⟨n, hn⟩ := hs.run (.ret b) xab
      have hst : Net.Stuck (⟨.op (S := appSig) .read k, .ret b, xab ++ o, []⟩ : Net α β) := fun z hz => by cases hz
      obtain ⟨-, m, -, h3⟩ := he.1
      have := (h3 _ _ hn).2 hst
      rcases he.2 with ⟨-, h⟩ | ⟨⟨a, h⟩, -⟩
      · rw [h] at hb1; cases hb1
      · rw [← this] at h; cases h)
  obtain ⟨n, hn⟩ := e1.run xb xab
  refine ⟨_, n, hn, e5, ?_, hcl.after hn, ?_, ?_⟩
  · simp only [e3]
    exact hb.send e2
  · simp only [e4]
    intro heof
    rcases ea heof with h | h
    · rw [hnc] at h; cases h
    · exact .inr h
  · simp only
    intro heof
    rcases eb heof with h | ⟨h, -⟩
    · exact .inl h
    · rw [hnc] at h; cases h

theorem PairRel.step {clA : α → Bool} {clB : β → Bool} {x y : Net α β} {Y Z : AioNet Unit Unit Unit Unit α β}
    (h : PairRel L ca cb clA clB x Y) (he : EndsOk clA clB x y) (hs : AioNet.Step L ca cb Y Z) :
    ∃ x' n, Net.Run n x x' ∧ PairRel L ca cb clA clB x' Z := by
  cases hs with
  | aRun t hc => exact h.runA he hc
  | bRun t hc =>
    obtain ⟨x', n, h1, h2⟩ := h.flip.runA he.swap hc
    exact ⟨x'.swap, n, h1.swap, h2.flip⟩
  | @aFeed a b ab ba chunk hne hc =>
    obtain ⟨ha, hb, hcl, ea, eb⟩ := h
    refine ⟨x, 0, .refl _, ha.wake _ _ (by simp), hb, hcl, ?_, ?_⟩
    · intro heof
      have : a.rt.eof = true := by
        rw [← heof]
        exact (wake_eof { a.rt with buffer := a.rt.buffer ++ chunk }).symm
      rcases ea this with h | ⟨-, h⟩
      · rw [hc] at h; cases h
      · exact absurd (List.append_eq_nil_iff.1 h).1 hne
    · intro heof
      rcases eb heof with h | h
      · exact .inl h
      · rw [hc] at h; cases h.1
  | @bFeed a b ab ba chunk hne hc =>
    obtain ⟨ha, hb, hcl, ea, eb⟩ := h
    refine ⟨x, 0, .refl _, ha, hb.wake _ _ (by simp), hcl, ?_, ?_⟩
    · intro heof
      rcases ea heof with h | h
      · exact .inl h
      · rw [hc] at h; cases h.1
    · intro heof
      have : b.rt.eof = true := by
        rw [← heof]
        exact (wake_eof { b.rt with buffer := b.rt.buffer ++ chunk }).symm
      rcases eb this with h | ⟨-, h⟩
      · rw [hc] at h; cases h
      · exact absurd (List.append_eq_nil_iff.1 h).1 hne
  | @aEof a b ab ba h0 hc =>
    obtain ⟨ha, hb, hcl, ea, eb⟩ := h
    have hcl' : ({ a.rt with eof := true }.wake).closed = a.rt.closed := by
      unfold AioRt.wake; split <;> rfl
    refine ⟨x, 0, .refl _, ha.wake _ _ rfl, hb, hcl, fun _ => ?_, fun heof => ?_⟩
    · exact hc.imp hcl'.trans id
    · exact (eb heof).imp id (And.imp hcl'.trans id)
  | @bEof a b ab ba h0 hc =>
    obtain ⟨ha, hb, hcl, ea, eb⟩ := h
    have hcl' : ({ b.rt with eof := true }.wake).closed = b.rt.closed := by
      unfold AioRt.wake; split <;> rfl
    refine ⟨x, 0, .refl _, ha, hb.wake _ _ rfl, hcl, fun heof => ?_, fun _ => ?_⟩
    · exact (ea heof).imp id (And.imp hcl'.trans id)
    · exact hc.imp hcl'.trans id

theorem PairRel.reach {clA : α → Bool} {clB : β → Bool} {x y : Net α β} {Y Z : AioNet Unit Unit Unit Unit α β}
    (h : PairRel L ca cb clA clB x Y) (he : EndsOk clA clB x y) (hr : AioNet.Reach L ca cb Y Z) :
    ∃ x' n, Net.Run n x x' ∧ EndsOk clA clB x' y ∧ PairRel L ca cb clA clB x' Z := by
  induction hr with
  | refl => exact ⟨x, 0, .refl _, he, h⟩
  | step _ s ih =>
    obtain ⟨x1, n1, h1, h2, h3⟩ := ih
    obtain ⟨x2, n2, h4, h5⟩ := h3.step h2 s
    exact ⟨x2, n1 + n2, h1.trans h4, ⟨EndsIn.after h2.1 h4, h2.2⟩, h5⟩

theorem frames_eq_nil {msgs : List Bytes} (h : frames msgs = []) : msgs = [] := by
  cases msgs with
  | nil => rfl
  | cons m ms =>
    have := congrArg List.length h
    simp [frames_cons, frame, leBytes_length'] at this

/-- Where nothing more can happen, nothing more can happen in the message network either. -/
theorem PairRel.final {clA : α → Bool} {clB : β → Bool} {x y : Net α β} {Y : AioNet Unit Unit Unit Unit α β}
    (h : PairRel L ca cb clA clB x Y) (he : EndsOk clA clB x y) (hs : AioNet.Stuck L ca cb Y) :
    AioEnd Y.a () y.a ∧ AioEnd Y.b () y.b ∧ (y.ba = [] → Y.ba = [] ∧ Y.a.rt.buffer = []) ∧
      (y.ab = [] → Y.ab = [] ∧ Y.b.rt.buffer = []) ∧ (∀ a, y.a = .ret a → Y.a.rt.closed = clA a) ∧
      ∀ b, y.b = .ret b → Y.b.rt.closed = clB b := by
  obtain ⟨xa, xb, xab, xba⟩ := x
  obtain ⟨Ya, Yb, Yab, Yba⟩ := Y
  obtain ⟨ha, hb, hcl, -, -⟩ := h
  simp only at *
  have fa := ha.final (fun hc => hs _ (.aRun () hc)) fun hc => by
    cases Yba with
    | nil => rfl
    | cons b bs => exact absurd (.aFeed (ba := bs) [b] (by simp) hc) (hs _)
  have fa := fa (hcl 0 _ (.refl _)).1
  have fb := hb.final (fun hc => hs _ (.bRun () hc)) fun hc => by
    cases Yab with
    | nil => rfl
    | cons b bs => exact absurd (.bFeed (ab := bs) [b] (by simp) hc) (hs _)
  have fb := fb (hcl 0 _ (.refl _)).2
  have hst : Net.Stuck (⟨xa, xb, xab, xba⟩ : Net α β) := by
    rw [Net.stuck_iff]
    refine ⟨?_, ?_⟩
    · rcases fa with ⟨b, -, h, -⟩ | ⟨kp, n, k, h, h', -⟩
      · exact .inl ⟨b, h⟩
      · exact .inr ⟨⟨kp, h⟩, h'⟩
    · rcases fb with ⟨b, -, h, -⟩ | ⟨kp, n, k, h, h', -⟩
      · exact .inl ⟨b, h⟩
      · exact .inr ⟨⟨kp, h⟩, h'⟩
  have hy : (⟨xa, xb, xab, xba⟩ : Net α β) = y := by
    obtain ⟨-, m, -, h3⟩ := he.1
    exact (h3 _ _ (.refl _)).2 hst
  subst hy
  simp only
  refine ⟨?_, ?_, ?_, ?_, ?_, ?_⟩
  · rcases fa with ⟨b, h1, rfl, -⟩ | ⟨kp, n, k, rfl, -, -, -, h5, h6⟩
    · exact .ret b h1
    · exact .wait n _ _ h6 h5
  · rcases fb with ⟨b, h1, rfl, -⟩ | ⟨kp, n, k, rfl, -, -, -, h5, h6⟩
    · exact .ret b h1
    · exact .wait n _ _ h6 h5
  · rintro rfl
    rcases fa with ⟨b, -, -, -, h4⟩ | ⟨kp, n, k, -, -, h3, h4, -⟩
    · exact (List.append_eq_nil_iff.1 h4.symm).symm
    · exact ⟨h3, h4⟩
  · rintro rfl
    rcases fb with ⟨b, -, -, -, h4⟩ | ⟨kp, n, k, -, -, h3, h4, -⟩
    · exact (List.append_eq_nil_iff.1 h4.symm).symm
    · exact ⟨h3, h4⟩
  · rintro a rfl
    rcases fa with ⟨b, -, h, h', -⟩ | ⟨kp, n, k, h, -⟩
    · cases h; exact h'
    · cases h
  · rintro a rfl
    rcases fb with ⟨b, -, h, h', -⟩ | ⟨kp, n, k, h, -⟩
    · cases h; exact h'
    · cases h

/-- A program that has returned leaves the messages for it where they are. -/
theorem run_ret_ba {a : α} {b : IT appSig β} {ab ba : List Bytes} {z : Net α β} {n : Nat}
    (h : Net.Run n ⟨.ret a, b, ab, ba⟩ z) : ∃ o, z.ba = ba ++ o := by
  induction n generalizing b ab ba with
  | zero => cases h; exact ⟨[], by simp⟩
  | succ n ih =>
    cases h with
    | step hs hr =>
      cases hs with
      | bWrite ms l k =>
        obtain ⟨o, ho⟩ := ih hr
        exact ⟨ms ++ o, by rw [ho, List.append_assoc]⟩
      | bRead m k => exact ih hr

theorem PairRel.cleanA {clA : α → Bool} {clB : β → Bool} {x y : Net α β} {Y : AioNet Unit Unit Unit Unit α β}
    (h : PairRel L ca cb clA clB x Y) (he : EndsOk clA clB x y) (hy : y.ba = []) (hc : Y.a.rt.closed = true) :
    Y.ba = [] ∧ Y.a.rt.buffer = [] := by
  obtain ⟨a, -, -, h1, h2⟩ := h.a.closed_ret hc
  obtain ⟨xa, xb, xab, xba⟩ := x
  simp only at h1 h2
  subst h1
  obtain ⟨-, m, hm, -⟩ := he.1
  obtain ⟨o, ho⟩ := run_ret_ba hm
  rw [hy] at ho
  obtain ⟨rfl, -⟩ := List.append_eq_nil_iff.1 ho.symm
  exact (List.append_eq_nil_iff.1 h2.symm).symm

theorem PairRel.start {clA : α → Bool} {clB : β → Bool} {TA : IT (aio Unit) α} {TB : IT (aio Unit) β} {pA : IT appSig α}
    {pB : IT appSig β} (hA : Impl L ca clA TA 0 pA) (hB : Impl L cb clB TB 0 pB)
    (hc : Net.Calls Fits (Net.start pA pB)) :
    PairRel L ca cb clA clB (Net.start pA pB) (AioNet.pair TA TB) := by
  refine ⟨⟨?_, .head hA rfl, fun h => ?_, fun h => ?_⟩, ⟨?_, .head hB rfl, fun h => ?_, fun h => ?_⟩, hc, fun h => ?_,
    fun h => ?_⟩
  · intro m hm; cases hm
  · cases h
  · cases h
  · intro m hm; cases hm
  · cases h
  · cases h
  · cases h
  · cases h

/-- Two coroutines on the ends of a connection end like the programs they implement. -/
theorem pair_ends {clA : α → Bool} {clB : β → Bool} {TA : IT (aio Unit) α} {TB : IT (aio Unit) β} {pA : IT appSig α}
    {pB : IT appSig β} (hA : Impl L ca clA TA 0 pA) (hB : Impl L cb clB TB 0 pB)
    (hc : Net.Calls Fits (Net.start pA pB)) {y : Net α β}
    (he : EndsOk clA clB (Net.start pA pB) y) : AioEndsLike L ca cb y (AioNet.pair TA TB) := by
  refine ⟨aio_terminates _, aio_final _, fun Y hr hs => ?_⟩
  obtain ⟨x', n, -, h2, h3⟩ := (PairRel.start hA hB hc).reach he hr
  obtain ⟨h4, h5, h6, h7, -⟩ := h3.final h2 hs
  exact ⟨h4, h5, h6, h7⟩

/-- Two coroutines that close the connection at the end. -/
theorem pair_finish {clA : α → Bool} {clB : β → Bool} {TA : IT (aio Unit) α} {TB : IT (aio Unit) β} {pA : IT appSig α}
    {pB : IT appSig β} (hA : Impl L ca clA TA 0 pA) (hB : Impl L cb clB TB 0 pB)
    (hc : Net.Calls Fits (Net.start pA pB)) {a : α} {b : β}
    (he : EndsIn (Net.start pA pB) ⟨.ret a, .ret b, [], []⟩) (ha : clA a = true) (hb : clB b = true) :
    BothFinish L ca cb (AioNet.pair TA TB) a b := by
  have he' : EndsOk clA clB (Net.start pA pB) ⟨.ret a, .ret b, [], []⟩ := ⟨he, .inr ⟨⟨a, rfl⟩, b, rfl⟩⟩
  refine ⟨aio_terminates _, aio_final _, fun Y hr hs => ?_, fun Y hr => ?_⟩
  · obtain ⟨x', n, -, h2, h3⟩ := (PairRel.start hA hB hc).reach he' hr
    obtain ⟨h4, h5, h6, h7, h8, h9⟩ := h3.final h2 hs
    obtain ⟨h6, h6'⟩ := h6 rfl
    obtain ⟨h7, h7'⟩ := h7 rfl
    refine ⟨?_, ?_, (h8 a rfl).trans ha, (h9 b rfl).trans hb, h7, h6, h6', h7'⟩
    · cases h4 with | ret x h => exact h
    · cases h5 with | ret x h => exact h
  · obtain ⟨x', n, -, h2, h3⟩ := (PairRel.start hA hB hc).reach he' hr
    exact ⟨h3.cleanA h2 rfl, h3.flip.cleanA h2.swap rfl⟩

end Salt
