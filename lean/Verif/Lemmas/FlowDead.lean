import Verif.Lemmas.Flow

/-!
# Coroutines that write more than the buffers hold before they read
-/

set_option linter.unusedSimpArgs false

namespace Salt

open Spec

variable {α β : Type} {l : Limits} {L : Lib} {c ca cb : Clock}

theorem Sends.endsInDrain {ms : List Bytes} {T T' : IT (aio Unit) β} (h : Sends ms T T') (rt : AioRt Unit Unit) :
    endsInDrain L c () T rt = endsInDrain L c () T' rt := by
  induction h with
  | nil T => rfl
  | cons _ _ ih => rw [Spec.endsInDrain]; exact ih

/-- The coroutine has returned, or writes messages of `n` bytes, and then waits in `drain()` or goes on with `k`. -/
def WritesFirst (n : Nat) (T : IT (aio Unit) α) (k : Except Err Unit → IT (aio Unit) α) : Prop :=
  (∃ r, T = .ret r) ∨ ∃ ms, Sends ms T (.op (S := aio Unit) (.stream .drain) k) ∧ (frames ms).length = n

/-- Where such a coroutine is: it has not run yet, or it waits in `drain()` for the other side, whose `StreamReader` holds
`buf`. -/
structure Blocked (l : Limits) (n : Nat) (T : IT (aio Unit) α) (k : Except Err Unit → IT (aio Unit) α) (f : FlowSide Unit)
    (s : AioSide Unit Unit α) (flight buf : Bytes) : Prop where
  idle : s.rt.waiter = none ∧ s.rt.phase () = .idle ∧ s.rt.closed = false
  stop : f.stop = decide (2 * l.limit < s.rt.buffer.length)
  small : s.rt.buffer.length ≤ 2 * l.limit + l.cap
  pos : (s.tasks () = T ∧ f.out = 0 ∧ flight = [] ∧ buf = []) ∨
    (s.tasks () = k (.ok ()) ∧ f.drain () = true ∧ flight.length + buf.length = n ∧ ∀ r, T ≠ .ret r)

/-- Both sides. -/
def BlockedNet (l : Limits) (n n' : Nat) (TA : IT (aio Unit) α) (kA : Except Err Unit → IT (aio Unit) α) (TB : IT (aio Unit) β)
    (kB : Except Err Unit → IT (aio Unit) β) (X : Flow Unit Unit Unit Unit α β) : Prop :=
  FlowInv l X ∧ Blocked l n TA kA X.a X.net.a X.net.ab X.net.b.rt.buffer ∧
    Blocked l n' TB kB X.b X.net.b X.net.ba X.net.a.rt.buffer

theorem Blocked.run {n : Nat} {T : IT (aio Unit) α} {k : Except Err Unit → IT (aio Unit) α} {f : FlowSide Unit}
    {s : AioSide Unit Unit α} {flight buf : Bytes} (h : Blocked l n T k f s flight buf) (hw : WritesFirst n T k)
    (h1 : s.CanRun ()) (h2 : f.drain () = false) (hn : l.high + l.cap < n) {out : Nat}
    (h3 : (flight ++ (s.run L c ()).2).length ≤ l.cap + out) :
    (s.run L c ()).1.rt.buffer = s.rt.buffer ∧
    Blocked l n T k (f.ran l () (endsInDrain L c () (s.tasks ()) (s.rt.resume ())) (s.run L c ()).1.rt out) (s.run L c ()).1
      (flight ++ (s.run L c ()).2) buf := by
  obtain ⟨⟨i1, i2, i3⟩, i4, i5, i6⟩ := h
  rcases i6 with ⟨e1, e2, rfl, rfl⟩ | ⟨-, e2, -⟩
  · rcases hw with ⟨r, rfl⟩ | ⟨ms, hs, hm⟩
    · exact absurd e1 (h1.1 r)
    · have hres : s.rt.resume () = s.rt := by simp [AioRt.resume, i2]
      have hb : s.run L c () = (⟨Function.update s.tasks () (k (.ok ())), s.rt⟩, frames ms) := by
        simp only [AioSide.run, hres, e1, hs.block s.rt i3]
        simp [aioBlock]
      have hd : endsInDrain L c () (s.tasks ()) (s.rt.resume ()) = true := by
        rw [e1, hres, hs.endsInDrain, Spec.endsInDrain]
      rw [hb] at h3 ⊢
      rw [hd]
      refine ⟨rfl, ⟨i1, i2, i3⟩, ?_, i5, .inr ⟨by simp, ?_, by simpa using hm, ?_⟩⟩
      · simp only [FlowSide.ran, i4, i1, Option.isNone_none, Bool.and_true, ← Bool.decide_and, decide_eq_decide]
        omega
      · simp only [List.nil_append] at h3
        simp only [FlowSide.ran, Function.update_self, Bool.true_and, Bool.or_eq_true, decide_eq_true_eq]
        right; omega
      · rintro r rfl
        cases hs
  · rw [h2] at e2; cases e2

theorem Blocked.sent {n : Nat} {T : IT (aio Unit) α} {k : Except Err Unit → IT (aio Unit) α} {f : FlowSide Unit}
    {s : AioSide Unit Unit α} {flight buf : Bytes} (h : Blocked l n T k f s flight buf) {m : Nat} (h1 : 0 < m) (h2 : m ≤ f.out)
    (h3 : flight.length + m ≤ l.cap + f.out) (hb : buf.length ≤ 2 * l.limit + l.cap) (hi : FlowOk l f s.rt flight)
    (hn : l.low + 2 * l.cap + 2 * l.limit < n) : Blocked l n T k (f.sent l m) s flight buf := by
  obtain ⟨i, i4, i5, i6⟩ := h
  refine ⟨i, i4, i5, ?_⟩
  rcases i6 with ⟨-, e2, -⟩ | ⟨e1, e2, e3, e4⟩
  · omega
  · refine .inr ⟨e1, ?_, e3, e4⟩
    simp only [FlowSide.sent, e2, hi.drain () e2, Bool.true_and, decide_eq_true_eq]
    omega

theorem Blocked.fed {n n' : Nat} {TA : IT (aio Unit) α} {kA : Except Err Unit → IT (aio Unit) α} {TB : IT (aio Unit) β}
    {kB : Except Err Unit → IT (aio Unit) β} {f g : FlowSide Unit} {a : AioSide Unit Unit α} {b : AioSide Unit Unit β}
    {ab ba chunk : Bytes} (h : Blocked l n TA kA f a ab b.rt.buffer) (h' : Blocked l n' TB kB g b (chunk ++ ba) a.rt.buffer)
    (h1 : chunk ≠ []) (h3 : f.stop = false) (h4 : chunk.length ≤ l.cap) :
    Blocked l n TA kA (f.fed l (a.feed chunk).rt) (a.feed chunk) ab b.rt.buffer ∧
    Blocked l n' TB kB g b ba (a.feed chunk).rt.buffer := by
  obtain ⟨⟨i1, i2, i3⟩, i4, i5, i6⟩ := h
  have hrt : (a.feed chunk).rt = { a.rt with buffer := a.rt.buffer ++ chunk } := by
    simp [AioSide.feed, AioRt.wake, i1]
  refine ⟨⟨?_, ?_, ?_, ?_⟩, h'.idle, h'.stop, h'.small, ?_⟩
  · rw [hrt]; exact ⟨i1, i2, i3⟩
  · simp [FlowSide.fed]
  · rw [hrt]
    rw [h3] at i4
    have := of_decide_eq_false i4.symm
    simp only [List.length_append]
    omega
  · exact i6
  · rcases h'.pos with ⟨-, -, e, -⟩ | ⟨e1, e2, e3, e4⟩
    · exact absurd (List.append_eq_nil_iff.1 e).1 h1
    · refine .inr ⟨e1, e2, ?_, e4⟩
      rw [hrt]
      simp only [List.length_append] at e3 ⊢
      omega

theorem BlockedNet.step (hl : l.Ok) {n n' : Nat} {TA : IT (aio Unit) α} {kA : Except Err Unit → IT (aio Unit) α}
    {TB : IT (aio Unit) β} {kB : Except Err Unit → IT (aio Unit) β} {X Y : Flow Unit Unit Unit Unit α β}
    (h : BlockedNet l n n' TA kA TB kB X) (hA : WritesFirst n TA kA) (hB : WritesFirst n' TB kB)
    (hn : l.high + l.cap < n ∧ l.low + 2 * l.cap + 2 * l.limit < n)
    (hn' : l.high + l.cap < n' ∧ l.low + 2 * l.cap + 2 * l.limit < n') (hs : Flow.Step l L ca cb X Y) :
    BlockedNet l n n' TA kA TB kB Y := by
  refine ⟨h.1.step hl hs, ?_⟩
  obtain ⟨hi, ha, hb⟩ := h
  cases hs with
  | aRun t o h1 h2 h3 h4 h5 =>
    obtain ⟨e1, e2⟩ := ha.run (L := L) (c := ca) hA h1 h2 hn.1 h5
    refine ⟨e2, ?_⟩
    simp only [e1]
    exact hb
  | bRun t o h1 h2 h3 h4 h5 =>
    obtain ⟨e1, e2⟩ := hb.run (L := L) (c := cb) hB h1 h2 hn'.1 h5
    refine ⟨?_, e2⟩
    simp only [e1]
    exact ha
  | aSend m h1 h2 h3 => exact ⟨ha.sent h1 h2 h3 hb.small hi.1 hn.2, hb⟩
  | bSend m h1 h2 h3 => exact ⟨ha, hb.sent h1 h2 h3 ha.small hi.2 hn'.2⟩
  | aFeed chunk h1 h2 h3 h4 =>
    refine ha.fed hb h1 h3 ?_
    have := hi.2.room
    simp only [List.length_append] at this
    omega
  | bFeed chunk h1 h2 h3 h4 =>
    refine (hb.fed ha h1 h3 ?_).symm
    have := hi.1.room
    simp only [List.length_append] at this
    omega
  | aEof h1 h2 =>
    rcases h2 with h2 | h2
    · have := ha.idle.2.2; rw [h2.1] at this; cases this
    · have := hb.idle.2.2; rw [h2.1] at this; cases this
  | bEof h1 h2 =>
    rcases h2 with h2 | h2
    · have := hb.idle.2.2; rw [h2.1] at this; cases this
    · have := ha.idle.2.2; rw [h2.1] at this; cases this

/-- A coroutine that first writes more than the buffers hold never gets out of `drain()`, whatever the schedule, if the
other one does the same or has returned. -/
theorem flow_blocked (hl : l.Ok) {n n' : Nat} {TA : IT (aio Unit) α} {kA : Except Err Unit → IT (aio Unit) α}
    {TB : IT (aio Unit) β} {kB : Except Err Unit → IT (aio Unit) β} (hA : WritesFirst n TA kA) (hB : WritesFirst n' TB kB)
    (hn : l.high + l.cap < n ∧ l.low + 2 * l.cap + 2 * l.limit < n)
    (hn' : l.high + l.cap < n' ∧ l.low + 2 * l.cap + 2 * l.limit < n') {Y : Flow Unit Unit Unit Unit α β}
    (hr : Flow.Reach l L ca cb (.start (AioNet.pair TA TB)) Y) : BlockedNet l n n' TA kA TB kB Y := by
  induction hr with
  | refl =>
    refine ⟨FlowInv.start _ rfl rfl, ⟨⟨rfl, rfl, rfl⟩, ?_, ?_, .inl ⟨rfl, rfl, rfl, rfl⟩⟩, ⟨rfl, rfl, rfl⟩, ?_, ?_,
      .inl ⟨rfl, rfl, rfl, rfl⟩⟩ <;> simp [Flow.start, FlowSide.new, AioNet.pair, AioSide.start]
  | step _ hs ih => exact ih.step hl hA hB hn hn' hs

/-- In the end it waits in `drain()`. -/
theorem BlockedNet.final {n n' : Nat} {TA : IT (aio Unit) α} {kA : Except Err Unit → IT (aio Unit) α}
    {TB : IT (aio Unit) β} {kB : Except Err Unit → IT (aio Unit) β} {X : Flow Unit Unit Unit Unit α β}
    (h : BlockedNet l n n' TA kA TB kB X) (hA : ∀ r, TA ≠ .ret r) (hs : Flow.Stuck l L ca cb X) : X.a.drain () = true := by
  obtain ⟨hi, ha, -⟩ := h
  rcases ha.pos with ⟨e1, -⟩ | ⟨-, e2, -⟩
  · refine hs.drain hi ⟨fun r hr => hA r (e1.symm.trans hr), ?_⟩
    rw [ha.idle.2.1]
    simp
  · exact e2

theorem BlockedNet.swap {n n' : Nat} {TA : IT (aio Unit) α} {kA : Except Err Unit → IT (aio Unit) α}
    {TB : IT (aio Unit) β} {kB : Except Err Unit → IT (aio Unit) β} {X : Flow Unit Unit Unit Unit α β}
    (h : BlockedNet l n n' TA kA TB kB X) : BlockedNet l n' n TB kB TA kA X.swap := ⟨h.1.swap, h.2.2, h.2.1⟩

end Salt
