import Verif.Spec.Flow
import Verif.Lemmas.AioPair
import Verif.Lemmas.NetEager

/-!
# asyncio streams with flow control

Flow control only leaves out schedules; coroutines that take turns are never held up for ever.
-/

set_option linter.unusedSimpArgs false
set_option linter.unusedSectionVars false

namespace Salt

open Spec Props

section
variable {ι κ σ τ α β : Type} [DecidableEq ι] [DecidableEq κ] {l : Limits} {L : Lib} {ca cb c : Clock}

/-- The two sides exchanged. -/
def Spec.Flow.swap (x : Flow ι κ σ τ α β) : Flow κ ι τ σ β α := ⟨⟨x.net.b, x.net.a, x.net.ba, x.net.ab⟩, x.b, x.a⟩

theorem Spec.Flow.Step.swap {x y : Flow ι κ σ τ α β} (h : Flow.Step l L ca cb x y) : Flow.Step l L cb ca x.swap y.swap := by
  cases h with
  | aRun t o h1 h2 h3 h4 h5 => exact .bRun t o h1 h2 h3 h4 h5
  | aSend n h1 h2 h3 => exact .bSend n h1 h2 h3
  | aFeed chunk h1 h2 h3 h4 => exact .bFeed chunk h1 h2 h3 h4
  | aEof h1 h2 => exact .bEof h1 h2
  | bRun t o h1 h2 h3 h4 h5 => exact .aRun t o h1 h2 h3 h4 h5
  | bSend n h1 h2 h3 => exact .aSend n h1 h2 h3
  | bFeed chunk h1 h2 h3 h4 => exact .aFeed chunk h1 h2 h3 h4
  | bEof h1 h2 => exact .aEof h1 h2

theorem Spec.Flow.Stuck.swap {x : Flow ι κ σ τ α β} (h : Flow.Stuck l L ca cb x) : Flow.Stuck l L cb ca x.swap :=
  fun y hy => h y.swap hy.swap

theorem Spec.Flow.Reach.swap {x y : Flow ι κ σ τ α β} (h : Flow.Reach l L ca cb x y) : Flow.Reach l L cb ca x.swap y.swap := by
  induction h with
  | refl => exact .refl _
  | step _ hs ih => exact .step ih hs.swap

/-- A step is one of the network without flow control, or bytes leave a write buffer. -/
theorem flow_step_net {x y : Flow ι κ σ τ α β} (h : Flow.Step l L ca cb x y) :
    AioNet.Step L ca cb x.net y.net ∨ (y.net = x.net ∧ y.a.out + y.b.out < x.a.out + x.b.out) := by
  cases h with
  | aRun t o h1 h2 h3 h4 h5 => exact .inl (.aRun t h1)
  | aSend n h1 h2 h3 => exact .inr ⟨rfl, by simp only [FlowSide.sent]; omega⟩
  | aFeed chunk h1 h2 h3 h4 => exact .inl (.aFeed chunk h1 h2)
  | aEof h1 h2 => exact .inl (.aEof h1 (h2.imp (·.1) fun h => ⟨h.1, h.2.1⟩))
  | bRun t o h1 h2 h3 h4 h5 => exact .inl (.bRun t h1)
  | bSend n h1 h2 h3 => exact .inr ⟨rfl, by simp only [FlowSide.sent]; omega⟩
  | bFeed chunk h1 h2 h3 h4 => exact .inl (.bFeed chunk h1 h2)
  | bEof h1 h2 => exact .inl (.bEof h1 (h2.imp (·.1) fun h => ⟨h.1, h.2.1⟩))

/-- Flow control only leaves out schedules. -/
theorem flow_reach_net {x y : Flow ι κ σ τ α β} (h : Flow.Reach l L ca cb x y) : AioNet.Reach L ca cb x.net y.net := by
  induction h with
  | refl => exact .refl _
  | step _ hs ih =>
    rcases flow_step_net hs with h | ⟨h, -⟩
    · exact .step ih h
    · rw [h]; exact ih

theorem flow_terminates [Fintype ι] [Fintype κ] (x : Flow ι κ σ τ α β) : Flow.Terminates l L ca cb x := by
  have key : ∀ N, Acc (fun y x : AioNet ι κ σ τ α β => AioNet.Step L ca cb x y) N →
      ∀ (n : Nat) (x : Flow ι κ σ τ α β), x.net = N → x.a.out + x.b.out = n → Flow.Terminates l L ca cb x := by
    intro N hN
    induction hN with
    | intro N _ ih =>
      intro n
      induction n using Nat.strongRecOn with
      | ind n ihn =>
        intro x hx hn
        refine ⟨_, fun y hy => ?_⟩
        rcases flow_step_net hy with h | ⟨h, h'⟩
        · rw [hx] at h
          exact ih _ h _ y rfl rfl
        · exact ihn _ (by omega) y (h.trans hx) rfl
  exact key _ (aio_terminates x.net) _ x rfl rfl

theorem flow_final [Fintype ι] [Fintype κ] (x : Flow ι κ σ τ α β) :
    ∃ y, Flow.Reach l L ca cb x y ∧ Flow.Stuck l L ca cb y := by
  have := flow_terminates (l := l) (L := L) (ca := ca) (cb := cb) x
  induction this with
  | intro x _ ih =>
    by_cases h : Flow.Stuck l L ca cb x
    · exact ⟨x, .refl _, h⟩
    · simp only [Flow.Stuck, not_forall, not_not] at h
      obtain ⟨y, hy⟩ := h
      obtain ⟨z, h1, h2⟩ := ih y hy
      refine ⟨z, ?_, h2⟩
      clear ih h2
      induction h1 with
      | refl => exact .step (.refl _) hy
      | step _ s ih => exact .step ih s

/-- What holds of the flow control of a side at any time. -/
structure FlowOk (l : Limits) (f : FlowSide ι) (r : AioRt ι σ) (flight : Bytes) : Prop where
  le : f.out ≤ flight.length
  room : flight.length ≤ l.cap + f.out
  held : f.held = true → l.low < f.out
  drain : ∀ t, f.drain t = true → f.held = true
  stop : f.stop = true → r.waiter = none ∧ l.limit < r.buffer.length

/-- Both sides. -/
def FlowInv (l : Limits) (x : Flow ι κ σ τ α β) : Prop :=
  FlowOk l x.a x.net.a.rt x.net.ab ∧ FlowOk l x.b x.net.b.rt x.net.ba

theorem wake_waiter (r : AioRt ι σ) : r.wake.waiter = none ∧ r.wake.buffer = r.buffer := by
  unfold AioRt.wake
  split
  · next h => exact ⟨h, rfl⟩
  · exact ⟨rfl, rfl⟩

theorem FlowInv.start (X : AioNet ι κ σ τ α β) (h1 : X.ab = []) (h2 : X.ba = []) : FlowInv l (Flow.start X) := by
  refine ⟨⟨?_, ?_, ?_, ?_, ?_⟩, ?_, ?_, ?_, ?_, ?_⟩ <;> simp [Flow.start, FlowSide.new, h1, h2]

theorem FlowInv.swap {x : Flow ι κ σ τ α β} (h : FlowInv l x) : FlowInv l x.swap := ⟨h.2, h.1⟩

theorem FlowOk.ran (hl : l.Ok) {f : FlowSide ι} {a : AioSide ι σ α} {ab w : Bytes} (h : FlowOk l f a.rt ab) (t : ι) (d : Bool)
    (r : AioRt ι σ) (out : Nat) (h3 : out ≤ f.out + w.length) (h4 : 0 < f.out → out = f.out + w.length)
    (h5 : (ab ++ w).length ≤ l.cap + out) : FlowOk l (f.ran l t d r out) r (ab ++ w) := by
  obtain ⟨i1, i2, i3, i4, i5⟩ := h
  have hl1 := hl.1
  refine ⟨?_, h5, ?_, ?_, ?_⟩
  · simp only [FlowSide.ran, List.length_append]; omega
  · simp only [FlowSide.ran, Bool.or_eq_true, decide_eq_true_eq]
    rintro (h | h)
    · have := i3 h
      have := h4 (by omega)
      omega
    · omega
  · intro u hu
    simp only [FlowSide.ran] at hu ⊢
    by_cases hut : u = t
    · subst hut
      rw [Function.update_self, Bool.and_eq_true] at hu
      exact hu.2
    · rw [Function.update_of_ne hut] at hu
      simp [i4 u hu]
  · intro hs
    simp only [FlowSide.ran, Bool.and_eq_true, decide_eq_true_eq, Option.isNone_iff_eq_none] at hs
    exact ⟨hs.1.2, hs.2⟩

theorem FlowOk.sent {f : FlowSide ι} {r : AioRt ι σ} {ab : Bytes} (h : FlowOk l f r ab) (n : Nat) (h2 : n ≤ f.out)
    (h3 : ab.length + n ≤ l.cap + f.out) : FlowOk l (f.sent l n) r ab := by
  obtain ⟨i1, i2, i3, i4, i5⟩ := h
  refine ⟨?_, ?_, ?_, ?_, i5⟩
  · simp only [FlowSide.sent]; omega
  · simp only [FlowSide.sent]; omega
  · simp only [FlowSide.sent, Bool.and_eq_true, decide_eq_true_eq]
    exact And.right
  · intro t ht
    simp only [FlowSide.sent, Bool.and_eq_true] at ht ⊢
    exact ht.2

theorem FlowInv.step (hl : l.Ok) {x y : Flow ι κ σ τ α β} (h : FlowInv l x) (hs : Flow.Step l L ca cb x y) : FlowInv l y := by
  cases hs with
  | aRun t o h1 h2 h3 h4 h5 => exact ⟨FlowOk.ran hl h.1 t _ _ o h3 h4 h5, h.2⟩
  | bRun t o h1 h2 h3 h4 h5 => exact ⟨h.1, FlowOk.ran hl h.2 t _ _ o h3 h4 h5⟩
  | aSend n h1 h2 h3 => exact ⟨h.1.sent n h2 h3, h.2⟩
  | bSend n h1 h2 h3 => exact ⟨h.1, h.2.sent n h2 h3⟩
  | @aFeed a b ab ba f g chunk h1 h2 h3 h4 =>
    obtain ⟨⟨i1, i2, i3, i4, i5⟩, j1, j2, j3, j4, j5⟩ := h
    refine ⟨⟨i1, i2, i3, i4, fun hs => ?_⟩, h4, ?_, j3, j4, j5⟩
    · simp only [FlowSide.fed, decide_eq_true_eq] at hs
      refine ⟨(wake_waiter _).1, ?_⟩
      simp only
      omega
    · simp only [List.length_append] at j2 ⊢; omega
  | @bFeed a b ab ba f g chunk h1 h2 h3 h4 =>
    obtain ⟨⟨i1, i2, i3, i4, i5⟩, j1, j2, j3, j4, j5⟩ := h
    refine ⟨⟨h4, ?_, i3, i4, i5⟩, j1, j2, j3, j4, fun hs => ?_⟩
    · simp only [List.length_append] at i2 ⊢; omega
    · simp only [FlowSide.fed, decide_eq_true_eq] at hs
      refine ⟨(wake_waiter _).1, ?_⟩
      simp only
      omega
  | @aEof a b ab ba f g h1 h2 =>
    obtain ⟨⟨i1, i2, i3, i4, i5⟩, j⟩ := h
    refine ⟨⟨i1, i2, i3, i4, fun hs => ⟨(wake_waiter _).1, ?_⟩⟩, j⟩
    simp only [AioSide.feedEof, (wake_waiter _).2]
    exact (i5 hs).2
  | @bEof a b ab ba f g h1 h2 =>
    obtain ⟨i, j1, j2, j3, j4, j5⟩ := h
    refine ⟨i, j1, j2, j3, j4, fun hs => ⟨(wake_waiter _).1, ?_⟩⟩
    simp only [AioSide.feedEof, (wake_waiter _).2]
    exact (j5 hs).2

theorem FlowInv.reach (hl : l.Ok) {x y : Flow ι κ σ τ α β} (h : FlowInv l x) (hr : Flow.Reach l L ca cb x y) : FlowInv l y := by
  induction hr with
  | refl => exact h
  | step _ hs ih => exact ih.step hl hs

/-- Who waits in `drain()` has something in the write buffer. -/
theorem FlowOk.out_pos {f : FlowSide ι} {r : AioRt ι σ} {ab : Bytes} (h : FlowOk l f r ab) {t : ι} (ht : f.drain t = true) :
    0 < f.out := by
  have := h.held (h.drain t ht)
  omega

/-- A task that may run without flow control may run with it, unless it waits in `drain()`. -/
theorem Spec.Flow.Stuck.drain {x : Flow ι κ σ τ α β} (hs : Flow.Stuck l L ca cb x) (hi : FlowInv l x) {t : ι}
    (hc : x.net.a.CanRun t) : x.a.drain t = true := by
  obtain ⟨⟨a, b, ab, ba⟩, f, g⟩ := x
  by_contra hd
  refine hs _ (.aRun t (f.out + (a.run L ca t).2.length) hc (by simpa using hd) le_rfl (fun _ => rfl) ?_)
  have := hi.1.room
  simp only [List.length_append] at this ⊢
  omega

/-- When nothing happens, the sockets are full or the write buffer is empty. -/
theorem Spec.Flow.Stuck.full {x : Flow ι κ σ τ α β} (hs : Flow.Stuck l L ca cb x) (ho : 0 < x.a.out) :
    l.cap + x.a.out ≤ x.net.ab.length := by
  obtain ⟨⟨a, b, ab, ba⟩, f, g⟩ := x
  by_contra hd
  exact hs _ (.aSend 1 (by omega) ho (by simp only at hd ⊢; omega))

/-- When nothing happens although the sockets hold something, reading is paused or the connection closed. -/
theorem Spec.Flow.Stuck.feed {x : Flow ι κ σ τ α β} (hs : Flow.Stuck l L ca cb x) (ho : x.a.out < x.net.ab.length) :
    x.net.b.rt.closed = true ∨ x.b.stop = true := by
  obtain ⟨⟨a, b, ab, ba⟩, f, g⟩ := x
  by_contra hd
  rw [not_or] at hd
  cases ab with
  | nil => simp at ho
  | cons u ab =>
    refine hs _ (.bFeed (ab := ab) [u] (by simp) (by simpa using hd.1) (by simpa using hd.2) ?_)
    simp only [List.length_cons] at ho
    omega

/-- If no write buffer holds anything and nobody has stopped reading, flow control leaves out nothing. -/
theorem Spec.Flow.Stuck.net {x : Flow ι κ σ τ α β} (hs : Flow.Stuck l L ca cb x) (hi : FlowInv l x) (ha : x.a.out = 0)
    (hb : x.b.out = 0) (ha' : x.a.stop = false) (hb' : x.b.stop = false) : AioNet.Stuck L ca cb x.net := by
  have h1 : ∀ t, ¬ x.net.a.CanRun t := fun t hc => by
    have := hi.1.out_pos (hs.drain hi hc)
    omega
  have h2 : ∀ t, ¬ x.net.b.CanRun t := fun t hc => by
    have := hi.2.out_pos (Spec.Flow.Stuck.drain hs.swap hi.swap hc)
    omega
  obtain ⟨⟨a, b, ab, ba⟩, f, g⟩ := x
  intro y hy
  simp only at *
  cases hy with
  | aRun t h => exact h1 t h
  | bRun t h => exact h2 t h
  | aFeed chunk hne hc => exact hs _ (.aFeed chunk hne hc ha' (by omega))
  | bFeed chunk hne hc => exact hs _ (.bFeed chunk hne hc hb' (by omega))
  | aEof he hc => exact hs _ (.aEof he (hc.imp (fun h => ⟨h, ha⟩) fun h => ⟨h.1, h.2, ha'⟩))
  | bEof he hc => exact hs _ (.bEof he (hc.imp (fun h => ⟨h, hb⟩) fun h => ⟨h.1, h.2, hb'⟩))

end

/-! ### Two coroutines that take turns -/

variable {α β : Type} {l : Limits} {L : Lib} {c ca cb : Clock}

/-- If the two take turns, never is something on both links. -/
theorem Spec.Net.HalfDuplex.oneWay {x z : Net α β} (h : Net.HalfDuplex x) {n : Nat} (hr : Net.Run n x z)
    (h0 : x.ab = [] ∨ x.ba = []) : z.ab = [] ∨ z.ba = [] := by
  induction hr with
  | refl => exact h0
  | @step n x y z hs hr ih =>
    have hd := h 0 _ (.refl _)
    refine ih (h.after (.one hs)) ?_
    cases hs with
    | aWrite ms l k => exact .inr (hd.1 ⟨_, _, _, rfl⟩).1
    | aRead m k => exact h0.imp id fun h => by cases h
    | bWrite ms l k => exact .inl (hd.2 ⟨_, _, _, rfl⟩).1
    | bRead m k => exact h0.imp (fun h => by cases h) id

/-- Who has returned has returned. -/
theorem Spec.Net.Run.ret_a {x z : Net α β} {n : Nat} (h : Net.Run n x z) {r : α} (ha : x.a = .ret r) : z.a = .ret r := by
  induction h with
  | refl => exact ha
  | step hs _ ih =>
    cases hs with
    | aWrite ms l k => cases ha
    | aRead m k => cases ha
    | bWrite ms l k => exact ih ha
    | bRead m k => exact ih ha

/-- Bytes that are to be received belong to messages. -/
theorem OneRel.msgs_ne {cl : β → Bool} {y : AioSide Unit Unit β} {flight : Bytes} {p : IT appSig β} {msgs : List Bytes}
    (h : OneRel L c cl y flight p msgs) (hne : y.rt.buffer ++ flight ≠ []) : msgs ≠ [] := by
  have hp := h.pos
  generalize y.tasks () = T at hp
  generalize y.rt.closed = cd at hp
  generalize y.rt.buffer ++ flight = w at hp hne
  rintro rfl
  cases hp with
  | head _ hf => exact hne hf.symm
  | done _ hf => exact hne hf.symm

/-- A coroutine that has returned implements a program that has returned. -/
theorem OneRel.ret_ret {cl : β → Bool} {y : AioSide Unit Unit β} {flight : Bytes} {p : IT appSig β} {msgs : List Bytes}
    (h : OneRel L c cl y flight p msgs) (hfit : ∀ ms l k, p = .op (S := appSig) (.write ms l) k → Fits ms) {b : β}
    (hb : y.tasks () = .ret b) : p = .ret b := by
  have hp := h.pos
  rw [hb] at hp
  generalize y.rt.closed = cd at hp
  cases hp with
  | head hi _ =>
    cases hi with
    | ret _ _ _ => rfl
    | write hs _ => cases hs (hfit _ _ _ rfl)
  | done _ _ => rfl

theorem Spec.Net.Calls.here {P : List Bytes → Prop} {x : Net α β} (h : Net.Calls P x) :
    (∀ ms l k, x.a = .op (S := appSig) (.write ms l) k → P ms) ∧ ∀ ms l k, x.b = .op (S := appSig) (.write ms l) k → P ms :=
  h 0 _ (.refl _)

/-- The reader of bytes that are to be received gets them in the end, so it may run or waits for them. -/
theorem PairRel.reader {clA : α → Bool} {clB : β → Bool} {x y : Net α β} {Y : AioNet Unit Unit Unit Unit α β}
    (h : PairRel L ca cb clA clB x Y) (he : EndsOk clA clB x y) (hy : y.ab = []) (hne : Y.b.rt.buffer ++ Y.ab ≠ []) :
    Y.b.rt.closed = false ∧ ∀ b, Y.b.tasks () ≠ .ret b := by
  have hx := h.b.msgs_ne hne
  have hret : ∀ b, x.b ≠ .ret b := by
    intro b hb
    obtain ⟨-, m, hm, -⟩ := he.1
    exact hm.kept hb hx hy
  constructor
  · by_contra hc
    obtain ⟨b, -, -, hb, -⟩ := h.b.closed_ret (by simpa using hc)
    exact hret b hb
  · intro b hb
    exact hret b (h.b.ret_ret h.calls.here.2 hb)

theorem flow_quiet (hl : l.Ok) {clA : α → Bool} {clB : β → Bool} {x y : Net α β} {X : Flow Unit Unit Unit Unit α β}
    (h : PairRel L ca cb clA clB x X.net) (he : EndsOk clA clB x y) (hy : y.ab = []) (hi : FlowInv l X)
    (hd : X.b.drain () = false) (hs : Flow.Stuck l L ca cb X) : X.a.out = 0 := by
  by_contra hne
  have hpos : 0 < X.a.out := Nat.pos_of_ne_zero hne
  have hfull := hs.full hpos
  have hcap := hl.2
  have hab : X.net.ab ≠ [] := by
    intro h; rw [h] at hfull; simp at hfull; omega
  obtain ⟨h1, h2⟩ := h.reader he hy (by simp [hab])
  rcases hs.feed (by omega) with h3 | h3
  · rw [h1] at h3; cases h3
  · have h4 := hi.2.stop h3
    have h5 : X.net.b.CanRun () := by
      refine ⟨h2, fun hp => ?_⟩
      have := (h.b.pend hp).1
      rw [h4.1] at this
      cases this
    have h6 : X.b.drain () = true := Spec.Flow.Stuck.drain hs.swap hi.swap h5
    rw [hd] at h6
    cases h6

/-- If something can be on one link only, nobody waits in `drain()` when nothing more happens. -/
theorem flow_nodrain (hl : l.Ok) {clA : α → Bool} {clB : β → Bool} {x y : Net α β} {X : Flow Unit Unit Unit Unit α β}
    (h : PairRel L ca cb clA clB x X.net) (he : EndsOk clA clB x y) (hy : y.ab = []) (hi : FlowInv l X)
    (hone : x.ab = [] ∨ x.ba = []) (hs : Flow.Stuck l L ca cb X) : X.a.drain () = false := by
  by_contra hda
  have ha := hi.1.out_pos (t := ()) (by simpa using hda)
  have hab : X.net.ab ≠ [] := by
    intro h
    have := hi.1.le
    rw [h, List.length_nil] at this
    omega
  have hdb : X.b.drain () = true := by
    by_contra hdb
    have := flow_quiet hl h he hy hi (by simpa using hdb) hs
    omega
  have hba : X.net.ba ≠ [] := by
    intro h
    have h1 := hi.2.le
    have h2 := hi.2.out_pos hdb
    rw [h, List.length_nil] at h1
    omega
  rcases hone with h8 | h8
  · exact h.b.msgs_ne (by simp [hab]) h8
  · exact h.a.msgs_ne (by simp [hba]) h8

theorem flow_reads {clA : α → Bool} {clB : β → Bool} {x y : Net α β} {X : Flow Unit Unit Unit Unit α β}
    (h : PairRel L ca cb clA clB x X.net) (he : EndsOk clA clB x y) (hy : y.ab = []) (hi : FlowInv l X)
    (hs : Flow.Stuck l L ca cb X) (hb : X.b.out = 0) : X.b.stop = false := by
  by_contra hne
  have h4 := hi.2.stop (by simpa using hne)
  have hbuf : X.net.b.rt.buffer ≠ [] := by
    intro h; rw [h] at h4; simp at h4
  obtain ⟨-, h2⟩ := h.reader he hy (by simp [hbuf])
  have h5 : X.net.b.CanRun () := by
    refine ⟨h2, fun hp => ?_⟩
    have := (h.b.pend hp).1
    rw [h4.1] at this
    cases this
  have h6 := hi.2.out_pos (Spec.Flow.Stuck.drain hs.swap hi.swap h5)
  omega

/-- When two coroutines come to a stop with nobody in `drain()`, flow control has nothing to do with it. -/
theorem flow_stuck (hl : l.Ok) {clA : α → Bool} {clB : β → Bool} {x y : Net α β} {X : Flow Unit Unit Unit Unit α β}
    (h : PairRel L ca cb clA clB x X.net) (he : EndsOk clA clB x y) (h1 : y.ab = []) (h2 : y.ba = []) (hi : FlowInv l X)
    (hda : X.a.drain () = false) (hdb : X.b.drain () = false) (hs : Flow.Stuck l L ca cb X) : AioNet.Stuck L ca cb X.net := by
  have ha := flow_quiet hl h he h1 hi hdb hs
  have hb := flow_quiet (X := X.swap) hl h.flip he.swap h2 hi.swap hda hs.swap
  exact hs.net hi ha hb (flow_reads (X := X.swap) h.flip he.swap h2 hi.swap hs.swap ha) (flow_reads h he h1 hi hs hb)

/-- The same from the start. -/
theorem flow_pair (hl : l.Ok) {clA : α → Bool} {clB : β → Bool} {TA : IT (aio Unit) α} {TB : IT (aio Unit) β} {pA : IT appSig α}
    {pB : IT appSig β} (hA : Impl L ca clA TA 0 pA) (hB : Impl L cb clB TB 0 pB)
    (hc : Net.Calls Fits (Net.start pA pB)) {y : Net α β} (he : EndsOk clA clB (Net.start pA pB) y)
    (hd : Net.HalfDuplex (Net.start pA pB)) (h1 : y.ab = []) (h2 : y.ba = []) {Y : Flow Unit Unit Unit Unit α β}
    (hr : Flow.Reach l L ca cb (.start (AioNet.pair TA TB)) Y) (hs : Flow.Stuck l L ca cb Y) :
    AioNet.Reach L ca cb (AioNet.pair TA TB) Y.net ∧ AioNet.Stuck L ca cb Y.net ∧ Y.a.drain () = false ∧ Y.b.drain () = false := by
  have hr' := flow_reach_net hr
  refine ⟨hr', ?_⟩
  obtain ⟨x', n, e1, e2, e3⟩ := (PairRel.start hA hB hc).reach he hr'
  have hi := FlowInv.reach hl (FlowInv.start _ rfl rfl) hr
  have ho := hd.oneWay e1 (.inl rfl)
  have hda := flow_nodrain hl e3 e2 h1 hi ho hs
  have hdb := flow_nodrain (X := Y.swap) hl e3.flip e2.swap h2 hi.swap ho.symm hs.swap
  exact ⟨flow_stuck hl e3 e2 h1 h2 hi hda hdb hs, hda, hdb⟩

/-- What holds for all coroutines. -/
theorem flow_safe (hl : l.Ok) {clA : α → Bool} {clB : β → Bool} {TA : IT (aio Unit) α} {TB : IT (aio Unit) β} {pA : IT appSig α}
    {pB : IT appSig β} (hA : Impl L ca clA TA 0 pA) (hB : Impl L cb clB TB 0 pB)
    (hc : Net.Calls Fits (Net.start pA pB)) {y : Net α β} (he : EndsOk clA clB (Net.start pA pB) y)
    {Y : Flow Unit Unit Unit Unit α β} (hr : Flow.Reach l L ca cb (.start (AioNet.pair TA TB)) Y) :
    (∀ r, Y.net.a.tasks () = .ret r → y.a = .ret r) ∧ (∀ r, Y.net.b.tasks () = .ret r → y.b = .ret r) ∧
    (Flow.Stuck l L ca cb Y → Y.a.drain () = false → Y.b.drain () = false → y.ab = [] → y.ba = [] →
      AioEnd Y.net.a () y.a ∧ AioEnd Y.net.b () y.b ∧ Y.net.ab = [] ∧ Y.net.ba = [] ∧ Y.net.a.rt.buffer = [] ∧
        Y.net.b.rt.buffer = []) := by
  have hr' := flow_reach_net hr
  obtain ⟨x', n, e1, e2, e3⟩ := (PairRel.start hA hB hc).reach he hr'
  obtain ⟨-, m, hm, -⟩ := e2.1
  refine ⟨fun r h => ?_, fun r h => ?_, fun hs hda hdb h1 h2 => ?_⟩
  · exact hm.ret_a (e3.a.ret_ret e3.calls.here.1 h)
  · exact hm.swap.ret_a (e3.b.ret_ret e3.calls.here.2 h)
  · have := flow_stuck hl e3 e2 h1 h2 (FlowInv.reach hl (FlowInv.start _ rfl rfl) hr) hda hdb hs
    obtain ⟨f1, f2, f3, f4⟩ := (pair_ends hA hB hc he).2.2 _ hr' this
    exact ⟨f1, f2, (f4 h1).1, (f3 h2).1, (f3 h2).2, (f4 h1).2⟩

theorem flow_ends (hl : l.Ok) {clA : α → Bool} {clB : β → Bool} {TA : IT (aio Unit) α} {TB : IT (aio Unit) β} {pA : IT appSig α}
    {pB : IT appSig β} (hA : Impl L ca clA TA 0 pA) (hB : Impl L cb clB TB 0 pB)
    (hc : Net.Calls Fits (Net.start pA pB)) {y : Net α β} (he : EndsOk clA clB (Net.start pA pB) y)
    (hd : Net.HalfDuplex (Net.start pA pB)) (h1 : y.ab = []) (h2 : y.ba = []) :
    FlowEndsLike l L ca cb y (AioNet.pair TA TB) := by
  refine ⟨flow_terminates _, flow_final _, fun Y hr hs => ?_⟩
  obtain ⟨e1, e2, e3, e4⟩ := flow_pair hl hA hB hc he hd h1 h2 hr hs
  obtain ⟨f1, f2, f3, f4⟩ := (pair_ends hA hB hc he).2.2 _ e1 e2
  exact ⟨f1, f2, e3, e4, (f4 h1).1, (f3 h2).1, (f3 h2).2, (f4 h1).2⟩

theorem flow_finish (hl : l.Ok) {clA : α → Bool} {clB : β → Bool} {TA : IT (aio Unit) α} {TB : IT (aio Unit) β}
    {pA : IT appSig α} {pB : IT appSig β} (hA : Impl L ca clA TA 0 pA) (hB : Impl L cb clB TB 0 pB)
    (hc : Net.Calls Fits (Net.start pA pB)) {a : α} {b : β}
    (he : EndsIn (Net.start pA pB) ⟨.ret a, .ret b, [], []⟩) (hd : Net.HalfDuplex (Net.start pA pB))
    (ha : clA a = true) (hb : clB b = true) : FlowFinish l L ca cb (AioNet.pair TA TB) a b := by
  refine ⟨flow_terminates _, flow_final _, fun Y hr hs => ?_⟩
  obtain ⟨e1, e2, e3, e4⟩ := flow_pair hl hA hB hc ⟨he, .inr ⟨⟨a, rfl⟩, b, rfl⟩⟩ hd rfl rfl hr hs
  obtain ⟨f1, f2, f3, f4, f5⟩ := (pair_finish hA hB hc he ha hb).2.2.1 _ e1 e2
  exact ⟨f1, f2, f3, f4, e3, e4, f5⟩

end Salt
