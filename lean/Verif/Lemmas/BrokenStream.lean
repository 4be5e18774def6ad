import Verif.Spec.BrokenStream
import Verif.Lemmas.BrokenSock
import Verif.Lemmas.AioSim

/-!
# asyncio streams whose connection breaks, as seen by the channels
-/

set_option linter.unusedSimpArgs false

namespace Salt

open Spec Props

variable {α β : Type} {E : Err → Prop}

theorem streamHalf_progress {x y : BreakStream α β} (h : BreakStream.Half E x y) :
    y.alive = x.alive ∧ y.b = x.b ∧ Progress (y.a, false) (x.a, false) := by
  cases h with
  | write d k => exact ⟨rfl, rfl, .left _ _ (.op (S := stream) (.write d) k (.ok ()))⟩
  | lost d k => exact ⟨rfl, rfl, .left _ _ (.op (S := stream) (.write d) k (.ok ()))⟩
  | drain k => exact ⟨rfl, rfl, .left _ _ (.op (S := stream) .drain k (.ok ()))⟩
  | raise k e => exact ⟨rfl, rfl, .left _ _ (.op (S := stream) .drain k (.error e))⟩
  | value n k => exact ⟨rfl, rfl, .left _ _ (.op (S := stream) (.readexactly n) k (.error _))⟩
  | read n chunk k => exact ⟨rfl, rfl, .left _ _ (.op (S := stream) (.readexactly n) k (.ok chunk))⟩
  | eof n k => exact ⟨rfl, rfl, .left _ _ (.op (S := stream) (.readexactly n) k (.error _))⟩
  | reset n k e => exact ⟨rfl, rfl, .left _ _ (.op (S := stream) (.readexactly n) k (.error e))⟩

theorem breakStream_terminates (E : Err → Prop) (x : BreakStream α β) : BreakStream.Terminates E x := by
  refine Subrelation.accessible (r := InvImage Progress2 fun x : BreakStream α β =>
    (x.alive, (x.a, false), (x.b, false))) ?_ (InvImage.accessible _ (progress2_wf.apply _))
  intro y x h
  cases h with
  | a h =>
    obtain ⟨e1, e2, h⟩ := streamHalf_progress h
    show Progress2 (y.alive, (y.a, false), (y.b, false)) (x.alive, (x.a, false), (x.b, false))
    rw [e1, e2]
    exact .right _ (.fst h)
  | b h =>
    obtain ⟨e1, e2, h⟩ := streamHalf_progress h
    simp only [BreakStream.swap] at e1 e2 h
    show Progress2 (y.alive, (y.a, false), (y.b, false)) (x.alive, (x.a, false), (x.b, false))
    rw [e1, e2]
    exact .right _ (.snd h)
  | cut i j => exact .left _ _ ⟨rfl, rfl⟩

theorem breakStream_ends (E : Err → Prop) (x : BreakStream α β) (hx : x.alive = false) :
    ∃ z, BreakStream.Reach E x z ∧ z.alive = false ∧ BreakStream.Stuck E z := by
  have key : ∀ x : BreakStream α β, x.alive = false → ∃ z, (∀ w, BreakStream.Reach E w x → BreakStream.Reach E w z) ∧
      z.alive = false ∧ BreakStream.Stuck E z := by
    intro x hx
    have h := breakStream_terminates E x
    unfold BreakStream.Terminates at h
    induction h with
    | intro x _ ih =>
      by_cases hs : BreakStream.Stuck E x
      · exact ⟨x, fun _ h => h, hx, hs⟩
      · obtain ⟨y, hy⟩ := Classical.not_forall_not.1 hs
        have hd : y.alive = false := by
          cases hy with
          | a h => exact (streamHalf_progress h).1.trans hx
          | b h => exact (streamHalf_progress h).1.trans hx
          | cut i j => rfl
        obtain ⟨z, h1, h2, h3⟩ := ih y hy hd
        exact ⟨z, fun w hw => h1 w (.step hw hy), h2, h3⟩
  obtain ⟨z, h1, h2, h3⟩ := key x hx
  exact ⟨z, h1 x (.refl x), h2, h3⟩

/-- The stream calls of a write. -/
def writeTree (K : Except Err Unit → IT stream α) : List Bytes → IT stream α
  | [] => .op (S := stream) .drain K
  | m :: ms => .op (S := stream) (.write (frame m)) fun
    | .ok _ => writeTree K ms
    | .error e => K (.error e)

theorem writeAll_tree (K : Except Err Unit → IT stream α) {ms : List Bytes} (h : ∀ m ∈ ms, m.length < 2 ^ 31) :
    (AsyncioChannel.write ms ()).bind (fun x => K x.1) = writeTree K ms := by
  have key : ∀ ms : List Bytes, (∀ m ∈ ms, m.length < 2 ^ 31) → (AsyncioChannel.writeAll ms ()).bind (fun
      | (.ok _, s) => ((do let _ ← Py.stream .drain; return ()) : Py stream Unit Unit) s
      | (.error e, s) => .ret (.error e, s)) = writeTree (fun r => .ret (r, ())) ms := by
    intro ms
    induction ms with
    | nil =>
      intro _
      show IT.op (S := stream) _ _ = IT.op (S := stream) _ _
      congr 1
      funext r
      cases r <;> rfl
    | cons m ms ih =>
      intro h
      rw [writeTree, ← ih fun m hm => h m (List.mem_cons_of_mem _ hm), AsyncioChannel.writeAll, frameMsg_short (h m List.mem_cons_self)]
      show IT.op (S := stream) _ _ = IT.op (S := stream) _ _
      congr 1
      funext r
      cases r <;> rfl
  have h2 : ∀ ms, (writeTree (fun r => .ret (r, ())) ms).bind (fun x : Except Err Unit × Unit => K x.1) = writeTree K ms := by
    intro ms
    induction ms with
    | nil => rfl
    | cons m ms ih =>
      show IT.op (S := stream) _ _ = IT.op (S := stream) _ _
      congr 1
      funext r
      cases r with
      | ok u => exact ih
      | error e => rfl
  have h3 : AsyncioChannel.write ms () = writeTree (fun r => .ret (r, ())) ms := by
    rw [← key ms h, AsyncioChannel.write, Py.bind_run]
    congr 1
    funext x
    rcases x with ⟨_ | _, s⟩ <;> rfl
  rw [h3, h2]

theorem onAsyncio_write {ms : List Bytes} (l : Bool) (k : Except Err Unit → IT appSig α) (h : ∀ m ∈ ms, m.length < 2 ^ 31) :
    onAsyncio (.op (S := appSig) (.write ms l) k) = writeTree (fun r => onAsyncio (k r)) ms := by
  rw [onAsyncio]
  exact writeAll_tree (fun r => onAsyncio (k r)) h

/-- After the head of a frame. -/
def afterHead (k : Except Err Bytes → IT appSig α) : Except Err Bytes → IT stream α
  | .ok b => .op (S := stream) (.readexactly (unpackI b)) fun r => onAsyncio (k r)
  | .error e => onAsyncio (k (.error e))

theorem onAsyncio_read (k : Except Err Bytes → IT appSig α) :
    onAsyncio (.op (S := appSig) .read k) = .op (S := stream) (.readexactly 4) (afterHead k) := by
  rw [onAsyncio]
  show IT.op (S := stream) _ _ = IT.op (S := stream) _ _
  congr 1
  funext r
  cases r <;> rfl

/-- Where a program is on the streams: `w` tells whether its write counts as begun, `c` is what it has received of the message that it
is reading, `rest` what is still to be sent of the messages that it writes. -/
inductive StreamSt (v : Bool) : Bool → IT appSig α → IT stream α → Bytes → Bytes → Prop
  | top (p) : StreamSt v false p (onAsyncio p) [] []
  | writing {w} (ms l k ms') : (v = true → w = true) → StreamSt v w (.op (S := appSig) (.write ms l) k)
      (writeTree (fun r => onAsyncio (k r)) ms') [] (frames ms')
  | body (k) (m : Bytes) : m.length < 2 ^ 31 → StreamSt v false (.op (S := appSig) .read k)
      (.op (S := stream) (.readexactly (m.length : Nat)) fun r => onAsyncio (k r)) (leBytes 4 m.length) []

theorem StreamSt.dead {v w : Bool} {p : IT appSig α} {P : IT stream α} {c rest : Bytes} (h : StreamSt v w p P c rest) :
    StreamSt false w p P c rest := by
  cases h with
  | top p => exact .top p
  | writing ms l k ms' _ => exact .writing ms l k ms' nofun
  | body k m h => exact .body k m h

/-- What a side has received, what it may still receive, what the other will still send, and the messages on their way. -/
def Coming (v : Bool) (c bytes rest : Bytes) (ms : List Bytes) : Prop :=
  c ++ bytes <+: frames ms ∧ (v = true → c ++ bytes ++ rest = frames ms)

/-- The network of streams is where the network of messages is. -/
structure StreamInv (x : BreakNet α β) (X : BreakStream α β) : Prop where
  alive : x.alive = X.alive
  ex : ∃ ca ra cb rb, StreamSt X.alive x.inA x.net.a X.a ca ra ∧ StreamSt X.alive x.inB x.net.b X.b cb rb ∧
    Coming X.alive ca X.ba rb x.net.ba ∧ Coming X.alive cb X.ab ra x.net.ab
  shortA : ShortWritesP x.net.a
  shortB : ShortWritesP x.net.b
  msgs : (∀ m ∈ x.net.ab, m.length < 2 ^ 31) ∧ ∀ m ∈ x.net.ba, m.length < 2 ^ 31

theorem StreamInv.swap {x : BreakNet α β} {X : BreakStream α β} (h : StreamInv x X) : StreamInv x.swap X.swap := by
  obtain ⟨ca, ra, cb, rb, h1, h2, h3, h4⟩ := h.ex
  exact ⟨h.alive, ⟨cb, rb, ca, ra, h2, h1, h4, h3⟩, h.shortB, h.shortA, h.msgs.2, h.msgs.1⟩

theorem Coming.take {v : Bool} {c bytes rest rest' : Bytes} {ms : List Bytes} (h : Coming v c bytes rest ms) (i : Nat) :
    Coming false c (bytes.take i) rest' ms :=
  ⟨((List.prefix_append_right_inj c).2 (List.take_prefix i bytes)).trans h.1, nofun⟩

theorem Coming.none (rest : Bytes) (ms : List Bytes) : Coming false [] [] rest ms := ⟨by simp, nofun⟩

/-- Steps of the message network. -/
def HalfSteps (E : Err → Prop) (x y : BreakNet α β) : Prop :=
  x = y ∨ BreakNet.Half E x y ∨ ∃ z, BreakNet.Half E x z ∧ BreakNet.Half E z y

/-- A program that is about to write to the stream is within a write. -/
theorem StreamSt.writes {v w : Bool} {p : IT appSig α} {d c rest : Bytes} {k : Except Err Unit → IT stream α} (hp : ShortWritesP p)
    (h : StreamSt v w p (.op (S := stream) (.write d) k) c rest) : ∃ ms l k0 m ms', p = .op (S := appSig) (.write ms l) k0 ∧ c = [] ∧
      d = frame m ∧ k (.ok ()) = writeTree (fun r => onAsyncio (k0 r)) ms' ∧
      ((w = false ∧ rest = [] ∧ ms = m :: ms') ∨ ((v = true → w = true) ∧ rest = frames (m :: ms'))) := by
  generalize hP : (.op (S := stream) (.write d) k : IT stream α) = P at h
  cases h with
  | top =>
    cases p with
    | ret r => cases hP
    | op e k0 =>
      cases e with
      | read => rw [onAsyncio_read] at hP; cases hP
      | write ms l =>
        rw [onAsyncio_write l k0 hp.1] at hP
        cases ms with
        | nil => cases hP
        | cons m ms => cases hP; exact ⟨_, l, k0, m, ms, rfl, rfl, rfl, rfl, .inl ⟨rfl, rfl, rfl⟩⟩
  | writing ms l k0 ms' hw =>
    cases ms' with
    | nil => cases hP
    | cons m ms' => cases hP; exact ⟨_, l, k0, m, ms', rfl, rfl, rfl, rfl, .inr ⟨hw, rfl⟩⟩
  | body => cases hP

/-- A program that is about to drain is at the end of a write. -/
theorem StreamSt.drains {v w : Bool} {p : IT appSig α} {c rest : Bytes} {k : Except Err Unit → IT stream α} (hp : ShortWritesP p)
    (h : StreamSt v w p (.op (S := stream) .drain k) c rest) : ∃ ms l k0, p = .op (S := appSig) (.write ms l) k0 ∧ c = [] ∧
      (∀ r, k r = onAsyncio (k0 r)) ∧ rest = [] ∧ ((w = false ∧ ms = []) ∨ (v = true → w = true)) := by
  generalize hP : (.op (S := stream) .drain k : IT stream α) = P at h
  cases h with
  | top =>
    cases p with
    | ret r => cases hP
    | op e k0 =>
      cases e with
      | read => rw [onAsyncio_read] at hP; cases hP
      | write ms l =>
        rw [onAsyncio_write l k0 hp.1] at hP
        cases ms with
        | nil => cases hP; exact ⟨_, l, k0, rfl, rfl, fun _ => rfl, rfl, .inl ⟨rfl, rfl⟩⟩
        | cons m ms => cases hP
  | writing ms l k0 ms' hw =>
    cases ms' with
    | nil => cases hP; exact ⟨_, l, k0, rfl, rfl, fun _ => rfl, rfl, .inr hw⟩
    | cons m ms' => cases hP
  | body => cases hP

/-- A program that is about to read from the stream reads: the head of a frame or its body. -/
theorem StreamSt.reads {v w : Bool} {p : IT appSig α} {n : Int} {c rest : Bytes} {k : Except Err Bytes → IT stream α}
    (hp : ShortWritesP p) (h : StreamSt v w p (.op (S := stream) (.readexactly n) k) c rest) :
    ∃ k0, p = .op (S := appSig) .read k0 ∧ w = false ∧ rest = [] ∧ 0 ≤ n ∧ (∀ e, k (.error e) = onAsyncio (k0 (.error e))) ∧
      ((n = 4 ∧ c = [] ∧ k = afterHead k0) ∨
        ∃ m : Bytes, m.length < 2 ^ 31 ∧ n = (m.length : Nat) ∧ c = leBytes 4 m.length ∧ ∀ r, k r = onAsyncio (k0 r)) := by
  generalize hP : (.op (S := stream) (.readexactly n) k : IT stream α) = P at h
  cases h with
  | top =>
    cases p with
    | ret r => cases hP
    | op e k0 =>
      cases e with
      | read =>
        rw [onAsyncio_read] at hP
        cases hP
        exact ⟨k0, rfl, rfl, rfl, by decide, fun _ => rfl, .inl ⟨rfl, rfl, rfl⟩⟩
      | write ms l =>
        rw [onAsyncio_write l k0 hp.1] at hP
        cases ms <;> cases hP
  | writing ms l k0 ms' hw => cases ms' <;> cases hP
  | body k0 m hm =>
    cases hP
    exact ⟨k0, rfl, rfl, rfl, by omega, fun _ => rfl, .inr ⟨m, hm, rfl, rfl, fun _ => rfl⟩⟩

theorem StreamInv.half (hE : E .incompleteReadError) {x : BreakNet α β} {X Y : BreakStream α β} (h : StreamInv x X)
    (hs : BreakStream.Half E X Y) : ∃ y, HalfSteps E x y ∧ StreamInv y Y := by
  obtain ⟨hv, ⟨ca, ra, cb, rb, h1, h2, h3, h4⟩, sA, sB, m1, m2⟩ := h
  obtain ⟨⟨p, q, xab, xba⟩, v, u, w⟩ := x
  cases hs with
  | write d k =>
    cases hv
    obtain ⟨ms, l, k0, m, ms', rfl, rfl, rfl, e1, ⟨rfl, rfl, rfl⟩ | ⟨hw, rfl⟩⟩ := h1.writes sA
    · refine ⟨_, .inr (.inl (.put _ l k0)), rfl, ⟨[], frames ms', cb, rb, ?_, h2, h3, ?_⟩, sA, sB, ?_, m2⟩
      · simp only [e1]; exact .writing _ l k0 ms' fun _ => rfl
      · have := h4.2 rfl
        simp only [List.append_nil] at this
        refine ⟨⟨frames ms', ?_⟩, fun _ => ?_⟩ <;>
          simp only [frames_append, frames_cons, ← this, List.append_assoc]
      · intro m' hm
        rcases List.mem_append.1 hm with hm | hm
        · exact m1 m' hm
        · exact sA.1 m' hm
    · refine ⟨_, .inl rfl, rfl, ⟨[], frames ms', cb, rb, ?_, h2, h3, ?_⟩, sA, sB, m1, m2⟩
      · simp only [e1]; exact .writing _ l k0 ms' hw
      · have := h4.2 rfl
        simp only [frames_cons] at this
        refine ⟨⟨frames ms', ?_⟩, fun _ => ?_⟩ <;> simp only [← this, List.append_assoc]
  | lost d k =>
    cases hv
    obtain ⟨ms, l, k0, m, ms', rfl, rfl, rfl, e1, -⟩ := h1.writes sA
    refine ⟨_, .inl rfl, rfl, ⟨[], frames ms', cb, rb, ?_, h2, h3, ⟨h4.1, nofun⟩⟩, sA, sB, m1, m2⟩
    simp only [e1]; exact .writing _ l k0 ms' nofun
  | drain k =>
    cases hv
    obtain ⟨ms, l, k0, rfl, rfl, e1, rfl, hw⟩ := h1.drains sA
    have ht : ∀ v, StreamSt v false (k0 (.ok ())) (k (.ok ())) [] [] := fun v => e1 (.ok ()) ▸ .top _
    cases u with
    | true => exact ⟨_, .inr (.inl (.done ms l k0)), rfl, ⟨[], [], cb, rb, ht _, h2, h3, h4⟩, sA.2 _, sB, m1, m2⟩
    | false =>
      cases v with
      | false => exact ⟨_, .inr (.inl (.lost ms l k0)), rfl, ⟨[], [], cb, rb, ht _, h2, h3, h4⟩, sA.2 _, sB, m1, m2⟩
      | true =>
        rcases hw with ⟨-, rfl⟩ | hw
        · refine ⟨_, .inr (.inr ⟨_, .put [] l k0, .done [] l k0⟩), rfl, ⟨[], [], cb, rb, ht _, h2, h3, ?_⟩, sA.2 _, sB, ?_, m2⟩
          · simpa using h4
          · simpa using m1
        · cases hw rfl
  | raise k e he =>
    cases hv
    obtain ⟨ms, l, k0, rfl, rfl, e1, rfl, -⟩ := h1.drains sA
    exact ⟨_, .inr (.inl (.raise ms l k0 e he)), rfl, ⟨[], [], cb, rb, e1 (.error e) ▸ .top _, h2, h3, h4⟩, sA.2 _, sB, m1, m2⟩
  | value n k hn =>
    obtain ⟨k0, -, -, -, h0, -⟩ := h1.reads sA
    omega
  | @read _ _ bytes _ n chunk k hlen =>
    cases hv
    obtain ⟨k0, rfl, rfl, rfl, h0, -, ⟨rfl, rfl, rfl⟩ | ⟨m, hm, rfl, rfl, hk⟩⟩ := h1.reads sA
    · obtain ⟨tail, ht⟩ := h3.1
      simp only [List.nil_append] at ht
      have ht' : chunk ++ (bytes ++ tail) = frames xba := by rw [← ht]; simp only [List.append_assoc]
      have hne : chunk ≠ [] := by rintro rfl; simp at hlen
      cases xba with
      | nil => simp [frames, hne] at ht'
      | cons m ms =>
        have hm := m2 m List.mem_cons_self
        rw [frames_cons, frame, List.append_assoc] at ht'
        have hc : chunk = leBytes 4 m.length := (List.append_inj ht' (by simp; omega)).1
        subst hc
        refine ⟨_, .inl rfl, rfl, ⟨leBytes 4 m.length, [], cb, rb, ?_, h2, ?_, h4⟩, sA, sB, m1, m2⟩
        · have := StreamSt.body (v := v) k0 m hm
          rw [← unpackI_leBytes hm] at this
          exact this
        · simpa [Coming] using h3
    · obtain ⟨tail, ht⟩ := h3.1
      have ht' : leBytes 4 m.length ++ (chunk ++ (bytes ++ tail)) = frames xba := by rw [← ht]; simp only [List.append_assoc]
      cases xba with
      | nil =>
        have := congrArg List.length ht'
        simp [frames] at this
      | cons m' ms =>
        have hm' := m2 m' List.mem_cons_self
        rw [frames_cons, frame, List.append_assoc] at ht'
        obtain ⟨e1, e2⟩ := List.append_inj ht' (by simp)
        have e3 := congrArg unpackI e1
        rw [unpackI_leBytes hm, unpackI_leBytes hm'] at e3
        obtain ⟨e4, e5⟩ := List.append_inj e2 (by omega)
        subst e4
        refine ⟨_, .inr (.inl (.read chunk k0)), rfl, ⟨[], [], cb, rb, hk (.ok chunk) ▸ .top _, h2, ?_, h4⟩, sA _, sB, m1,
          fun x hx => m2 x (List.mem_cons_of_mem _ hx)⟩
        refine ⟨⟨tail, by simpa using e5⟩, fun hv => ?_⟩
        have := h3.2 hv
        rw [frames_cons, frame, List.append_assoc, ← e1] at this
        simpa [List.append_assoc] using this
  | eof n k hn =>
    cases hv
    obtain ⟨k0, rfl, rfl, rfl, h0, hk, -⟩ := h1.reads sA
    exact ⟨_, .inr (.inl (.fail k0 _ hE)), rfl, ⟨[], [], cb, rb, hk _ ▸ .top _, h2, Coming.none _ _, h4⟩, sA _, sB, m1, m2⟩
  | reset n k e _ he =>
    cases hv
    obtain ⟨k0, rfl, rfl, rfl, h0, hk, -⟩ := h1.reads sA
    exact ⟨_, .inr (.inl (.fail k0 _ he)), rfl, ⟨[], [], cb, rb, hk _ ▸ .top _, h2, Coming.none _ _, h4⟩, sA _, sB, m1, m2⟩

theorem StreamInv.step (hE : E .incompleteReadError) {x0 x : BreakNet α β} (hr : BreakNet.Reach E x0 x) {X Y : BreakStream α β}
    (h : StreamInv x X) (hs : BreakStream.Step E X Y) : ∃ y, BreakNet.Reach E x0 y ∧ StreamInv y Y := by
  cases hs with
  | a hs =>
    obtain ⟨y, rfl | hs | ⟨z, h1, h2⟩, hi⟩ := h.half hE hs
    · exact ⟨_, hr, hi⟩
    · exact ⟨y, hr.snoc (.a hs), hi⟩
    · exact ⟨y, (hr.snoc (.a h1)).snoc (.a h2), hi⟩
  | b hs =>
    obtain ⟨y, rfl | hs | ⟨z, h1, h2⟩, hi⟩ := h.swap.half hE hs
    · exact ⟨_, hr, hi.swap⟩
    · exact ⟨y.swap, hr.snoc (.b hs), hi.swap⟩
    · exact ⟨y.swap, (hr.snoc (.b (y := z.swap) h1)).snoc (.b h2), hi.swap⟩
  | cut i j =>
    obtain ⟨hv, ⟨ca, ra, cb, rb, h1, h2, h3, h4⟩, sA, sB, m⟩ := h
    obtain ⟨⟨p, q, xab, xba⟩, v, u, w⟩ := x
    cases hv
    refine ⟨_, hr.snoc (.cut xab.length xba.length), rfl, ⟨ca, ra, cb, rb, h1.dead, h2.dead, ?_, ?_⟩, sA, sB, ?_⟩
    · simp only [List.take_length]; exact h3.take j
    · simp only [List.take_length]; exact h4.take i
    · simpa only [List.take_length] using m

/-- What happens on streams is what may happen on a connection for messages. -/
theorem breakStream_sim (hE : E .incompleteReadError) {pA : IT appSig α} {pB : IT appSig β} (hA : ShortWritesP pA)
    (hB : ShortWritesP pB) {Z : BreakStream α β} (h : BreakStream.Reach E (BreakStream.start (onAsyncio pA) (onAsyncio pB)) Z) :
    ∃ z, BreakNet.Reach E (BreakNet.start pA pB) z ∧ StreamInv z Z := by
  generalize hX : BreakStream.start (onAsyncio pA) (onAsyncio pB) = X at h
  induction h with
  | refl =>
    subst hX
    exact ⟨_, .refl _, rfl, ⟨[], [], [], [], .top _, .top _, ⟨by simp [BreakStream.start], fun _ => rfl⟩,
      ⟨by simp [BreakStream.start], fun _ => rfl⟩⟩, hA, hB, nofun, nofun⟩
  | step _ hs ih =>
    obtain ⟨y, h1, h2⟩ := ih
    exact h2.step hE h1 hs

theorem breakStream_stuck {X : BreakStream α β} (hd : X.alive = false) (hs : BreakStream.Stuck E X) :
    (∃ r, X.a = .ret r) ∧ ∃ r, X.b = .ret r := by
  have key : ∀ {α β : Type} {X : BreakStream α β} {o : StreamOp} {k}, X.alive = false → X.a = .op (S := stream) o k →
      ∃ Y, BreakStream.Half E X Y := by
    rintro α β ⟨a, b, ab, ba, v⟩ o k hd rfl
    cases hd
    cases o with
    | write d => exact ⟨_, .lost d k⟩
    | drain => exact ⟨_, .drain k⟩
    | readexactly n =>
      by_cases hn : n < 0
      · exact ⟨_, .value n k hn⟩
      · by_cases hl : (ba.length : Int) < n
        · exact ⟨_, .eof n k hl⟩
        · have := BreakStream.Half.read (E := E) (b := b) (ab := ab) (rest := ba.drop n.toNat) (v := false) n (ba.take n.toNat) k
            (by rw [List.length_take]; omega)
          rw [List.take_append_drop] at this
          exact ⟨_, this⟩
  constructor
  · cases ha : X.a with
    | ret r => exact ⟨r, rfl⟩
    | op o k =>
      obtain ⟨Y, h⟩ := key hd ha
      exact absurd (.a h) (hs Y)
  · cases ha : X.b with
    | ret r => exact ⟨r, rfl⟩
    | op o k =>
      obtain ⟨Y, h⟩ := key (X := X.swap) hd ha
      exact absurd (.b (y := Y.swap) h) (hs Y.swap)

theorem StreamSt.returned {v w : Bool} {p : IT appSig α} {c rest : Bytes} {r : α} (hp : ShortWritesP p)
    (h : StreamSt v w p (.ret r) c rest) : p = .ret r := by
  generalize hP : (.ret r : IT stream α) = P at h
  cases h with
  | top =>
    cases p with
    | ret r' => cases hP; rfl
    | op e k0 =>
      cases e with
      | read => rw [onAsyncio_read] at hP; cases hP
      | write ms l =>
        rw [onAsyncio_write l k0 hp.1] at hP
        cases ms <;> cases hP
  | writing ms l k0 ms' hw => cases ms' <;> cases hP
  | body => cases hP

end Salt
