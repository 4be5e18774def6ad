import Verif.Spec.AioNet
import Verif.Spec.SockNet
import Verif.Lemmas.TaskSim
import Verif.Props.Framing

/-!
# Tasks on asyncio streams behave like tasks exchanging messages
-/

set_option linter.unusedSimpArgs false
set_option linter.unusedSectionVars false

namespace Salt

open Spec Props

section
variable {ι σ α : Type} [DecidableEq ι] {L : Lib} {c : Clock}

/-- The coroutine never reads messages. -/
def NoRead : IT (sh σ) α → Prop
  | .ret _ => True
  | .op (.env .read) _ => False
  | .op _ k => ∀ r, NoRead (k r)

theorem frames_cons (m : Bytes) (ms : List Bytes) : frames (m :: ms) = frame m ++ frames ms := by simp [frames]

theorem frameMsg_short {m : Bytes} (h : m.length < 2 ^ 31) : frameMsg m = .ok (frame m) := by
  simp only [frameMsg, frame, packI, if_pos h]

theorem aio_writeAll (t : ι) (ms : List Bytes) (hms : ∀ m ∈ ms, m.length < 2 ^ 31) (rt : AioRt ι σ) (hc : rt.closed = false)
    (f : Except Err Unit × Unit → IT (aio σ) α) :
    aioBlock L c t ((Aio.embed (AsyncioChannel.writeAll ms ())).bind f) rt =
      ((aioBlock L c t (f (.ok (), ())) rt).1, (aioBlock L c t (f (.ok (), ())) rt).2.1,
        frames ms ++ (aioBlock L c t (f (.ok (), ())) rt).2.2) := by
  induction ms with
  | nil => rfl
  | cons m ms ih =>
    have h1 : AsyncioChannel.writeAll (m :: ms) () =
        .op (S := stream) (.write (frame m)) fun
          | .ok _ => AsyncioChannel.writeAll ms ()
          | .error e => .ret (.error e, ()) := by
      rw [AsyncioChannel.writeAll, frameMsg_short (hms m (by simp))]
      show IT.op (S := stream) _ _ = _
      congr 1
      funext r
      cases r <;> rfl
    rw [h1]
    have h2 : aioBlock L c t ((Aio.embed (IT.op (S := stream) (.write (frame m)) fun
          | .ok _ => AsyncioChannel.writeAll ms ()
          | .error e => .ret (.error e, ()))).bind f) rt =
        let x := aioBlock L c t ((Aio.embed (AsyncioChannel.writeAll ms ())).bind f) rt
        (x.1, x.2.1, if rt.closed then x.2.2 else frame m ++ x.2.2) := rfl
    rw [h2, ih fun m hm => hms m (by simp [hm]), hc]
    simp [frames_cons]

theorem embed_bind {γ δ : Type} (t : IT stream γ) (f : γ → IT stream δ) :
    Aio.embed (σ := σ) (t.bind f) = (Aio.embed t).bind fun x => Aio.embed (f x) := by
  induction t with
  | ret x => rfl
  | op e k ih => simp only [IT.bind, Aio.embed, ih]

theorem aio_write (t : ι) (ms : List Bytes) (l : Bool) (hms : ∀ m ∈ ms, m.length < 2 ^ 31) (rt : AioRt ι σ)
    (hc : rt.closed = false) (f : Except Err Unit → IT (aio σ) α) :
    aioBlock L c t ((Aio.handle (.write ms l)).bind f) rt = (f (.ok ()), rt, frames ms) := by
  simp only [Aio.handle, AsyncioChannel.write, Py.bind_run, embed_bind, IT.bind_assoc]
  rw [aio_writeAll t ms hms rt hc]
  show (f (.ok ()), rt, frames ms ++ []) = _
  rw [List.append_nil]

/-- The second half of `AsyncioChannel.read`: the length prefix has been consumed. -/
def bodyRead (n : Int) (f : Except Err Bytes → IT (aio σ) α) : IT (aio σ) α :=
  .op (S := aio σ) (.stream (.readexactly n)) f

theorem aio_read (f : Except Err Bytes → IT (aio σ) α) : (Aio.handle .read).bind f =
    .op (S := aio σ) (.stream (.readexactly 4)) fun
      | .ok b => bodyRead (unpackI b) f
      | .error e => f (.error e) := by
  show IT.op (S := aio σ) (.stream (.readexactly 4)) _ = _
  congr 1
  funext r
  cases r <;> rfl

theorem aio_local (t : ι) (e : EnvOp) (he : e ≠ .read) (he' : ∀ ms l, e ≠ .write ms l) (rt : AioRt ι σ)
    (f : Except Err e.Resp → IT (aio σ) α) : aioBlock L c t ((Aio.handle e).bind f) rt =
      aioBlock L c t (f (answer L c e rt.calls).1) { rt with calls := (answer L c e rt.calls).2 } := by
  cases e with
  | read => exact absurd rfl he
  | write ms l => exact absurd rfl (he' ms l)
  | _ => rfl

theorem block_env (e : EnvOp) (he : e ≠ .read) (he' : ∀ ms l, e ≠ .write ms l) (s : σ) (i : Nat)
    (k : Except Err e.Resp → IT (sh σ) α) : block L c (.op (S := sh σ) (.env e) k) s i =
      block L c (k (answer L c e i).1) s (answer L c e i).2 := by
  cases e with
  | read => exact absurd rfl he
  | write ms l => exact absurd rfl (he' ms l)
  | _ => rfl

theorem NoRead.env {e : EnvOp} {k : Except Err e.Resp → IT (sh σ) α} (h : NoRead (.op (S := sh σ) (.env e) k)) :
    e ≠ .read ∧ ∀ r, NoRead (k r) := by
  cases e with
  | read => exact absurd h id
  | _ => exact ⟨by simp, h⟩

/-- Running a task that never reads. -/
theorem aio_noRead (t : ι) (p : IT (sh σ) α) (hp : NoRead p) (rt : AioRt ι σ) (hc : rt.closed = false)
    {T : IT (sh σ) α} {s1 : σ} {i1 : Nat} {out : List Bytes} (hb : block L c p rt.st rt.calls = (T, s1, i1, out))
    (ho : ∀ m ∈ out, m.length < 2 ^ 31) :
    aioBlock L c t (Aio.on p) rt = (Aio.on T, { rt with st := s1, calls := i1 }, frames out) ∧ NoRead T := by
  induction p generalizing rt with
  | ret b => cases hb; exact ⟨rfl, hp⟩
  | op e k ih =>
    rcases e with _ | s' | e
    · exact ih _ (hp _) rt hc hb
    · exact ih _ (hp _) { rt with st := s' } hc hb
    · obtain ⟨he, hk⟩ := hp.env
      by_cases hw : ∃ ms l, e = .write ms l
      · obtain ⟨ms, l, rfl⟩ := hw
        simp only [block, Prod.mk.injEq] at hb
        obtain ⟨rfl, rfl, rfl, rfl⟩ := hb
        exact ⟨aio_write t _ l ho rt hc _, hk _⟩
      · simp only [not_exists] at hw
        rw [block_env e he hw] at hb
        have := ih _ (hk _) { rt with calls := (answer L c e rt.calls).2 } hc hb
        refine ⟨?_, this.2⟩
        rw [Aio.on, aio_local t e he hw]
        exact this.1

/-- A task gets messages one after the other, running to its next suspension each time. -/
inductive Gets (L : Lib) (c : Clock) : IT (sh σ) α → σ → Nat → List Bytes → IT (sh σ) α → σ → Nat → List Bytes →
    List Bytes → Prop
  | refl (T s i ms) : Gets L c T s i ms T s i ms []
  | recv {k : Except Err Bytes → IT (sh σ) α} {s i m ms T1 s1 i1 o1 T' s' i' ms' o'} :
      block L c (k (.ok m)) s i = (T1, s1, i1, o1) → Gets L c T1 s1 i1 ms T' s' i' ms' o' →
      Gets L c (.op (S := sh σ) (.env .read) k) s i (m :: ms) T' s' i' ms' (o1 ++ o')

/-- A task of the network of messages, the same task on the streams, and what of the next message it has consumed. -/
inductive TPos : IT (sh σ) α → IT (aio σ) α → Bytes → Prop
  | same (T) : TPos T (Aio.on T) []
  | body (k : Except Err Bytes → IT (sh σ) α) (n : Nat) : n < 2 ^ 31 →
      TPos (.op (S := sh σ) (.env .read) k) (bodyRead n fun r => Aio.on (k r)) (leBytes 4 n)

/-- The task needs more bytes than there are. -/
def Starved (U : IT (aio σ) α) (buf : Bytes) : Prop :=
  ∃ n k, U = .op (S := aio σ) (.stream (.readexactly (n : Nat))) k ∧ buf.length < n

/-- Where a task is after it has run. -/
structure Stops (t : ι) (rt rt' : AioRt ι σ) (T : IT (sh σ) α) (U : IT (aio σ) α) (msgs : List Bytes) (flight : Bytes) :
    Prop where
  closed : rt'.closed = false
  eof : rt'.eof = false
  ex : ∃ pre, TPos T U pre ∧ frames msgs = pre ++ rt'.buffer ++ flight ∧
    ((pre = [] ∧ rt'.waiter = none ∧ rt'.phase = rt.phase) ∨
      (rt'.waiter = some t ∧ rt'.phase = Function.update rt.phase t .pending ∧ Starved U rt'.buffer ∧ ¬ NoRead T))

theorem tryRead_ok {n : Nat} {rt : AioRt ι σ} (h : n ≤ rt.buffer.length) :
    tryRead (n : Int) rt = some (.ok (rt.buffer.take n), { rt with buffer := rt.buffer.drop n }) := by
  simp [tryRead, h]

theorem tryRead_wait {n : Nat} {rt : AioRt ι σ} (h : rt.buffer.length < n) (he : rt.eof = false) (hw : rt.waiter = none) :
    tryRead (n : Int) rt = none := by
  have h1 : ¬ (n : Int) < 0 := by omega
  have h2 : ¬ (n : Int).toNat ≤ rt.buffer.length := by simp; omega
  simp only [tryRead, if_neg h1, if_neg h2, he, hw]
  rfl

theorem leBytes_length' (w n : Nat) : (leBytes w n).length = w := by
  induction w generalizing n with
  | zero => rfl
  | succ w ih => simp [leBytes, ih]

/-- The next message starts in the buffer. -/
theorem frames_head {msgs : List Bytes} {buf flight : Bytes} (hms : ∀ m ∈ msgs, m.length < 2 ^ 31)
    (h : frames msgs = buf ++ flight) (h4 : 4 ≤ buf.length) :
    ∃ m ms, msgs = m :: ms ∧ buf.take 4 = leBytes 4 m.length ∧ m.length < 2 ^ 31 ∧
      frames (m :: ms) = leBytes 4 m.length ++ buf.drop 4 ++ flight := by
  cases msgs with
  | nil =>
    have := congrArg List.length h
    simp [frames] at this
    omega
  | cons m ms =>
    have h1 : buf.take 4 = leBytes 4 m.length := by
      have := congrArg (List.take 4) h
      rw [frames_cons, frame_take4, List.take_append_of_le_length h4] at this
      exact this.symm
    refine ⟨m, ms, rfl, h1, hms m (by simp), ?_⟩
    rw [h, ← h1, List.take_append_drop]

/-- The next message is in the buffer. -/
theorem frames_body {msgs : List Bytes} {buf flight : Bytes} {n : Nat} (hms : ∀ m ∈ msgs, m.length < 2 ^ 31)
    (hn : n < 2 ^ 31) (h : frames msgs = leBytes 4 n ++ buf ++ flight) :
    ∃ m ms, msgs = m :: ms ∧ m.length = n ∧ (n ≤ buf.length → buf.take n = m ∧ frames ms = buf.drop n ++ flight) := by
  cases msgs with
  | nil =>
    have := congrArg List.length h
    simp [frames, leBytes_length'] at this
    omega
  | cons m ms =>
    rw [frames_cons] at h
    have h1 : leBytes 4 m.length = leBytes 4 n := by
      have := congrArg (List.take 4) h
      rwa [frame_take4, List.append_assoc, List.take_append_of_le_length (by simp [leBytes_length']),
        List.take_of_length_le (by simp [leBytes_length'])] at this
    have h2 : m.length = n := by
      have := congrArg unpackI h1
      rw [unpackI_leBytes (hms m (by simp)), unpackI_leBytes hn] at this
      exact_mod_cast this
    refine ⟨m, ms, rfl, h2, fun hb => ?_⟩
    have h3 : m ++ frames ms = buf ++ flight := by
      have := congrArg (List.drop 4) h
      rwa [frame_drop4, List.append_assoc, List.drop_append_of_le_length (by simp [leBytes_length']),
        List.drop_of_length_le (by simp [leBytes_length']), List.nil_append] at this
    have h4 : buf.take n = m := by
      have := congrArg (List.take n) h3
      rw [List.take_append_of_le_length (by omega), List.take_of_length_le (by omega),
        List.take_append_of_le_length hb] at this
      exact this.symm
    refine ⟨h4, ?_⟩
    have := congrArg (List.drop n) h3
    rwa [List.drop_append_of_le_length (by omega), List.drop_of_length_le (by omega), List.nil_append,
      List.drop_append_of_le_length hb] at this

/-- What is known when a task that may read gets control, and what to prove. -/
def RunsTo (L : Lib) (c : Clock) (t : ι) (p : IT (sh σ) α) (U : IT (aio σ) α) : Prop :=
  ∀ (rt : AioRt ι σ) (msgs : List Bytes) (flight : Bytes) (T : IT (sh σ) α) (s1 : σ) (i1 : Nat) (o1 : List Bytes),
    rt.waiter = none → rt.eof = false → rt.closed = false → frames msgs = rt.buffer ++ flight →
    (∀ m ∈ msgs, m.length < 2 ^ 31) → block L c p rt.st rt.calls = (T, s1, i1, o1) →
    (∀ T' s' i' msgs' o', Gets L c T s1 i1 msgs T' s' i' msgs' o' → ∀ m ∈ o1 ++ o', m.length < 2 ^ 31) →
    ∃ T' s' i' msgs' o' rt' U', Gets L c T s1 i1 msgs T' s' i' msgs' o' ∧
      aioBlock L c t U rt = (U', rt', frames (o1 ++ o')) ∧ rt'.st = s' ∧ rt'.calls = i' ∧ Stops t rt rt' T' U' msgs' flight

/-- The second half of a read. -/
theorem aio_body (t : ι) (k : Except Err Bytes → IT (sh σ) α) (ih : ∀ m, RunsTo L c t (k (.ok m)) (Aio.on (k (.ok m))))
    {n : Nat} (hn : n < 2 ^ 31) (rt : AioRt ι σ) (msgs : List Bytes) (flight : Bytes) (hw : rt.waiter = none)
    (he : rt.eof = false) (hc : rt.closed = false) (hf : frames msgs = leBytes 4 n ++ rt.buffer ++ flight)
    (hms : ∀ m ∈ msgs, m.length < 2 ^ 31)
    (hsh : ∀ T' s' i' msgs' o', Gets L c (.op (S := sh σ) (.env .read) k) rt.st rt.calls msgs T' s' i' msgs' o' →
      ∀ m ∈ o', m.length < 2 ^ 31) :
    ∃ T' s' i' msgs' o' rt' U', Gets L c (.op (S := sh σ) (.env .read) k) rt.st rt.calls msgs T' s' i' msgs' o' ∧
      aioBlock L c t (bodyRead n fun r => Aio.on (k r)) rt = (U', rt', frames o') ∧ rt'.st = s' ∧ rt'.calls = i' ∧
      Stops t rt rt' T' U' msgs' flight := by
  obtain ⟨m, ms, rfl, hm, hb⟩ := frames_body hms hn hf
  by_cases hl : n ≤ rt.buffer.length
  · obtain ⟨h1, h2⟩ := hb hl
    obtain ⟨⟨T1, s1, i1, o1⟩, hblk⟩ : ∃ x, block L c (k (.ok m)) rt.st rt.calls = x := ⟨_, rfl⟩
    obtain ⟨T', s', i', msgs', o', rt', U', g, e1, e2, e3, e4⟩ := ih m { rt with buffer := rt.buffer.drop n } ms flight T1 s1 i1 o1
      hw he hc h2 (fun m hm => hms m (by simp [hm])) hblk fun T' s' i' msgs' o' g => hsh _ _ _ _ _ (.recv hblk g)
    refine ⟨T', s', i', msgs', o1 ++ o', rt', U', .recv hblk g, ?_, e2, e3, ⟨e4.closed, e4.eof, e4.ex⟩⟩
    rw [bodyRead, aioBlock, tryRead_ok hl, h1]
    exact e1
  · refine ⟨_, _, _, _, [], { rt with waiter := some t, phase := Function.update rt.phase t .pending },
      bodyRead n fun r => Aio.on (k r), .refl _ _ _ _, ?_, rfl, rfl, ?_⟩
    · rw [bodyRead, aioBlock, tryRead_wait (by omega) he hw]
      rfl
    · exact ⟨hc, he, _, .body k n hn, hf, .inr ⟨rfl, rfl, ⟨n, _, rfl, by simpa using hl⟩, id⟩⟩

/-- Running a task that may read, when no other task waits for data. -/
theorem aio_runs (t : ι) (p : IT (sh σ) α) : RunsTo L c t p (Aio.on p) := by
  induction p with
  | ret b =>
    intro rt msgs flight T s1 i1 o1 hw he hc hf hms hb hsh
    cases hb
    exact ⟨_, _, _, _, [], rt, _, .refl _ _ _ _, rfl, rfl, rfl, hc, he, [], .same _, hf, .inl ⟨rfl, hw, rfl⟩⟩
  | op e k ih =>
    intro rt msgs flight T s1 i1 o1 hw he hc hf hms hb hsh
    rcases e with _ | s' | e
    · exact ih _ rt msgs flight T s1 i1 o1 hw he hc hf hms hb hsh
    · obtain ⟨T', s', i', msgs', o', rt', U', g, e1, e2, e3, e4⟩ := ih _ { rt with st := s' } msgs flight T s1 i1 o1 hw he hc hf hms hb hsh
      exact ⟨T', s', i', msgs', o', rt', U', g, e1, e2, e3, e4.closed, e4.eof, e4.ex⟩
    · by_cases hr : e = .read
      · subst hr
        cases hb
        simp only [List.nil_append] at hsh ⊢
        by_cases h4 : 4 ≤ rt.buffer.length
        · obtain ⟨m, ms, rfl, h1, h2, h3⟩ := frames_head hms hf h4
          obtain ⟨T', s', i', msgs', o', rt', U', g, e1, e2, e3, e4⟩ := aio_body (L := L) (c := c) t k (fun m => ih (.ok m)) h2
            { rt with buffer := rt.buffer.drop 4 } (m :: ms) flight hw he hc h3 hms hsh
          refine ⟨T', s', i', msgs', o', rt', U', g, ?_, e2, e3, e4.closed, e4.eof, e4.ex⟩
          rw [Aio.on, aio_read, aioBlock, show (4 : Int) = ((4 : Nat) : Int) from rfl, tryRead_ok h4, h1]
          simp only [unpackI_leBytes h2]
          exact e1
        · refine ⟨_, _, _, _, [], { rt with waiter := some t, phase := Function.update rt.phase t .pending },
            Aio.on (.op (S := sh σ) (.env .read) k), .refl _ _ _ _, ?_, rfl, rfl, hc, he, [], .same _, hf,
            .inr ⟨rfl, rfl, ⟨4, _, aio_read _, by simpa using h4⟩, id⟩⟩
          rw [Aio.on, aio_read, aioBlock, show (4 : Int) = ((4 : Nat) : Int) from rfl, tryRead_wait (by omega) he hw]
          rfl
      · by_cases hwr : ∃ ms l, e = .write ms l
        · obtain ⟨ms, l, rfl⟩ := hwr
          simp only [block, Prod.mk.injEq] at hb
          obtain ⟨rfl, rfl, rfl, rfl⟩ := hb
          have ho : ∀ m ∈ ms, m.length < 2 ^ 31 := by
            intro m hm
            exact hsh _ _ _ _ _ (.refl _ _ _ _) m (by simpa using hm)
          refine ⟨_, _, _, _, [], rt, _, .refl _ _ _ _, ?_, rfl, rfl, hc, he, [], .same _, hf, .inl ⟨rfl, hw, rfl⟩⟩
          rw [List.append_nil]
          exact aio_write t ms l ho rt hc _
        · simp only [not_exists] at hwr
          rw [block_env e hr hwr] at hb
          obtain ⟨T', s', i', msgs', o', rt', U', g, e1, e2, e3, e4⟩ := ih _ { rt with calls := (answer L c e rt.calls).2 } msgs flight T s1 i1 o1 hw he hc hf hms hb hsh
          refine ⟨T', s', i', msgs', o', rt', U', g, ?_, e2, e3, e4.closed, e4.eof, e4.ex⟩
          rw [Aio.on, aio_local t e hr hwr]
          exact e1

/-! ### Networks -/

/-- The tasks of a network of messages, on `AsyncioChannel`s. -/
def onStreams {κ τ β : Type} (X : TaskNet ι κ σ τ α β) : AioNet ι κ σ τ α β :=
  ⟨⟨fun t => Aio.on (X.a.tasks t), ⟨X.a.st, X.a.calls, [], false, none, fun _ => .idle, false⟩⟩,
    ⟨fun t => Aio.on (X.b.tasks t), ⟨X.b.st, X.b.calls, [], false, none, fun _ => .idle, false⟩⟩, [], []⟩

/-- One side of a network of messages and the same side on the streams. -/
structure SideRel (x : Loop ι σ α) (y : AioSide ι σ α) (msgs : List Bytes) (flight : Bytes) : Prop where
  st : y.rt.st = x.st
  calls : y.rt.calls = x.calls
  closed : y.rt.closed = false
  eof : y.rt.eof = false
  one : ∀ t t', t ≠ t' → NoRead (x.tasks t) ∨ NoRead (x.tasks t')
  ex : ∃ pre : ι → Bytes, (∀ t, TPos (x.tasks t) (y.tasks t) (pre t)) ∧ ∃ P, frames msgs = P ++ y.rt.buffer ++ flight ∧
    ((∀ t, pre t = []) ∧ P = [] ∨ ∃ t, pre t = P ∧ ∀ u, u ≠ t → pre u = [])
  reads : ∀ t, y.rt.phase t ≠ .idle → ¬ NoRead (x.tasks t)
  pend : ∀ t, y.rt.phase t = .pending → y.rt.waiter = some t ∧ Starved (y.tasks t) y.rt.buffer
  wait : ∀ t, y.rt.waiter = some t → y.rt.phase t = .pending

theorem SideRel.send {x : Loop ι σ α} {y : AioSide ι σ α} {msgs : List Bytes} {flight : Bytes} (h : SideRel x y msgs flight)
    (out : List Bytes) : SideRel x y (msgs ++ out) (flight ++ frames out) := by
  obtain ⟨pre, h1, P, h2, h3⟩ := h.ex
  exact { h with ex := ⟨pre, h1, P, by rw [frames_append, h2]; simp, h3⟩ }

theorem SideRel.feed {x : Loop ι σ α} {y : AioSide ι σ α} {msgs : List Bytes} {chunk flight : Bytes}
    (h : SideRel x y msgs (chunk ++ flight)) : SideRel x (y.feed chunk) msgs flight := by
  obtain ⟨pre, h1, P, h2, h3⟩ := h.ex
  have h2' : frames msgs = P ++ (y.rt.buffer ++ chunk) ++ flight := by rw [h2]; simp
  cases hw : y.rt.waiter with
  | none =>
    have e : y.feed chunk = ⟨y.tasks, { y.rt with buffer := y.rt.buffer ++ chunk }⟩ := by
      simp only [AioSide.feed, AioRt.wake, hw]
    rw [e]
    refine ⟨h.st, h.calls, h.closed, h.eof, h.one, ⟨pre, h1, P, h2', h3⟩, h.reads, fun t ht => ?_, h.wait⟩
    have := (h.pend t ht).1
    rw [hw] at this
    cases this
  | some u =>
    have e : y.feed chunk = ⟨y.tasks, ⟨y.rt.st, y.rt.calls, y.rt.buffer ++ chunk, y.rt.eof, none,
        Function.update y.rt.phase u .woken, y.rt.closed⟩⟩ := by
      simp only [AioSide.feed, AioRt.wake, hw]
    rw [e]
    refine ⟨h.st, h.calls, h.closed, h.eof, h.one, ⟨pre, h1, P, h2', h3⟩, fun t ht => ?_, fun t ht => ?_,
      fun t ht => by cases ht⟩
    · by_cases htu : t = u
      · subst htu
        exact h.reads t (by rw [h.wait t hw]; simp)
      · simp only [Function.update_of_ne htu] at ht
        exact h.reads t ht
    · by_cases htu : t = u
      · subst htu
        simp at ht
      · simp only [Function.update_of_ne htu] at ht
        have := (h.pend t ht).1
        rw [hw] at this
        exact absurd (Option.some.inj this).symm htu

variable {κ τ β : Type} [DecidableEq κ] {ca cb : Clock}

theorem Spec.TaskNet.Reach.trans {X Y Z : TaskNet ι κ σ τ α β} (h : TaskNet.Reach L ca cb X Y) (h' : TaskNet.Reach L ca cb Y Z) :
    TaskNet.Reach L ca cb X Z := by
  induction h' with
  | refl => exact h
  | step _ s ih => exact .step ih s

theorem Spec.TaskNet.Reach.swap {X Y : TaskNet ι κ σ τ α β} (h : TaskNet.Reach L ca cb X Y) :
    TaskNet.Reach L cb ca X.swap Y.swap := by
  induction h with
  | refl => exact .refl _
  | step _ s ih => exact .step ih s.swap

theorem block_reach (x : Loop ι σ α) (b : Loop κ τ β) (ab ba : List Bytes) (t : ι) {T : IT (sh σ) α} {s1 : σ} {i1 : Nat}
    {o1 : List Bytes} (hb : block L ca (x.tasks t) x.st x.calls = (T, s1, i1, o1)) :
    TaskNet.Reach L ca cb ⟨x, b, ab, ba⟩ ⟨⟨Function.update x.tasks t T, s1, i1⟩, b, ab ++ o1, ba⟩ := by
  by_cases hr : Ready (x.tasks t)
  · have := TaskNet.Step.aRun (L := L) (ca := ca) (cb := cb) (a := x) (b := b) (ab := ab) (ba := ba) t hr
    simp only [Loop.run, hb] at this
    exact .step (.refl _) this
  · have : (T, s1, i1, o1) = (x.tasks t, x.st, x.calls, []) := by
      rw [← hb]
      generalize x.tasks t = p at hr
      cases p with
      | ret => rfl
      | op e k =>
        rcases e with _ | _ | e
        · exact absurd trivial hr
        · exact absurd trivial hr
        · cases e <;> first | rfl | exact absurd trivial hr
    cases this
    rw [Function.update_eq_self, List.append_nil]
    exact .refl _

theorem Gets.reach {T T' : IT (sh σ) α} {s s' : σ} {i i' : Nat} {ms ms' o' : List Bytes}
    (h : Gets L ca T s i ms T' s' i' ms' o') (f : ι → IT (sh σ) α) (t : ι) (hf : f t = T) (b : Loop κ τ β) (ab : List Bytes) :
    TaskNet.Reach L ca cb ⟨⟨f, s, i⟩, b, ab, ms⟩ ⟨⟨Function.update f t T', s', i'⟩, b, ab ++ o', ms'⟩ := by
  induction h generalizing f ab with
  | refl T s i ms =>
    subst hf
    rw [Function.update_eq_self, List.append_nil]
    exact .refl _
  | @recv k s i m ms T1 s1 i1 o1 T' s' i' ms' o' hb g ih =>
    have h1 := TaskNet.Step.aRecv (L := L) (ca := ca) (cb := cb) (a := ⟨f, s, i⟩) (b := b) (ab := ab) (ba := ms) t m k hf
    simp only [Loop.run, hb] at h1
    have h2 := ih (Function.update f t T1) (Function.update_self _ _ _) (ab ++ o1)
    rw [Function.update_idem, List.append_assoc] at h2
    exact (TaskNet.Reach.step (.refl _) h1).trans h2

/-- Whatever happens, only messages of less than 2^31 bytes are in flight. -/
def ShortNet (L : Lib) (ca cb : Clock) (X : TaskNet ι κ σ τ α β) : Prop :=
  ∀ X', TaskNet.Reach L ca cb X X' → (∀ m ∈ X'.ab, m.length < 2 ^ 31) ∧ ∀ m ∈ X'.ba, m.length < 2 ^ 31

theorem ShortNet.reach {X X' : TaskNet ι κ σ τ α β} (h : ShortNet L ca cb X) (hr : TaskNet.Reach L ca cb X X') :
    ShortNet L ca cb X' := fun _ h' => h _ (hr.trans h')

theorem ShortNet.swap {X : TaskNet ι κ σ τ α β} (h : ShortNet L ca cb X) : ShortNet L cb ca X.swap :=
  fun _ h' => (h _ h'.swap).symm

theorem TPos.noRead {T : IT (sh σ) α} {U : IT (aio σ) α} {pre : Bytes} (h : TPos T U pre) (hn : NoRead T) :
    U = Aio.on T ∧ pre = [] := by
  cases h with
  | same => exact ⟨rfl, rfl⟩
  | body => exact absurd hn id

/-- A task of the side `a` runs. -/
theorem SideRel.run {X : TaskNet ι κ σ τ α β} {y : AioSide ι σ α} {flight : Bytes} (h : SideRel X.a y X.ba flight) (t : ι)
    (hc : y.CanRun t) (hsh : ShortNet L ca cb X) :
    ∃ X' out, TaskNet.Reach L ca cb X X' ∧ X'.b = X.b ∧ X'.ab = X.ab ++ out ∧ (y.run L ca t).2 = frames out ∧
      SideRel X'.a (y.run L ca t).1 X'.ba flight := by
  obtain ⟨⟨xt, xs, xi⟩, b, ab, ba⟩ := X
  obtain ⟨yt, rt⟩ := y
  obtain ⟨pre, h1, P, h2, h3⟩ := h.ex
  obtain ⟨rfl, rfl, hcl, heof, hone, -, hreads, hpend, hwait⟩ := h
  simp only at *
  by_cases hn : NoRead (xt t)
  · -- the task never reads
    obtain ⟨e1, e2⟩ := (h1 t).noRead hn
    have hph : rt.phase t = .idle := by
      by_contra hne
      exact hreads t hne hn
    have hres : rt.resume t = rt := by simp only [AioRt.resume, hph]
    obtain ⟨⟨T, s1, i1, o1⟩, hb⟩ : ∃ z, block L ca (xt t) rt.st rt.calls = z := ⟨_, rfl⟩
    have hr := block_reach (L := L) (ca := ca) (cb := cb) ⟨xt, rt.st, rt.calls⟩ b ab ba t hb
    have ho : ∀ m ∈ o1, m.length < 2 ^ 31 := fun m hm => (hsh _ hr).1 m (by simp [hm])
    obtain ⟨e3, e4⟩ := aio_noRead t (xt t) hn rt hcl hb ho
    refine ⟨_, o1, hr, rfl, rfl, ?_, ?_⟩
    · simp only [AioSide.run, hres, e1, e3]
    · simp only [AioSide.run, hres, e1, e3]
      have hne : ∀ u, u ≠ t → Function.update xt t T u = xt u := fun u hu => Function.update_of_ne hu _ _
      have hno : ∀ u, NoRead (xt u) → NoRead (Function.update xt t T u) := by
        intro u hu
        by_cases hut : u = t
        · subst hut; simpa using e4
        · rwa [hne u hut]
      have hyes : ∀ u, ¬ NoRead (xt u) → ¬ NoRead (Function.update xt t T u) := by
        intro u hu
        by_cases hut : u = t
        · subst hut; exact absurd hn hu
        · rwa [hne u hut]
      refine ⟨rfl, rfl, hcl, heof, fun u v huv => (hone u v huv).imp (hno u) (hno v), ⟨pre, ?_, P, h2, h3⟩,
        fun u hu => hyes u (hreads u hu), ?_, hwait⟩
      · intro u
        by_cases hut : u = t
        · subst hut
          simp only [Function.update_self]
          rw [e2]
          exact .same _
        · simp only [Function.update_of_ne hut]
          exact h1 u
      · intro u hu
        have hut : u ≠ t := by
          rintro rfl
          rw [show rt.phase u = .pending from hu] at hph
          cases hph
        simp only [Function.update_of_ne hut]
        exact hpend u hu
  · -- the task that reads: no other one does
    have hothers : ∀ u, u ≠ t → NoRead (xt u) := fun u hu => (hone t u (Ne.symm hu)).resolve_left hn
    have hidle : ∀ u, u ≠ t → rt.phase u = .idle := by
      intro u hu
      by_contra hne
      exact hreads u hne (hothers u hu)
    have hwn : rt.waiter = none := by
      cases hw : rt.waiter with
      | none => rfl
      | some u =>
        have hu := hwait u hw
        by_cases hut : u = t
        · subst hut; exact absurd hu hc.2
        · rw [hidle u hut] at hu; cases hu
    have hpre : ∀ u, u ≠ t → pre u = [] := fun u hu => ((h1 u).noRead (hothers u hu)).2
    have hP : P = pre t := by
      rcases h3 with ⟨e1, e2⟩ | ⟨t0, e1, e2⟩
      · rw [e1 t, e2]
      · by_cases h0 : t0 = t
        · subst h0; exact e1.symm
        · rw [← e1, hpre t0 h0, e2 t (Ne.symm h0)]
    obtain ⟨rt1, hrt1⟩ : ∃ r, rt.resume t = r := ⟨_, rfl⟩
    have hr1 : rt1.st = rt.st ∧ rt1.calls = rt.calls ∧ rt1.buffer = rt.buffer ∧ rt1.eof = false ∧ rt1.closed = false ∧
        rt1.waiter = none ∧ ∀ u, rt1.phase u = .idle := by
      cases hph : rt.phase t with
      | idle =>
        simp only [AioRt.resume, hph] at hrt1
        subst hrt1
        refine ⟨rfl, rfl, rfl, heof, hcl, hwn, fun u => ?_⟩
        by_cases hut : u = t
        · subst hut; exact hph
        · exact hidle u hut
      | pending => exact absurd hph hc.2
      | woken =>
        simp only [AioRt.resume, hph] at hrt1
        subst hrt1
        refine ⟨rfl, rfl, rfl, heof, hcl, rfl, fun u => ?_⟩
        by_cases hut : u = t
        · subst hut; simp
        · simp only [Function.update_of_ne hut]
          exact hidle u hut
    obtain ⟨r1, r2, r3, r4, r5, r6, r7⟩ := hr1
    have hms : ∀ m ∈ ba, m.length < 2 ^ 31 := (hsh _ (.refl _)).2
    -- what has to be shown about where the task stops
    suffices hk : ∃ T' s' i' msgs' o' rt' U',
        TaskNet.Reach L ca cb ⟨⟨xt, rt.st, rt.calls⟩, b, ab, ba⟩ ⟨⟨Function.update xt t T', s', i'⟩, b, ab ++ o', msgs'⟩ ∧
        aioBlock L ca t (yt t) rt1 = (U', rt', frames o') ∧ rt'.st = s' ∧ rt'.calls = i' ∧ Stops t rt1 rt' T' U' msgs' flight by
      obtain ⟨T', s', i', msgs', o', rt', U', g1, g2, rfl, rfl, g3⟩ := hk
      refine ⟨_, o', g1, rfl, rfl, ?_, ?_⟩
      · simp only [AioSide.run, hrt1, g2]
      · simp only [AioSide.run, hrt1, g2]
        obtain ⟨pre1, p1, p2, p3⟩ := g3.ex
        refine ⟨rfl, rfl, g3.closed, g3.eof, ?_, ⟨Function.update pre t pre1, ?_, pre1, p2, .inr ⟨t, ?_, ?_⟩⟩, ?_, ?_, ?_⟩
        · intro u v huv
          by_cases hu : u = t
          · subst hu
            right
            simp only [Function.update_of_ne (Ne.symm huv)]
            exact hothers v (Ne.symm huv)
          · left
            simp only [Function.update_of_ne hu]
            exact hothers u hu
        · intro u
          by_cases hu : u = t
          · subst hu; simpa using p1
          · simp only [Function.update_of_ne hu]
            exact h1 u
        · simp
        · intro u hu
          rw [Function.update_of_ne hu]
          exact hpre u hu
        · intro u hu
          rcases p3 with ⟨-, -, q⟩ | ⟨-, q1, -, q2⟩
          · exact absurd (by simp only [q, r7]) hu
          · by_cases hut : u = t
            · subst hut; simpa using q2
            · simp only [q1, Function.update_of_ne hut, r7] at hu
              exact absurd rfl hu
        · intro u hu
          rcases p3 with ⟨-, -, q⟩ | ⟨q0, q1, q2, -⟩
          · simp only [q, r7] at hu; cases hu
          · by_cases hut : u = t
            · subst hut
              refine ⟨q0, ?_⟩
              simpa using q2
            · simp only [q1, Function.update_of_ne hut, r7] at hu
              cases hu
        · intro u hu
          rcases p3 with ⟨-, q, -⟩ | ⟨q0, q1, -, -⟩
          · simp only [q] at hu; cases hu
          · simp only [q0, Option.some.injEq] at hu
            subst hu
            simp only [q1, Function.update_self]
    have hpos := h1 t
    rw [← hP] at hpos
    generalize hT : xt t = T0 at hpos
    generalize hU : yt t = U0 at hpos ⊢
    cases hpos with
    | same =>
      obtain ⟨⟨T, s1, i1, o1⟩, hb⟩ : ∃ z, block L ca T0 rt1.st rt1.calls = z := ⟨_, rfl⟩
      have hb' : block L ca (xt t) rt.st rt.calls = (T, s1, i1, o1) := by rw [hT, ← r1, ← r2]; exact hb
      have hr := block_reach (L := L) (ca := ca) (cb := cb) ⟨xt, rt.st, rt.calls⟩ b ab ba t hb'
      have hg : ∀ {T' s' i' msgs' o'}, Gets L ca T s1 i1 ba T' s' i' msgs' o' → TaskNet.Reach L ca cb
          ⟨⟨xt, rt.st, rt.calls⟩, b, ab, ba⟩ ⟨⟨Function.update xt t T', s', i'⟩, b, ab ++ (o1 ++ o'), msgs'⟩ := by
        intro T' s' i' msgs' o' g
        have := g.reach (cb := cb) (Function.update xt t T) t (Function.update_self _ _ _) b (ab ++ o1)
        rw [Function.update_idem, List.append_assoc] at this
        exact hr.trans this
      obtain ⟨T', s', i', msgs', o', rt', U', g, e1, e2, e3, e4⟩ := aio_runs t T0 rt1 ba flight T s1 i1 o1 r6 r4 r5
        (by rw [h2, r3]; simp) hms hb fun T' s' i' msgs' o' g m hm => (hsh _ (hg g)).1 m (List.mem_append_right _ hm)
      exact ⟨T', s', i', msgs', o1 ++ o', rt', U', hg g, e1, e2, e3, e4⟩
    | body k n hn' =>
      have hg : ∀ {T' s' i' msgs' o'}, Gets L ca (.op (S := sh σ) (.env .read) k) rt1.st rt1.calls ba T' s' i' msgs' o' →
          TaskNet.Reach L ca cb ⟨⟨xt, rt.st, rt.calls⟩, b, ab, ba⟩
            ⟨⟨Function.update xt t T', s', i'⟩, b, ab ++ o', msgs'⟩ := by
        intro T' s' i' msgs' o' g
        rw [r1, r2] at g
        exact g.reach (cb := cb) xt t hT b ab
      obtain ⟨T', s', i', msgs', o', rt', U', g, e1, e2, e3, e4⟩ := aio_body (L := L) (c := ca) t k (fun m => aio_runs t _) hn'
        rt1 ba flight r6 r4 r5 (by rw [h2, r3]) hms fun T' s' i' msgs' o' g m hm =>
          (hsh _ (hg g)).1 m (List.mem_append_right _ hm)
      exact ⟨T', s', i', msgs', o', rt', U', hg g, e1, e2, e3, e4⟩

/-- A network of messages and the same network on the streams. -/
structure NetRel (X : TaskNet ι κ σ τ α β) (Y : AioNet ι κ σ τ α β) : Prop where
  a : SideRel X.a Y.a X.ba Y.ba
  b : SideRel X.b Y.b X.ab Y.ab

theorem NetRel.step {X : TaskNet ι κ σ τ α β} {Y Z : AioNet ι κ σ τ α β} (h : NetRel X Y) (hsh : ShortNet L ca cb X)
    (hs : AioNet.Step L ca cb Y Z) : ∃ X', TaskNet.Reach L ca cb X X' ∧ NetRel X' Z := by
  obtain ⟨ha, hb⟩ := h
  cases hs with
  | aRun t hc =>
    obtain ⟨X', out, h1, h2, h3, h4, h5⟩ := ha.run t hc hsh
    refine ⟨X', h1, h5, ?_⟩
    rw [h2, h3]
    simp only [h4]
    exact hb.send out
  | bRun t hc =>
    obtain ⟨X', out, h1, h2, h3, h4, h5⟩ := SideRel.run (X := X.swap) (cb := ca) hb t hc hsh.swap
    refine ⟨X'.swap, h1.swap, ?_, h5⟩
    show SideRel X'.b _ X'.ab _
    rw [h2, h3]
    simp only [h4]
    exact ha.send out
  | aFeed chunk _ _ => exact ⟨X, .refl _, ha.feed, hb⟩
  | bFeed chunk _ _ => exact ⟨X, .refl _, ha, hb.feed⟩
  | aEof _ h =>
    rcases h with h | ⟨h, -⟩
    · exact absurd h (by rw [ha.closed]; simp)
    · exact absurd h (by rw [hb.closed]; simp)
  | bEof _ h =>
    rcases h with h | ⟨h, -⟩
    · exact absurd h (by rw [hb.closed]; simp)
    · exact absurd h (by rw [ha.closed]; simp)

theorem NetRel.reach {X : TaskNet ι κ σ τ α β} {Y Z : AioNet ι κ σ τ α β} (h : NetRel X Y) (hsh : ShortNet L ca cb X)
    (hr : AioNet.Reach L ca cb Y Z) : ∃ X', TaskNet.Reach L ca cb X X' ∧ NetRel X' Z := by
  induction hr with
  | refl => exact ⟨X, .refl _, h⟩
  | step _ s ih =>
    obtain ⟨X1, h1, h2⟩ := ih
    obtain ⟨X2, h3, h4⟩ := h2.step (hsh.reach h1) s
    exact ⟨X2, h1.trans h3, h4⟩

theorem on_ret {T : IT (sh σ) α} {r : α} (h : Aio.on T = .ret r) :
    T = .ret r ∨ ∃ m ms l k, T = .op (S := sh σ) (.env (.write (m :: ms) l)) k ∧ ¬ m.length < 2 ^ 31 := by
  cases T with
  | ret b => injection h with h; rw [h]; exact .inl rfl
  | op e k =>
    rcases e with _ | _ | e
    · cases h
    · cases h
    · cases e with
      | read => cases h
      | write ms l =>
        cases ms with
        | nil => cases h
        | cons m ms =>
          refine .inr ⟨m, ms, l, k, rfl, fun hm => ?_⟩
          simp only [Aio.on, Aio.handle, AsyncioChannel.write, AsyncioChannel.writeAll, Py.bind_run, frameMsg_short hm] at h
          cases h
      | _ => cases h

theorem ShortNet.write {X : TaskNet ι κ σ τ α β} (h : ShortNet L ca cb X) {t : ι} {m : Bytes} {ms : List Bytes} {l : Bool}
    {k : Except Err Unit → IT (sh σ) α} (ht : X.a.tasks t = .op (S := sh σ) (.env (.write (m :: ms) l)) k) :
    m.length < 2 ^ 31 := by
  obtain ⟨x, b, ab, ba⟩ := X
  have := block_reach (L := L) (ca := ca) (cb := cb) x b ab ba t (T := k (.ok ())) (s1 := x.st) (i1 := x.calls)
    (o1 := m :: ms) (by rw [show x.tasks t = _ from ht]; rfl)
  exact (h _ this).1 m (by simp)

theorem NetRel.result {X : TaskNet ι κ σ τ α β} {y : AioSide ι σ α} {flight : Bytes} (h : SideRel X.a y X.ba flight)
    (hsh : ShortNet L ca cb X) {t : ι} {r : α} (hr : y.tasks t = .ret r) : X.a.tasks t = .ret r := by
  obtain ⟨pre, h1, -⟩ := h.ex
  have hp := h1 t
  rw [hr] at hp
  generalize hT : X.a.tasks t = T at hp
  generalize hU : IT.ret r = U at hp
  generalize pre t = pr at hp
  cases hp with
  | same =>
    rcases on_ret hU.symm with h | ⟨m, ms, l, k, rfl, hm⟩
    · exact h
    · exact absurd (hsh.write hT) hm
  | body => cases hU

/-- When nothing more can happen on a side: its tasks have returned or wait, and if one waits, no message is left. -/
theorem SideRel.final {X : TaskNet ι κ σ τ α β} {y : AioSide ι σ α} (h : SideRel X.a y X.ba [])
    (hsh : ShortNet L ca cb X) (hs : ∀ t, ¬ y.CanRun t) :
    (∀ t, ¬ Ready (X.a.tasks t)) ∧ ((∃ t, AtRead (X.a.tasks t)) → X.ba = []) ∧
      ∀ t, AtRead (X.a.tasks t) → (∃ n k, y.tasks t = .op (S := aio σ) (.stream (.readexactly n)) k) ∧ y.rt.phase t = .pending := by
  have hpend : ∀ t, (∀ r, X.a.tasks t ≠ .ret r) → y.rt.phase t = .pending := by
    intro t ht
    by_contra hne
    exact hs t ⟨fun b hb => ht b (NetRel.result h hsh hb), hne⟩
  have hms : ∀ m ∈ X.ba, m.length < 2 ^ 31 := (hsh _ (.refl _)).2
  obtain ⟨pre, h1, P, h2, h3⟩ := h.ex
  refine ⟨?_, ?_, ?_⟩
  · intro t ht
    obtain ⟨-, n, k, h5, h6⟩ := h.pend t (hpend t (by intro r hr; rw [hr] at ht; exact ht))
    have hp := h1 t
    rw [h5] at hp
    generalize hT : X.a.tasks t = T at hp ht
    generalize hU : IT.op (S := aio σ) (.stream (.readexactly (n : Nat))) k = U at hp
    generalize pre t = pr at hp
    cases hp with
    | same =>
      cases T with
      | ret => exact ht
      | op e k' =>
        rcases e with _ | _ | e
        · cases hU
        · cases hU
        · cases e with
          | read => exact ht
          | write ms l =>
            cases ms with
            | nil => cases hU
            | cons m ms =>
              simp only [Aio.on, Aio.handle, AsyncioChannel.write, AsyncioChannel.writeAll, Py.bind_run,
                frameMsg_short (hsh.write hT)] at hU
              cases hU
          | _ => cases hU
    | body => exact ht
  · rintro ⟨t, ht⟩
    have hn : ¬ NoRead (X.a.tasks t) := by
      generalize X.a.tasks t = T at ht
      cases T with
      | ret => exact absurd ht id
      | op e k =>
        rcases e with _ | _ | e
        · exact absurd ht id
        · exact absurd ht id
        · cases e <;> first | exact id | exact absurd ht id
    have hpre : ∀ u, u ≠ t → pre u = [] := fun u hu => ((h1 u).noRead ((h.one t u (Ne.symm hu)).resolve_left hn)).2
    have hP : P = pre t := by
      rcases h3 with ⟨e1, e2⟩ | ⟨t0, e1, e2⟩
      · rw [e1 t, e2]
      · by_cases h0 : t0 = t
        · subst h0; exact e1.symm
        · rw [← e1, hpre t0 h0, e2 t (Ne.symm h0)]
    obtain ⟨-, n, k, h5, h6⟩ := h.pend t (hpend t (by intro r hr; rw [hr] at ht; exact ht))
    have hp := h1 t
    rw [h5, ← hP] at hp
    cases hba : X.ba with
    | nil => rfl
    | cons m ms =>
      exfalso
      have hlen := congrArg List.length h2
      rw [hba, frames_cons] at hlen
      simp only [frame, List.length_append, leBytes_length', List.length_nil] at hlen
      generalize X.a.tasks t = T at hp ht
      generalize hU : IT.op (S := aio σ) (.stream (.readexactly (n : Nat))) k = U at hp
      cases hp with
      | same =>
        cases T with
        | ret => exact ht
        | op e k' =>
          rcases e with _ | _ | e
          · exact ht
          · exact ht
          · cases e with
            | read =>
              have h7 : Aio.on (IT.op (S := sh σ) (.env .read) k') = _ := aio_read _
              rw [h7] at hU
              injection hU with hU _
              injection hU with hU
              injection hU with hU
              simp only [List.length_nil] at hlen
              omega
            | _ => exact ht
      | body k' n' hn' =>
        injection hU with hU _
        injection hU with hU
        injection hU with hU
        obtain ⟨m', ms', e1, e2, -⟩ := frames_body hms hn' h2
        rw [hba] at e1
        obtain ⟨rfl, rfl⟩ := List.cons.inj e1
        simp only [leBytes_length'] at hlen
        omega
  · intro t ht
    have hp := hpend t (by intro r hr; rw [hr] at ht; exact ht)
    obtain ⟨-, n, k, h5, h6⟩ := h.pend t hp
    exact ⟨⟨n, k, h5⟩, hp⟩

end

end Salt
