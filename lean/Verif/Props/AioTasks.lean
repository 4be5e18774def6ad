import Verif.Lemmas.AioPlain
import Verif.Props.Tasks

/-!
# Several tasks on asyncio streams

C92: tasks that share an `AsyncioChannel`.
-/

set_option linter.unusedSectionVars false

namespace Salt.Props

open Salt Salt.Spec

variable {ι κ α β : Type} [DecidableEq ι] [DecidableEq κ] [Fintype ι] [Fintype κ]

/-! ### Without a session -/

/-- **C92, as users would expect it.** Any number of tasks on each side may read and write at the same time. -/
def C92_claim : Prop := ∀ {ι κ α β : Type} [DecidableEq ι] [DecidableEq κ] [Fintype ι] [Fintype κ] (L : Lib) (ca cb : Clock)
  (pA : ι → IT appSig α) (pB : κ → IT appSig β), (∀ t, ShortWritesP (pA t)) → (∀ t, ShortWritesP (pB t)) →
  AioLikeDirect L ca cb pA pB (onPlain pA pB)

/-- **C92, what holds.** Any number of tasks may write on an `AsyncioChannel` while at most one of them reads: whatever the
schedule and the pieces in which the bytes arrive, all ends as if the tasks were directly connected.  Missing: several
tasks that read. -/
theorem C92_tasks_partial (L : Lib) (ca cb : Clock) (pA : ι → IT appSig α) (pB : κ → IT appSig β) (h1A : OneReader pA)
    (h1B : OneReader pB) (hA : ∀ t, ShortWritesP (pA t)) (hB : ∀ t, ShortWritesP (pB t)) :
    AioLikeDirect L ca cb pA pB (onPlain pA pB) := by
  obtain ⟨h1, h2⟩ := plain_like_direct (L := L) (ca := ca) (cb := cb) pA pB hA hB
  exact aio_like_direct (fun t t' h => (h1A t t' h).imp plain_noRead plain_noRead)
    (fun t t' h => (h1B t t' h).imp plain_noRead plain_noRead) rfl rfl h2 h1

/-- The results of tasks that talk in both directions at the same time, when all ends as if they were directly
connected. -/
theorem duplex_streams {σ τ : Type} {L : Lib} {ca cb : Clock} {outA outB : List (List Bytes)}
    {X Y : AioNet Bool Bool σ τ (List Bytes) (List Bytes)}
    (h : AioLikeDirect L ca cb (duplex outA outB.flatten.length) (duplex outB outA.flatten.length) X)
    (hY : AioNet.Reach L ca cb X Y) (hs : AioNet.Stuck L ca cb Y) :
    Y.a.tasks true = .ret [] ∧ Y.a.tasks false = .ret outB.flatten ∧
      Y.b.tasks true = .ret [] ∧ Y.b.tasks false = .ret outA.flatten := by
  obtain ⟨-, -, h⟩ := h
  obtain ⟨y, h1, -, -, h2⟩ := h Y hY
  obtain ⟨h3, h4, h5⟩ := h2 hs
  obtain ⟨r1, r2, r3, r4⟩ := duplex_ideal h1 h3
  have key : ∀ {σ : Type} {S : AioSide Bool σ (List Bytes)} {t} {p : IT appSig (List Bytes)} {r}, AioEnd S t p → p = .ret r →
      S.tasks t = .ret r := by
    intro σ S t p r h e
    cases h with
    | ret x h => cases e; exact h
    | wait => cases e
  exact ⟨key (h4 true) r1, key (h4 false) r2, key (h5 true) r3, key (h5 false) r4⟩

theorem sendAll_short {out : List (List Bytes)} (h : ∀ ms ∈ out, ∀ m ∈ ms, m.length < 2 ^ 31) : ShortWritesP (sendAll out) := by
  induction out with
  | nil => trivial
  | cons ms out ih => exact ⟨h ms (by simp), fun _ => ih fun ms' h' => h ms' (by simp [h'])⟩

theorem recvAll_short (n : Nat) (acc : List Bytes) : ShortWritesP (recvAll n acc) := by
  induction n generalizing acc with
  | zero => trivial
  | succ n ih => intro r; cases r with
    | ok m => exact ih _
    | error e => trivial

/-- **C92, full duplex.** On both sides one task writes and another reads, at the same time, and each side reads as many
messages as the other writes: whatever the schedule and the pieces in which the bytes arrive, both readers end with
exactly the messages the other side has written, in order. -/
theorem C92_duplex (L : Lib) (ca cb : Clock) (outA outB : List (List Bytes))
    (hA : ∀ ms ∈ outA, ∀ m ∈ ms, m.length < 2 ^ 31) (hB : ∀ ms ∈ outB, ∀ m ∈ ms, m.length < 2 ^ 31)
    {Y : AioNet Bool Bool Unit Unit (List Bytes) (List Bytes)}
    (hY : AioNet.Reach L ca cb (onPlain (duplex outA outB.flatten.length) (duplex outB outA.flatten.length)) Y)
    (hs : AioNet.Stuck L ca cb Y) :
    Y.a.tasks true = .ret [] ∧ Y.a.tasks false = .ret outB.flatten ∧
      Y.b.tasks true = .ret [] ∧ Y.b.tasks false = .ret outA.flatten := by
  refine duplex_streams (C92_tasks_partial L ca cb _ _ (duplex_one _ _) (duplex_one _ _) ?_ ?_) hY hs
  · rintro (_ | _)
    · exact recvAll_short _ _
    · exact sendAll_short hA
  · rintro (_ | _)
    · exact recvAll_short _ _
    · exact sendAll_short hB

/-! ### Two readers without a session -/

theorem aio_stuck {σ τ : Type} {L : Lib} {ca cb : Clock} {Y : AioNet ι κ σ τ α β} (ha : ∀ t, ¬ Y.a.CanRun t)
    (hb : ∀ t, ¬ Y.b.CanRun t) (hab : Y.ab = []) (hba : Y.ba = []) (hc : Y.a.rt.closed = false)
    (hc' : Y.b.rt.closed = false) : AioNet.Stuck L ca cb Y := by
  intro Z hZ
  cases hZ with
  | aRun t h => exact ha t h
  | aFeed c h => exact h (List.append_eq_nil_iff.1 hba).1
  | aEof _ h => simp only at hc hc'; simp [hc, hc'] at h
  | bRun t h => exact hb t h
  | bFeed c h => exact h (List.append_eq_nil_iff.1 hab).1
  | bEof _ h => simp only at hc hc'; simp [hc, hc'] at h

/-- What a task does that reads one message and ends. -/
def oneMore : Except Err Bytes → IT appSig (List Bytes)
  | .ok m => .ret [m]
  | .error _ => .ret []

theorem reader_eq : Aio.on (Aio.plain (recvAll 1 [])) = .op (S := aio Unit) (.stream (.readexactly 4)) fun
      | .ok b => bodyRead (unpackI b) fun r => Aio.on (Aio.plain (oneMore r))
      | .error _ => .ret [] := by
  have : recvAll 1 [] = .op (S := appSig) .read oneMore := by
    simp only [recvAll]
    congr 1
  rw [this]
  refine (aio_read fun r => Aio.on (Aio.plain (oneMore r))).trans ?_
  congr 1
  funext r
  cases r <;> rfl

section
variable {L : Lib} {c : Clock} {t : ι} {r : AioRt ι Unit}

theorem reader_waits (hw : r.waiter = none) (he : r.eof = false) (hb : r.buffer = []) :
    aioBlock L c t (Aio.on (Aio.plain (recvAll 1 []))) r = (Aio.on (Aio.plain (recvAll 1 [])),
      { r with waiter := some t, phase := Function.update r.phase t .pending }, []) := by
  rw [reader_eq]
  simp [aioBlock, tryRead, hb, hw, he]

theorem reader_busy {u : ι} (hw : r.waiter = some u) (he : r.eof = false) (hb : r.buffer = []) :
    aioBlock L c t (Aio.on (Aio.plain (recvAll 1 []))) r = (.ret [], r, []) := by
  rw [reader_eq]
  simp [aioBlock, tryRead, hb, hw, he]

theorem body_waits {n : Nat} (hw : r.waiter = none) (he : r.eof = false) (hb : r.buffer.length < n)
    (f : Except Err Bytes → IT (aio Unit) (List Bytes)) :
    aioBlock L c t (bodyRead n f) r = (bodyRead n f,
      { r with waiter := some t, phase := Function.update r.phase t .pending }, []) := by
  simp only [bodyRead, aioBlock, tryRead_wait hb he hw]

theorem reader_head {h rest : Bytes} (hl : h.length = 4) (hb : r.buffer = h ++ rest) :
    aioBlock L c t (Aio.on (Aio.plain (recvAll 1 []))) r =
      aioBlock L c t (bodyRead (unpackI h) fun r => Aio.on (Aio.plain (oneMore r))) { r with buffer := rest } := by
  rw [reader_eq]
  simp only [aioBlock, show (4 : Int) = (4 : Nat) from rfl, tryRead_ok (n := 4) (rt := r) (by rw [hb]; simp; omega), hb]
  rw [List.take_left' hl, List.drop_left' hl]

end

/-- **C92, two readers, nothing has arrived.** While one task waits for a message, another one that tries to read gets an
exception (RuntimeError, which `recvAll` takes for the end: it returns what it has, nothing). -/
theorem C92_second_reader (L : Lib) (ca cb : Clock) : ∃ Y, AioNet.Reach L ca cb (onPlain oneWriter twoReaders) Y ∧
    Y.b.tasks true = .ret [] := by
  have h1 := AioNet.Step.bRun (L := L) (ca := ca) (cb := cb) (a := (onPlain oneWriter twoReaders).a)
    (b := (onPlain oneWriter twoReaders).b) (ab := []) (ba := []) false ⟨fun _ => nofun, nofun⟩
  have e1 : AioSide.run L cb (onPlain oneWriter twoReaders).b false = (⟨fun _ => Aio.on (Aio.plain (recvAll 1 [])),
      ⟨(), 0, [], false, some false, Function.update (fun _ => .idle) false .pending, false⟩⟩, []) := by
    simp only [AioSide.run, show (onPlain oneWriter twoReaders).b.tasks false = Aio.on (Aio.plain (recvAll 1 [])) from rfl]
    rw [reader_waits rfl rfl rfl]
    exact congrArg (fun f => ((⟨f, _⟩ : AioSide Bool Unit (List Bytes)), ([] : Bytes))) (Function.update_eq_self false _)
  rw [e1] at h1
  have h2 := AioNet.Step.bRun (L := L) (ca := ca) (cb := cb) (a := (onPlain oneWriter twoReaders).a)
    (b := ⟨fun _ => Aio.on (Aio.plain (recvAll 1 [])),
      ⟨(), 0, [], false, some false, Function.update (fun _ => .idle) false .pending, false⟩⟩) (ab := []) (ba := []) true
    ⟨fun _ => nofun, nofun⟩
  refine ⟨_, .step (.step (.refl _) h1) h2, ?_⟩
  simp only [AioSide.run]
  rw [reader_busy (u := false) rfl rfl rfl]
  rfl

/-- One task that writes one message of five bytes. -/
def fiveBytes : Unit → IT appSig (List Bytes) := fun _ => sendAll [[[1, 0, 0, 0, 7]]]

/-- **C92, two readers, a message arrives in two pieces.** One task has read the length of a message and waits for the
rest; the rest arrives, and before that task runs another one begins to read: it takes the first bytes of the message for a
length and returns a message that nobody has sent, without any exception.  The first task waits for ever. -/
theorem C92_misframed (L : Lib) (ca cb : Clock) : ∃ Y, AioNet.Reach L ca cb (onPlain fiveBytes twoReaders) Y ∧
    AioNet.Stuck L ca cb Y ∧ Y.b.tasks true = .ret [[7]] ∧
    (∃ n k, Y.b.tasks false = .op (S := aio Unit) (.stream (.readexactly n)) k) ∧ Y.b.rt.phase false = .pending := by
  obtain ⟨R, hR⟩ : ∃ R, R = Aio.on (Aio.plain (recvAll 1 [])) := ⟨_, rfl⟩
  obtain ⟨B, hB⟩ : ∃ B, B = bodyRead (σ := Unit) 5 fun r => Aio.on (Aio.plain (oneMore r)) := ⟨_, rfl⟩
  have hRop : ∀ b, R ≠ .ret b := by rw [hR]; exact fun _ => nofun
  have hBop : ∀ b, B ≠ .ret b := by rw [hB]; exact fun _ => nofun
  let a1 : AioSide Unit Unit (List Bytes) := ⟨fun _ => .ret [], (onPlain fiveBytes twoReaders).a.rt⟩
  let idle : Bool → Phase := fun _ => .idle
  let pend : Bool → Phase := Function.update idle false .pending
  let wok : Bool → Phase := Function.update pend false .woken
  let b0 : AioSide Bool Unit (List Bytes) := ⟨fun _ => R, ⟨(), 0, [], false, none, idle, false⟩⟩
  let b1 : AioSide Bool Unit (List Bytes) := ⟨fun _ => R, ⟨(), 0, [5, 0, 0, 0], false, none, idle, false⟩⟩
  let b2 : AioSide Bool Unit (List Bytes) := ⟨Function.update (fun _ => R) false B, ⟨(), 0, [], false, some false, pend, false⟩⟩
  let b3 : AioSide Bool Unit (List Bytes) := ⟨b2.tasks, ⟨(), 0, [1, 0, 0, 0, 7], false, none, wok, false⟩⟩
  let b4 : AioSide Bool Unit (List Bytes) := ⟨Function.update b2.tasks true (.ret [[7]]), ⟨(), 0, [], false, none, wok, false⟩⟩
  let b5 : AioSide Bool Unit (List Bytes) := ⟨b4.tasks,
    ⟨(), 0, [], false, some false, Function.update (Function.update wok false .idle) false .pending, false⟩⟩
  have x0 : onPlain fiveBytes twoReaders = ⟨(onPlain fiveBytes twoReaders).a, b0, [], []⟩ := by simp only [b0, hR]; rfl
  have e0 : AioSide.run L ca (onPlain fiveBytes twoReaders).a () = (a1, [5, 0, 0, 0] ++ [1, 0, 0, 0, 7]) := by
    have := aio_write (L := L) (c := ca) () [[1, 0, 0, 0, 7]] false (by simp) (onPlain fiveBytes twoReaders).a.rt rfl
      (fun r => Aio.on (Aio.plain (sendAll [])))
    have e : (onPlain fiveBytes twoReaders).a.tasks () =
      (Aio.handle (.write [[1, 0, 0, 0, 7]] false)).bind (fun r => Aio.on (Aio.plain (sendAll []))) := rfl
    simp only [AioSide.run]
    rw [e, show (onPlain fiveBytes twoReaders).a.rt.resume () = (onPlain fiveBytes twoReaders).a.rt from rfl, this]
    exact congrArg (fun f => ((⟨f, _⟩ : AioSide Unit Unit (List Bytes)), _)) (funext fun _ => rfl)
  have e1 : AioSide.run L cb b1 false = (b2, []) := by
    simp only [AioSide.run, b1, b2, hR]
    rw [reader_head (h := [5, 0, 0, 0]) (rest := []) rfl rfl, show unpackI [5, 0, 0, 0] = (5 : Nat) from rfl,
      body_waits rfl rfl (by decide), hB]
    rfl
  have e2 : AioSide.run L cb b3 true = (b4, []) := by
    simp only [AioSide.run, b3, b4, b2]
    rw [show Function.update (fun _ => R) false B true = R from rfl, hR, reader_head (h := [1, 0, 0, 0]) (rest := [7]) rfl rfl,
      show unpackI [1, 0, 0, 0] = (1 : Nat) from rfl]
    rfl
  have e3 : AioSide.run L cb b4 false = (b5, []) := by
    simp only [AioSide.run, b4, b2, b5]
    rw [show Function.update (Function.update (fun _ => R) false B) true (.ret [[7]]) false = B from rfl, hB,
      show (5 : Int) = (5 : Nat) from rfl, body_waits rfl rfl (by decide)]
    exact congrArg (fun f => ((⟨f, _⟩ : AioSide Bool Unit (List Bytes)), ([] : Bytes))) (by funext t; cases t <;> rfl)
  have s1 : AioNet.Step L ca cb (onPlain fiveBytes twoReaders) ⟨a1, b0, [5, 0, 0, 0] ++ [1, 0, 0, 0, 7], []⟩ := by
    rw [x0]
    have := AioNet.Step.aRun (L := L) (ca := ca) (cb := cb) (a := (onPlain fiveBytes twoReaders).a) (b := b0) (ab := []) (ba := []) ()
      ⟨fun _ => nofun, nofun⟩
    rwa [e0] at this
  have s2 : AioNet.Step L ca cb ⟨a1, b0, [5, 0, 0, 0] ++ [1, 0, 0, 0, 7], []⟩ ⟨a1, b1, [1, 0, 0, 0, 7], []⟩ :=
    .bFeed [5, 0, 0, 0] (by decide) rfl
  have s3 : AioNet.Step L ca cb ⟨a1, b1, [1, 0, 0, 0, 7], []⟩ ⟨a1, b2, [1, 0, 0, 0, 7], []⟩ := by
    have := AioNet.Step.bRun (L := L) (ca := ca) (cb := cb) (a := a1) (b := b1) (ab := [1, 0, 0, 0, 7]) (ba := []) false
      ⟨hRop, nofun⟩
    rwa [e1] at this
  have s4 : AioNet.Step L ca cb ⟨a1, b2, [1, 0, 0, 0, 7] ++ [], []⟩ ⟨a1, b3, [], []⟩ :=
    .bFeed [1, 0, 0, 0, 7] (by decide) rfl
  have s5 : AioNet.Step L ca cb ⟨a1, b3, [], []⟩ ⟨a1, b4, [], []⟩ := by
    have := AioNet.Step.bRun (L := L) (ca := ca) (cb := cb) (a := a1) (b := b3) (ab := []) (ba := []) true ⟨hRop, nofun⟩
    rwa [e2] at this
  have s6 : AioNet.Step L ca cb ⟨a1, b4, [], []⟩ ⟨a1, b5, [], []⟩ := by
    have := AioNet.Step.bRun (L := L) (ca := ca) (cb := cb) (a := a1) (b := b4) (ab := []) (ba := []) false ⟨hBop, nofun⟩
    rwa [e3] at this
  refine ⟨_, .step (.step (.step (.step (.step (.step (.refl _) s1) s2) s3) s4) s5) s6, ?_, rfl, ⟨5, _, hB⟩, rfl⟩
  refine aio_stuck (fun t h => h.1 _ rfl) (fun t h => ?_) rfl rfl rfl rfl
  cases t with
  | true => exact h.1 _ rfl
  | false => exact h.2 rfl

/-- Two readers, directly connected: each has read nothing yet or one message. -/
theorem two_results {p : Unit → IT appSig (List Bytes)} {y : Direct Unit Bool (List Bytes) (List Bytes)}
    (h : Direct.Reach ⟨p, twoReaders, [], []⟩ y) (t : Bool) : y.b t = recvAll 1 [] ∨ ∃ m, y.b t = .ret [m] := by
  generalize hx : (⟨p, twoReaders, [], []⟩ : Direct Unit Bool (List Bytes) (List Bytes)) = x at h
  induction h with
  | refl => subst hx; exact .inl rfl
  | step _ s ih =>
    cases s with
    | aWrite => exact ih
    | aRead => exact ih
    | bWrite u ms l k e =>
      simp only at ih ⊢
      by_cases hu : t = u
      · subst hu
        rcases ih with ih | ⟨m, ih⟩ <;> rw [e] at ih <;> cases ih
      · rwa [Function.update_of_ne hu]
    | bRead u m k e =>
      simp only at ih ⊢
      by_cases hu : t = u
      · subst hu
        rcases ih with ih | ⟨m', ih⟩
        · rw [e] at ih
          cases ih
          exact .inr ⟨m, by simp [recvAll]⟩
        · rw [e] at ih; cases ih
      · rwa [Function.update_of_ne hu]

theorem C92_violated : ¬ C92_claim := by
  intro h
  obtain ⟨-, -, h⟩ := h toyLib exClock exClock oneWriter twoReaders
    (fun _ => sendAll_short (by simp)) (fun _ => recvAll_short _ _)
  obtain ⟨Y, h1, h2⟩ := C92_second_reader toyLib exClock exClock
  obtain ⟨y, k1, -, k2, -⟩ := h Y h1
  rcases two_results k1 true with e | ⟨m, e⟩ <;> rw [k2 true _ h2] at e <;> cases e

end Salt.Props
