import Verif.Props.AioSession
import Verif.Lemmas.AioFork
import Verif.Lemmas.AioImpl
import Verif.Lemmas.SockSession

/-!
# Tasks that start as soon as the handshake of their own side has ended

C139: a client and a server over a connection of asyncio streams; each side runs its handshake and then starts its tasks, without waiting for
the other side.
-/

namespace Salt.Props

open Salt Salt.Spec

variable {ι κ α β : Type} [DecidableEq ι] [DecidableEq κ] [Fintype ι] [Fintype κ]

/-- The application channel of a client whose `handshake()` has returned without exception (saltchannel/v2/salt_client_session.py:43-54, 114). -/
def clientReady (r : Except Err Unit × ClientSt) : Option AppSt :=
  match r.1 with
  | .ok _ => r.2.chan
  | .error _ => none

/-- The same for a server (saltchannel/v2/salt_server_session.py:47-65, 141). -/
def serverReady (r : Except Err Unit × ServerSt) : Option AppSt :=
  match r.1 with
  | .ok _ => r.2.chan
  | .error _ => none

/-- Two handshakes that have not begun yet, on the two ends of a connection. -/
def twoHandshakes (cfgC : ClientCfg) (cfgS : ServerCfg) : ForkNet ι κ α β (Except Err Unit × ClientSt) (Except Err Unit × ServerSt) :=
  .mm (AioNet.pair (Aio.on (Aio.alone (Client.handshake cfgC Client.init))) (Aio.on (Aio.alone (Server.handshake cfgS Server.init))))

/-- The messages of the two handshakes are short. -/
theorem handshake_fits {L : Lib} {cc cs : Clock} {cfgC : ClientCfg} {cfgS : ServerCfg} {kc ks : KeyPair}
    (S : Setup L cc cs cfgC cfgS kc ks) (hb : cfgC.bufferM4 = false) (hz : BoxSize L) :
    Net.Calls Spec.Fits (Net.start (party L cc (Client.handshake cfgC Client.init) 0) (party L cs (Server.handshake cfgS Server.init) 0)) := by
  have hp := shake_sized hz S
  obtain ⟨sC, dC, pC⟩ := client_perf S (α := Except Err Unit × ClientSt) .ret
  obtain ⟨sS, dS, pS⟩ := server_perf S (β := Except Err Unit × ServerSt) .ret (cc.now 3) (S.acceptsS.check _ _) false
  rw [hb] at pC
  simp only [Bool.false_eq_true, if_false, IT.bind_ret] at pC pS
  obtain ⟨u, pC1, pC2⟩ := Perf.split (tr1 := [_]) pC
  obtain ⟨v, pS1, pS2⟩ := pS.split
  have r1 := Net.runC_a (p := fun m : Bytes => m.length < 2 ^ 31) pC1 (.frame_write _ _ []) (List.forall_mem_singleton.2 hp.m1) (party L cs (Server.handshake cfgS Server.init) 0) []
  have r2 := Net.runC_b (p := fun m : Bytes => m.length < 2 ^ 31) pS1 serverCalls_moves (List.forall_mem_cons.2 ⟨hp.m2, List.forall_mem_singleton.2 hp.c3⟩) u []
  have r3 := Net.runC_a (p := fun m : Bytes => m.length < 2 ^ 31) pC2 (.read _ (.read _ (.frame_write _ _ []))) (List.forall_mem_singleton.2 hp.c4) v []
  have r4 := Net.runC_b (p := fun m : Bytes => m.length < 2 ^ 31) pS2 (.read _ (.nil [])) (by simp)
    (party L cc (.ret (Except.ok (ε := Err) (), sC)) 4) []
  exact (((r1.trans r2).trans r3).trans r4).calls ((Net.stuck_iff _).2 ⟨.inl ⟨_, rfl⟩, .inl ⟨_, rfl⟩⟩)

/-- **C139.** A client that does not buffer M4 and a server, honest, over a connection of asyncio streams. Each side starts its tasks, which
share its channel and of which at most one reads, as soon as its own handshake has ended. Whatever the schedule and the pieces in which bytes
arrive, also when tasks of one side write while the handshake of the other side still runs: the tasks behave as when they are directly
connected. -/
theorem C139_tasks {L : Lib} {cc cs : Clock} {cfgC : ClientCfg} {cfgS : ServerCfg} {kc ks : KeyPair}
    (S : Setup L cc cs cfgC cfgS kc ks) (hb : cfgC.bufferM4 = false) (hz : BoxSize L) (pA : ι → IT appSig α) (pB : κ → IT appSig β) {n : Nat}
    (hn : n ≤ 2 ^ 62) (h1A : OneReader pA) (h1B : OneReader pB) (hmA : ModestAll 65535 pA n) (hmB : ModestAll 65535 pB n)
    (hA : ∀ t, CallsWithin (2 ^ 31 - 27) (pA t)) (hB : ∀ t, CallsWithin (2 ^ 31 - 27) (pB t)) :
    ForkLikeDirect L cc cs clientReady serverReady pA pB (twoHandshakes cfgC cfgS) := by
  obtain ⟨Y, h1, sC, sS, a, b, rfl, h3, h4, h5⟩ := C94_handshake S hb
  exact fork_like_direct (impl_open_alone _ 0) (impl_open_alone _ 0) (handshake_fits S hb hz) h1 h3 h4 fun i j =>
    C93_tasks_partial S.honest.box hz S.acceptsC S.acceptsS (h5 n hn) i j pA pB h1A h1B hmA hmB hA hB

/-- **C139, full duplex.** After its handshake, each side has a task that writes and a task that reads as many messages as the other side writes.
All comes to an end, and then both readers have exactly the messages of the other side, in order. -/
theorem C139_duplex {L : Lib} {cc cs : Clock} {cfgC : ClientCfg} {cfgS : ServerCfg} {kc ks : KeyPair}
    (S : Setup L cc cs cfgC cfgS kc ks) (hb : cfgC.bufferM4 = false) (hz : BoxSize L) (outA outB : List (List Bytes))
    (hoA : ∀ ms ∈ outA, ms ≠ [] ∧ ms.length ≤ 65535 ∧ (ms.map fun m => m.length + 2).sum ≤ 2 ^ 31 - 27)
    (hoB : ∀ ms ∈ outB, ms ≠ [] ∧ ms.length ≤ 65535 ∧ (ms.map fun m => m.length + 2).sum ≤ 2 ^ 31 - 27)
    (hlA : outA.flatten.length ≤ 2 ^ 62) (hlB : outB.flatten.length ≤ 2 ^ 62)
    {Y : ForkNet Bool Bool (List Bytes) (List Bytes) (Except Err Unit × ClientSt) (Except Err Unit × ServerSt)}
    (hY : ForkNet.Reach L cc cs clientReady serverReady (duplex outA outB.flatten.length) (duplex outB outA.flatten.length)
      (twoHandshakes cfgC cfgS) Y)
    (hs : ∀ Z, ¬ ForkNet.Step L cc cs clientReady serverReady (duplex outA outB.flatten.length) (duplex outB outA.flatten.length) Y Z) :
    Y.DoneA true [] ∧ Y.DoneA false outB.flatten ∧ Y.DoneB true [] ∧ Y.DoneB false outA.flatten := by
  obtain ⟨-, -, h⟩ := C139_tasks S hb hz (duplex outA outB.flatten.length) (duplex outB outA.flatten.length) (Nat.le_refl _) (duplex_one _ _)
    (duplex_one _ _) (duplex_modest (fun ms h => ⟨(hoA ms h).1, (hoA ms h).2.1⟩) _ hlA)
    (duplex_modest (fun ms h => ⟨(hoB ms h).1, (hoB ms h).2.1⟩) _ hlB)
    (duplex_within (fun ms h => (hoA ms h).2.2) _) (duplex_within (fun ms h => (hoB ms h).2.2) _)
  obtain ⟨y, h1, -, -, h2⟩ := h Y hY
  obtain ⟨h3, Z, rfl, h4, h5⟩ := h2 hs
  obtain ⟨r1, r2, r3, r4⟩ := duplex_ideal h1 h3
  have key : ∀ {S : AioSide Bool AppSt (List Bytes)} {t} {p : IT appSig (List Bytes)} {r}, AioEnd S t p → p = .ret r →
      S.tasks t = .ret r := by
    intro S t p r h e
    cases h with
    | ret x h => cases e; exact h
    | wait => cases e
  exact ⟨key (h4 true) r1, key (h4 false) r2, key (h5 true) r3, key (h5 false) r4⟩

/-! ### Examples -/

/-- The hypotheses of `C139_tasks` can be met: three tasks on each side. -/
example : ForkLikeDirect toyLib exClock exClock clientReady serverReady exTasks exTasks
    (twoHandshakes (exCfgC false) (exCfgS true)) :=
  C139_tasks (exSetup false true) rfl toy_size exTasks exTasks (n := 5) (by decide) exTasks_one exTasks_one exTasks_modest exTasks_modest
    exTasks_within exTasks_within

/-- The hypotheses of `C139_duplex` can be met: both sides talk at the same time, and there is a final configuration. -/
example : ∃ Y : ForkNet Bool Bool (List Bytes) (List Bytes) (Except Err Unit × ClientSt) (Except Err Unit × ServerSt),
    ForkNet.Reach toyLib exClock exClock clientReady serverReady (duplex [[[1], [2, 3]], [[4]]] 1) (duplex [[[7, 8]]] 3)
      (twoHandshakes (exCfgC false) (exCfgS true)) Y ∧ Y.DoneA false [[7, 8]] ∧ Y.DoneB false [[1], [2, 3], [4]] := by
  obtain ⟨Y, h1, h2⟩ := fork_final (L := toyLib) (ca := exClock) (cb := exClock) (fA := clientReady) (fB := serverReady)
    (pA := duplex [[[1], [2, 3]], [[4]]] 1) (pB := duplex [[[7, 8]]] 3) (acc_mm (AioNet.pair
      (Aio.on (Aio.alone (Client.handshake (exCfgC false) Client.init))) (Aio.on (Aio.alone (Server.handshake (exCfgS true) Server.init)))))
  obtain ⟨-, h3, -, h4⟩ := C139_duplex (exSetup false true) rfl toy_size [[[1], [2, 3]], [[4]]] [[[7, 8]]] (by simp) (by simp) (by decide)
    (by decide) h1 h2
  exact ⟨Y, h1, h3, h4⟩

/-! The tasks of the client may be done before the server has received M4. The schedule, with `ra`, `rb`: a coroutine runs; `fa`, `fb`: all bytes on
the way arrive. -/

section
variable {γ δ : Type}

def isRet {S : Sig} {α : Type} : IT S α → Bool
  | .ret _ => true
  | _ => false

theorem exCanRun {ι σ α : Type} {x : AioSide ι σ α} {t : ι} (h : isRet (x.tasks t) = false ∧ x.rt.phase t ≠ .pending) : x.CanRun t :=
  ⟨fun b hb => by rw [hb] at h; exact absurd h.1 (by simp [isRet]), h.2⟩

def ra (x : AioNet Unit Unit Unit Unit γ δ) : AioNet Unit Unit Unit Unit γ δ :=
  ⟨(x.a.run toyLib exClock ()).1, x.b, x.ab ++ (x.a.run toyLib exClock ()).2, x.ba⟩
def rb (x : AioNet Unit Unit Unit Unit γ δ) : AioNet Unit Unit Unit Unit γ δ :=
  ⟨x.a, (x.b.run toyLib exClock ()).1, x.ab, x.ba ++ (x.b.run toyLib exClock ()).2⟩
def fa (x : AioNet Unit Unit Unit Unit γ δ) : AioNet Unit Unit Unit Unit γ δ := ⟨x.a.feed x.ba, x.b, x.ab, []⟩
def fb (x : AioNet Unit Unit Unit Unit γ δ) : AioNet Unit Unit Unit Unit γ δ := ⟨x.a, x.b.feed x.ab, [], x.ba⟩

variable {x y : AioNet Unit Unit Unit Unit γ δ}

theorem step_ra (h : AioNet.Reach toyLib exClock exClock y x) (h' : isRet (x.a.tasks ()) = false ∧ x.a.rt.phase () ≠ .pending) :
    AioNet.Reach toyLib exClock exClock y (ra x) := .step h (.aRun () (exCanRun h'))
theorem step_rb (h : AioNet.Reach toyLib exClock exClock y x) (h' : isRet (x.b.tasks ()) = false ∧ x.b.rt.phase () ≠ .pending) :
    AioNet.Reach toyLib exClock exClock y (rb x) := .step h (.bRun () (exCanRun h'))
theorem step_fa (h : AioNet.Reach toyLib exClock exClock y x) (h' : x.ba ≠ [] ∧ x.a.rt.closed = false) :
    AioNet.Reach toyLib exClock exClock y (fa x) := by
  obtain ⟨a, b, ab, ba⟩ := x
  have := AioNet.Step.aFeed (L := toyLib) (ca := exClock) (cb := exClock) (a := a) (b := b) (ab := ab) (ba := []) ba h'.1 h'.2
  rw [List.append_nil] at this
  exact .step h this
theorem step_fb (h : AioNet.Reach toyLib exClock exClock y x) (h' : x.ab ≠ [] ∧ x.b.rt.closed = false) :
    AioNet.Reach toyLib exClock exClock y (fb x) := by
  obtain ⟨a, b, ab, ba⟩ := x
  have := AioNet.Step.bFeed (L := toyLib) (ca := exClock) (cb := exClock) (a := a) (b := b) (ab := []) (ba := ba) ab h'.1 h'.2
  rw [List.append_nil] at this
  exact .step h this

/-- The connection before the handshakes. -/
def exPair := AioNet.pair (Aio.on (Aio.alone (Client.handshake (exCfgC false) Client.init)))
  (Aio.on (Aio.alone (Server.handshake (exCfgS true) Server.init)))

/-- The client has sent M4 and has returned, the server waits for M4. -/
def exEarly := ra (fa (rb (rb (fb (rb (ra (ra exPair)))))))

theorem exEarly_reach : AioNet.Reach toyLib exClock exClock exPair exEarly := by
  refine step_ra (step_fa (step_rb (step_rb (step_fb (step_rb (step_ra (step_ra (.refl _) ?_) ?_) ?_) ?_) ?_) ?_) ?_) ?_ <;> decide +kernel

theorem reach_mm {ι κ α β : Type} [DecidableEq ι] [DecidableEq κ] {L : Lib} {ca cb : Clock} {fA : γ → Option AppSt} {fB : δ → Option AppSt}
    {pA : ι → IT appSig α} {pB : κ → IT appSig β} (h : AioNet.Reach L ca cb x y) :
    ForkNet.Reach L ca cb fA fB pA pB (.mm x) (.mm y) := by
  induction h with
  | refl => exact .refl
  | step _ s ih => exact .step ih (.mm s)

end

def valueOf {S : Sig} {α : Type} : IT S α → Option α
  | .ret r => some r
  | _ => none

theorem valueOf_eq {S : Sig} {α : Type} {t : IT S α} {r : α} (h : valueOf t = some r) : t = .ret r := by
  cases t with
  | ret a => cases h; rfl
  | op e k => cases h

/-- The channel of the client. -/
def exChan : AppSt := ((valueOf (exEarly.a.tasks ())).bind clientReady).get (by decide +kernel)

/-- The tasks of the client have started, and the one that writes has run. -/
def exAhead : AioNet Bool Unit AppSt Unit (List Bytes) (Except Err Unit × ServerSt) :=
  let a := exEarly.a.fork exChan (duplex [[[1], [2, 3]]] 1)
  ⟨(a.run toyLib exClock true).1, exEarly.b, exEarly.ab ++ (a.run toyLib exClock true).2, exEarly.ba⟩

/-- A task of the client has written its messages and returned while the server still waits for M4. -/
example : ∃ Z, ForkNet.Reach toyLib exClock exClock clientReady serverReady (duplex [[[1], [2, 3]]] 1) (duplex [[[7, 8]]] 2)
    (twoHandshakes (exCfgC false) (exCfgS true)) (.tm Z) ∧ Z.a.tasks true = .ret [] ∧ ∀ r, Z.b.tasks () ≠ .ret r := by
  have h : (valueOf (exEarly.a.tasks ())).bind clientReady = some exChan := (Option.some_get _).symm
  obtain ⟨r, h1, h2⟩ := Option.bind_eq_some_iff.1 h
  refine ⟨exAhead, .step (.step (reach_mm exEarly_reach) (.first (valueOf_eq h1) h2)) (.tm (.aRun true (exCanRun ?_))), ?_, ?_⟩
  · decide +kernel
  · exact valueOf_eq (by decide +kernel)
  · intro r hr
    have h' : isRet (exAhead.b.tasks ()) = false := by decide +kernel
    rw [hr] at h'
    cases h'

end Salt.Props
