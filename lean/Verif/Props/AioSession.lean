import Verif.Props.AioTasks
import Verif.Props.Net2

/-!
# Several tasks on one session, over asyncio streams

C93: tasks that share the channel of a session on an `AsyncioChannel`; C94: tasks started after a handshake.
-/

set_option linter.unusedSectionVars false

namespace Salt.Props

open Salt Salt.Spec

variable {ι κ α β : Type} [DecidableEq ι] [DecidableEq κ] [Fintype ι] [Fintype κ]

theorem NoRead.bind {σ γ : Type} {t : IT (sh σ) γ} {f : γ → IT (sh σ) α} (h : NoRead t) (h' : ∀ a, NoRead (f a)) :
    NoRead (t.bind f) := by
  induction t with
  | ret a => exact h' a
  | op e k ih =>
    rcases e with _ | _ | e
    · exact fun r => ih r (h r)
    · exact fun r => ih r (h r)
    · cases e <;> first | exact absurd h id | exact fun r => ih r (h r)

theorem WriteLast.noRead {σ : Type} {t : IT (sh σ) (Except Err Unit)} (h : Co.WriteLast t) : NoRead t := by
  induction t with
  | ret a => trivial
  | op e k ih =>
    rcases e with _ | _ | e
    · exact fun r => ih r (h r)
    · exact fun r => ih r (h r)
    · cases e with
      | read => exact absurd h id
      | write ms l => intro r; rw [h r]; trivial
      | _ => exact fun r => ih r (h r)

theorem task_noRead {p : IT appSig α} (h : WriteOnly p) : NoRead (Co.task p) := by
  induction p with
  | ret b => trivial
  | op e k ih =>
    cases e with
    | read => exact absurd h id
    | write ms l => exact NoRead.bind (WriteLast.noRead (Co.write_last ms l)) fun r => ih r (h r)

/-- **C93, as users would expect it.** Any number of tasks on each side may read and write at the same time. -/
def C93_claim : Prop := ∀ {ι κ α β : Type} [DecidableEq ι] [DecidableEq κ] [Fintype ι] [Fintype κ] (L : Lib) (ca cb : Clock)
  (sA sB : AppSt) (pA : ι → IT appSig α) (pB : κ → IT appSig β) (n i j : Nat), BoxLaw L → BoxSize L → Spec.Accepts ca cb →
  Spec.Accepts cb ca → Paired n sA sB → ModestAll 65535 pA n → ModestAll 65535 pB n →
  (∀ t, CallsWithin (2 ^ 31 - 27) (pA t)) → (∀ t, CallsWithin (2 ^ 31 - 27) (pB t)) →
  AioLikeDirect L ca cb pA pB (onSession pA pB sA sB i j)

/-- **C93, what holds.** Any number of tasks may write on the channel of a session over an `AsyncioChannel` while at most one
of them reads: whatever the schedule and the pieces in which the bytes arrive, all ends as if the tasks were directly
connected.  Missing: several tasks that read. -/
theorem C93_tasks_partial {L : Lib} (hb : BoxLaw L) (hz : BoxSize L) {ca cb : Clock} (hca : Spec.Accepts ca cb)
    (hcb : Spec.Accepts cb ca) {sA sB : AppSt} {n : Nat} (h : Paired n sA sB) (i j : Nat) (pA : ι → IT appSig α)
    (pB : κ → IT appSig β) (h1A : OneReader pA) (h1B : OneReader pB) (hmA : ModestAll 65535 pA n) (hmB : ModestAll 65535 pB n)
    (hA : ∀ t, CallsWithin (2 ^ 31 - 27) (pA t)) (hB : ∀ t, CallsWithin (2 ^ 31 - 27) (pB t)) :
    AioLikeDirect L ca cb pA pB (onSession pA pB sA sB i j) := by
  have inv := start_inv (L := L) hca hcb (S := True) h1A h1B h hmA hmB i j fun _ => ⟨hz, hA, hB⟩
  refine aio_like_direct (X := onChannels pA pB sA sB i j) (fun t t' h => (h1A t t' h).imp task_noRead task_noRead)
    (fun t t' h => (h1B t t' h).imp task_noRead task_noRead) rfl rfl (fun Y hY => ?_)
    (C91_paired_partial hb hca hcb h i j pA pB h1A h1B hmA hmB)
  obtain ⟨y, -, h2⟩ := inv.reach hb hY
  obtain ⟨-, -, -, s1, s2⟩ := h2.short trivial
  exact ⟨s1, s2⟩

theorem sendAll_within {out : List (List Bytes)} {n : Nat} (h : ∀ ms ∈ out, (ms.map fun m => m.length + 2).sum ≤ n) :
    CallsWithin n (sendAll out) := by
  induction out with
  | nil => trivial
  | cons ms out ih => exact ⟨h ms (by simp), fun _ => ih fun ms' h' => h ms' (by simp [h'])⟩

theorem recvAll_within (n k : Nat) (acc : List Bytes) : CallsWithin n (recvAll k acc) := by
  induction k generalizing acc with
  | zero => trivial
  | succ k ih => intro r; cases r with
    | ok m => exact ih _
    | error e => trivial

theorem duplex_within {out : List (List Bytes)} {n : Nat} (h : ∀ ms ∈ out, (ms.map fun m => m.length + 2).sum ≤ n) (k : Nat)
    (t : Bool) : CallsWithin n (duplex out k t) := by
  cases t
  · exact recvAll_within _ _ _
  · exact sendAll_within h

/-- **C93, full duplex.** On both sides one task writes and another reads, at the same time, and each side reads as many
messages as the other writes: whatever the schedule and the pieces in which the bytes arrive, both readers end with
exactly the messages the other side has written, in order. -/
theorem C93_duplex {L : Lib} (hb : BoxLaw L) (hz : BoxSize L) {ca cb : Clock} (hca : Spec.Accepts ca cb)
    (hcb : Spec.Accepts cb ca) {sA sB : AppSt} {n : Nat} (h : Paired n sA sB) (i j : Nat) (outA outB : List (List Bytes))
    (hoA : ∀ ms ∈ outA, ms ≠ [] ∧ ms.length ≤ 65535 ∧ (ms.map fun m => m.length + 2).sum ≤ 2 ^ 31 - 27)
    (hoB : ∀ ms ∈ outB, ms ≠ [] ∧ ms.length ≤ 65535 ∧ (ms.map fun m => m.length + 2).sum ≤ 2 ^ 31 - 27)
    (hlA : outA.flatten.length ≤ n) (hlB : outB.flatten.length ≤ n)
    {Y : AioNet Bool Bool AppSt AppSt (List Bytes) (List Bytes)}
    (hY : AioNet.Reach L ca cb (onSession (duplex outA outB.flatten.length) (duplex outB outA.flatten.length) sA sB i j) Y)
    (hs : AioNet.Stuck L ca cb Y) :
    Y.a.tasks true = .ret [] ∧ Y.a.tasks false = .ret outB.flatten ∧
      Y.b.tasks true = .ret [] ∧ Y.b.tasks false = .ret outA.flatten :=
  duplex_streams (C93_tasks_partial hb hz hca hcb h i j _ _ (duplex_one _ _) (duplex_one _ _)
    (duplex_modest (fun ms hm => ⟨(hoA ms hm).1, (hoA ms hm).2.1⟩) _ hlA)
    (duplex_modest (fun ms hm => ⟨(hoB ms hm).1, (hoB ms hm).2.1⟩) _ hlB)
    (duplex_within (fun ms hm => (hoA ms hm).2.2) _) (duplex_within (fun ms hm => (hoB ms hm).2.2) _)) hY hs

/-! ### Two readers -/

/-- A task that reads one message from the channel of a session, where nothing is queued. -/
theorem session_reader (L : Lib) (c : Clock) (t : ι) (r : AioRt ι AppSt) (hp : r.st.enc.pushback = []) (hq : r.st.readQ = [])
    (hb : r.buffer = []) (he : r.eof = false) :
    (r.waiter = none → ∃ k, aioBlock L c t (Aio.on (Co.task (recvAll 1 []))) r =
      (.op (S := aio AppSt) (.stream (.readexactly 4)) k,
        { r with waiter := some t, phase := Function.update r.phase t .pending }, [])) ∧
    ∀ u, r.waiter = some u → aioBlock L c t (Aio.on (Co.task (recvAll 1 []))) r = (.ret [], r, []) := by
  obtain ⟨⟨⟨k, sn, rn, wn, pb, f⟩, m4, q⟩, calls, buf, eof, w, ph, cl⟩ := r
  simp only at hp hq hb he
  subst hp hq hb he
  refine ⟨?_, ?_⟩
  · rintro rfl
    exact ⟨_, rfl⟩
  · rintro u rfl
    rfl

/-- **C93, two readers.** While one task waits for a message, another one that tries to read gets an exception. -/
theorem C93_second_reader (L : Lib) (ca cb : Clock) {n : Nat} {sA sB : AppSt} (h : Paired n sA sB) (i j : Nat) :
    ∃ Y, AioNet.Reach L ca cb (onSession oneWriter twoReaders sA sB i j) Y ∧ Y.b.tasks true = .ret [] := by
  obtain ⟨k, e1⟩ := (session_reader L cb false (onSession oneWriter twoReaders sA sB i j).b.rt h.push.2 h.queues.2 rfl rfl).1 rfl
  have h1 := AioNet.Step.bRun (L := L) (ca := ca) (cb := cb) (a := (onSession oneWriter twoReaders sA sB i j).a)
    (b := (onSession oneWriter twoReaders sA sB i j).b) (ab := []) (ba := []) false ⟨fun _ => nofun, nofun⟩
  have e1' : AioSide.run L cb (onSession oneWriter twoReaders sA sB i j).b false =
      (⟨Function.update (onSession oneWriter twoReaders sA sB i j).b.tasks false
        (.op (S := aio AppSt) (.stream (.readexactly 4)) k),
      ⟨sB, j, [], false, some false, Function.update (fun _ => .idle) false .pending, false⟩⟩, []) := by
    simp only [AioSide.run]
    exact congrArg (fun x => ((⟨Function.update (onSession oneWriter twoReaders sA sB i j).b.tasks false x.1, x.2.1⟩ :
      AioSide Bool AppSt (List Bytes)), x.2.2)) e1
  rw [e1'] at h1
  have e2 := (session_reader L cb true ⟨sB, j, [], false, some false, Function.update (fun _ => .idle) false .pending, false⟩
    h.push.2 h.queues.2 rfl rfl).2 false rfl
  have h2 := AioNet.Step.bRun (L := L) (ca := ca) (cb := cb) (a := (onSession oneWriter twoReaders sA sB i j).a)
    (b := ⟨Function.update (onSession oneWriter twoReaders sA sB i j).b.tasks false
        (.op (S := aio AppSt) (.stream (.readexactly 4)) k),
      ⟨sB, j, [], false, some false, Function.update (fun _ => .idle) false .pending, false⟩⟩) (ab := []) (ba := []) true
    ⟨fun _ => nofun, nofun⟩
  refine ⟨_, .step (.step (.refl _) h1) h2, ?_⟩
  exact congrArg Prod.fst e2

theorem C93_violated : ¬ C93_claim := by
  intro h
  have hm : ModestAll 65535 oneWriter 2 := ⟨fun _ => 2, fun _ => ⟨by simp, by simp, by simp, fun _ => trivial⟩, by simp⟩
  have hr : ModestAll 65535 twoReaders 2 := ⟨fun _ => 0, fun _ => recvAll_modest 1 [], by simp⟩
  have hp : Paired 2 (App.init ⟨zeros 32, zeros 8, 2, 1, [], false⟩) (App.init ⟨zeros 32, zeros 8, 1, 2, [], false⟩) :=
    start_paired (key := zeros 32) rfl rfl (by decide)
  obtain ⟨-, -, h⟩ := h toyLib exClock exClock _ _ oneWriter twoReaders 2 0 0 toy_box toy_size exAccepts exAccepts hp hm hr
    (fun _ => sendAll_within (by simp)) (fun _ => recvAll_within _ _ _)
  obtain ⟨Y, h1, h2⟩ := C93_second_reader toyLib exClock exClock hp 0 0
  obtain ⟨y, k1, -, k2, -⟩ := h Y h1
  rcases two_results k1 true with e | ⟨m, e⟩ <;> rw [k2 true _ h2] at e <;> cases e

/-! ### After a handshake -/

/-- **C94, the channels after a handshake.** When the client does not buffer M4, the handshakes of honest parties end
normally on both sides, whatever the schedule, with nothing in flight, and the two channels match. -/
theorem C94_handshake {L : Lib} {cc cs : Clock} {cfgC : ClientCfg} {cfgS : ServerCfg} {kc ks : KeyPair}
    (S : Setup L cc cs cfgC cfgS kc ks) (hb : cfgC.bufferM4 = false) :
    ∃ Y, EndsIn (Net.start (party L cc (Client.handshake cfgC Client.init) 0) (party L cs (Server.handshake cfgS Server.init) 0)) Y ∧
      ∃ sC sS a b, Y = ⟨.ret (.ok (), sC), .ret (.ok (), sS), [], []⟩ ∧ sC.chan = some a ∧ sS.chan = some b ∧
        ∀ n ≤ 2 ^ 62, Paired n a b := by
  have hh := S.honest
  obtain ⟨sC, dC, pC⟩ := client_perf S (α := Except Err Unit × ClientSt) .ret
  obtain ⟨sS, dS, pS⟩ := server_perf S (β := Except Err Unit × ServerSt) .ret (cc.now 3) (S.acceptsS.check _ _) false
  obtain ⟨fC, hcC⟩ := dC.chan
  obtain ⟨fS, hcS⟩ := dS.chan
  rw [hb] at pC hcC
  simp only [Bool.false_eq_true, if_false, IT.bind_ret] at pC hcC pS
  obtain ⟨u, pC1, pC2⟩ := Perf.split (tr1 := [_]) pC
  obtain ⟨v, pS1, pS2⟩ := pS.split
  have r1 := Net.run_a pC1 (.frame_write _ _ []) (party L cs (Server.handshake cfgS Server.init) 0) []
  have r2 := Net.run_b pS1 serverCalls_moves u []
  have r3 := Net.run_a pC2 (.read _ (.read _ (.frame_write _ _ []))) v []
  have r4 := Net.run_b pS2 (.read _ (.nil [])) (party L cc (.ret (Except.ok (ε := Err) (), sC)) 4) []
  refine ⟨_, (((r1.trans r2).trans r3).trans r4).endsIn ((Net.stuck_iff _).2 ⟨.inl ⟨_, rfl⟩, .inl ⟨_, rfl⟩⟩), sC, sS, _, _,
    rfl, hcC, hcS, fun n hn => ?_⟩
  exact ⟨rfl, (HS.hk hh).1, ⟨rfl, rfl⟩, rfl, rfl, ⟨by simp only; omega, by simp only; omega⟩, ⟨rfl, rfl⟩, ⟨rfl, rfl⟩, ⟨rfl, rfl⟩⟩

/-- **C94, tasks after a handshake.** The handshakes of honest parties, the client not buffering M4, end normally on both
sides with two channels on which tasks behave as in C93: any number of tasks on each side may write while at most one of
them reads. -/
theorem C94_tasks {L : Lib} {cc cs : Clock} {cfgC : ClientCfg} {cfgS : ServerCfg} {kc ks : KeyPair}
    (S : Setup L cc cs cfgC cfgS kc ks) (hb : cfgC.bufferM4 = false) (hz : BoxSize L) :
    ∃ Y, EndsIn (Net.start (party L cc (Client.handshake cfgC Client.init) 0) (party L cs (Server.handshake cfgS Server.init) 0)) Y ∧
      ∃ sC sS a b, Y = ⟨.ret (.ok (), sC), .ret (.ok (), sS), [], []⟩ ∧ sC.chan = some a ∧ sS.chan = some b ∧
        ∀ {ι κ α β : Type} [DecidableEq ι] [DecidableEq κ] [Fintype ι] [Fintype κ] (pA : ι → IT appSig α)
          (pB : κ → IT appSig β) (n i j : Nat), n ≤ 2 ^ 62 → OneReader pA → OneReader pB → ModestAll 65535 pA n →
          ModestAll 65535 pB n → (∀ t, CallsWithin (2 ^ 31 - 27) (pA t)) → (∀ t, CallsWithin (2 ^ 31 - 27) (pB t)) →
          AioLikeDirect L cc cs pA pB (onSession pA pB a b i j) := by
  obtain ⟨Y, h1, sC, sS, a, b, h2, h3, h4, h5⟩ := C94_handshake S hb
  exact ⟨Y, h1, sC, sS, a, b, h2, h3, h4, fun pA pB n i j hn o1 o2 m1 m2 w1 w2 =>
    C93_tasks_partial S.honest.box hz S.acceptsC S.acceptsS (h5 n hn) i j pA pB o1 o2 m1 m2 w1 w2⟩

/-! ### Examples -/

theorem exTasks_one : OneReader exTasks := by
  have h0 : WriteOnly (exTasks 0) := sendAll_writeOnly _
  have h1 : WriteOnly (exTasks 1) := sendAll_writeOnly _
  intro t t' h
  match t, t' with
  | 0, _ => exact .inl h0
  | 1, _ => exact .inl h1
  | 2, 0 => exact .inr h0
  | 2, 1 => exact .inr h1
  | 2, 2 => exact absurd rfl h

theorem exTasks_modest : ModestAll 65535 exTasks 5 := by
  refine ⟨fun t => match t with | 0 => 3 | 1 => 1 | 2 => 1, ?_, by simp [Fin.sum_univ_three]⟩
  intro t
  match t with
  | 0 => exact sendAll_modest [[[1], [2, 3]], [[4]]] (by simp)
  | 1 => exact sendAll_modest [[[5]]] (by simp)
  | 2 => exact fun _ _ => sendAll_modest [[[6]]] (by simp)

theorem exTasks_within (t : Fin 3) : CallsWithin (2 ^ 31 - 27) (exTasks t) := by
  match t with
  | 0 => exact sendAll_within (by simp)
  | 1 => exact sendAll_within (by simp)
  | 2 => exact fun _ _ => sendAll_within (by simp)

/-- The hypotheses of `C92_tasks_partial` can be met: three tasks on each side. -/
example : AioLikeDirect toyLib exClock exClock exTasks exTasks (onPlain exTasks exTasks) := by
  have h : ∀ t, ShortWritesP (exTasks t) := by
    intro t
    match t with
    | 0 => exact sendAll_short (by simp)
    | 1 => exact sendAll_short (by simp)
    | 2 => exact fun _ _ => sendAll_short (by simp)
  exact C92_tasks_partial _ _ _ _ _ exTasks_one exTasks_one h h

/-- The hypotheses of `C94_tasks`, and of `C93_tasks_partial`, can be met: a handshake, then three tasks on each side. -/
example : ∃ a b : AppSt, AioLikeDirect toyLib exClock exClock exTasks exTasks (onSession exTasks exTasks a b 4 4) := by
  obtain ⟨Y, -, sC, sS, a, b, -, -, -, h⟩ := C94_tasks (exSetup false true) rfl toy_size
  exact ⟨a, b, h exTasks exTasks 5 4 4 (by decide) exTasks_one exTasks_one exTasks_modest exTasks_modest exTasks_within
    exTasks_within⟩

/-- The hypotheses of `C93_duplex` can be met: both sides talk at the same time, and there is a final configuration. -/
example : ∃ Y : AioNet Bool Bool AppSt AppSt (List Bytes) (List Bytes), AioNet.Reach toyLib exClock exClock
    (onSession (duplex [[[1], [2, 3]], [[4]]] 1) (duplex [[[7, 8]]] 3)
      (App.init ⟨zeros 32, zeros 8, 2, 1, [], false⟩) (App.init ⟨zeros 32, zeros 8, 1, 2, [], false⟩)) Y ∧
    Y.a.tasks false = .ret [[7, 8]] ∧ Y.b.tasks false = .ret [[1], [2, 3], [4]] := by
  obtain ⟨Y, h1, h2⟩ := aio_final (L := toyLib) (ca := exClock) (cb := exClock)
    (onSession (duplex [[[1], [2, 3]], [[4]]] 1) (duplex [[[7, 8]]] 3)
      (App.init ⟨zeros 32, zeros 8, 2, 1, [], false⟩) (App.init ⟨zeros 32, zeros 8, 1, 2, [], false⟩))
  obtain ⟨-, h3, -, h4⟩ := C93_duplex toy_box toy_size exAccepts exAccepts (start_paired (n := 3) (key := zeros 32) rfl rfl (by decide))
    0 0 [[[1], [2, 3]], [[4]]] [[[7, 8]]] (by simp) (by simp) (by decide) (by decide) h1 h2
  exact ⟨Y, h1, h3, h4⟩

/-- The hypotheses of `C92_duplex` can be met. -/
example : ∃ Y : AioNet Bool Bool Unit Unit (List Bytes) (List Bytes), AioNet.Reach toyLib exClock exClock
    (onPlain (duplex [[[1], [2, 3]], [[4]]] 1) (duplex [[[7, 8]]] 3)) Y ∧
    Y.a.tasks false = .ret [[7, 8]] ∧ Y.b.tasks false = .ret [[1], [2, 3], [4]] := by
  obtain ⟨Y, h1, h2⟩ := aio_final (L := toyLib) (ca := exClock) (cb := exClock)
    (onPlain (duplex [[[1], [2, 3]], [[4]]] 1) (duplex [[[7, 8]]] 3))
  obtain ⟨-, h3, -, h4⟩ := C92_duplex toyLib exClock exClock [[[1], [2, 3]], [[4]]] [[[7, 8]]] (by simp) (by simp) h1 h2
  exact ⟨Y, h1, h3, h4⟩

end Salt.Props
