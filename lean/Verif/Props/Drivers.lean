import Verif.Spec.Drivers
import Verif.Props.StopServer
import Verif.Props.ClientServerA

/-!
# C125: who learns that a client session has failed
-/

namespace Salt.Props

open Salt Salt.Spec

/-! ### One client thread -/

/-- **C125, a client thread.** Whether `connect` or `client_session` raise or not, the thread ends normally, what they have raised
has been logged, `is_session_active` is false in the end, and the socket has been closed; if they have not raised,
the session has been run. -/
theorem C125_thread {tr : List (Ev threadSig)} {r : Except Err Unit} {s : Unit} (h : Call runSession () tr r s)
    (ok : ∀ v ∈ tr, v.op ≠ .connect → v.op ≠ .session → v.res = .ok ()) :
    r = .ok () ∧ loggedIn tr = raisedIn tr ∧ (raisedIn tr).length ≤ 1 ∧
      (∃ pre, tr.map (·.op) = .socket :: pre ++ [.close, .active false] ∧ ThreadOp.socket ∉ pre ∧ ThreadOp.close ∉ pre) ∧
      (raisedIn tr = [] → tr.map (·.op) = [.socket, .connect, .active true, .session, .close, .active false]) := by
  unfold Call at h
  repeat' (rcases h with _ | @⟨_, _, (_ | _), _, _, h⟩)
  all_goals first
    | (exfalso; simp at ok; done)
    | exact ⟨rfl, rfl, by simp [raisedIn], ⟨[.connect, .log _], rfl, by simp, by simp⟩, by simp [raisedIn]⟩
    | exact ⟨rfl, rfl, by simp [raisedIn], ⟨[.connect, .active true, .session, .log _], rfl, by simp, by simp⟩, by simp [raisedIn]⟩
    | exact ⟨rfl, rfl, by simp [raisedIn], ⟨[.connect, .active true, .session], rfl, by simp, by simp⟩, fun _ => rfl⟩

/-- The hypotheses can be met: a session that raises `BadPeer`. -/
example : ∃ tr, Call runSession () tr (.ok ()) () ∧ raisedIn tr = [.badPeer] ∧
    ∀ v ∈ tr, v.op ≠ .connect → v.op ≠ .session → v.res = .ok () :=
  ⟨[⟨.socket, .ok ()⟩, ⟨.connect, .ok ()⟩, ⟨.active true, .ok ()⟩, ⟨.session, .error .badPeer⟩, ⟨.log .badPeer, .ok ()⟩, ⟨.close, .ok ()⟩,
      ⟨.active false, .ok ()⟩],
    .op _ _ _ _ _ (.op _ _ _ _ _ (.op _ _ _ _ _ (.op _ _ _ _ _ (.op _ _ _ _ _ (.op _ _ _ _ _ (.op _ _ _ _ _ (.ret _))))))),
    rfl, by
      simp only [List.mem_cons, List.not_mem_nil, or_false]
      rintro v (rfl | rfl | rfl | rfl | rfl | rfl | rfl) h1 h2 <;> first | rfl | exact absurd rfl h2⟩

/-- **C125, a client thread.** Once it has a socket, the thread closes it, whatever else raises. -/
theorem C125_thread_closes {tr : List (Ev threadSig)} {r : Except Err Unit} {s : Unit} (h : Call runSession () tr r s)
    (hs : (⟨.socket, .ok ()⟩ : Ev threadSig) ∈ tr) : (tr.filter fun v => decide ((v.op : ThreadOp) = .close)).length = 1 := by
  unfold Call at h
  repeat' (rcases h with _ | @⟨_, _, (_ | _), _, _, h⟩)
  all_goals first
    | rfl
    | cases List.mem_singleton.1 hs

/-! ### `run_sessions` with threads -/

section threads

variable {X : Type} {S : Link X} {res : X → Except Err Unit}

theorem MpLog.Reach.run {R T : MpLog X} (h : MpLog.Reach S res R T) : MpRun.Reach S R.run T.run := by
  induction h with
  | refl => exact .refl _
  | step _ hs ih => cases hs with | step hs => exact .step ih hs

/-- What the threads at their ends have raised. -/
def leftRaised (res : X → Except Err Unit) (c : Conn X) : Option Err := if c.cl = .left then raisedBy (res c.x) else none

theorem lines_perm {cs ds : List (Conn X)} (h : List.Forall₂ (fun c d => c.cl = .left → d.cl = .left ∧ res d.x = res c.x) cs ds) :
    (cs.filterMap (leftRaised res) ++ (cs.zip ds).filterMap fun p => MpLog.line res p.1 p.2).Perm (ds.filterMap (leftRaised res)) := by
  induction h with
  | nil => exact .refl _
  | @cons c d cs ds h _ ih =>
    by_cases hc : c.cl = .left
    · obtain ⟨h1, h2⟩ := h hc
      have e1 : leftRaised res d = leftRaised res c := by simp [leftRaised, hc, h1, h2]
      have e2 : MpLog.line res c d = none := by simp [MpLog.line, hc]
      simp only [List.zip_cons_cons, List.filterMap_cons, e2, e1]
      cases leftRaised res c with
      | none => exact ih
      | some e => exact ih.cons e
    · have e1 : leftRaised res c = none := by simp [leftRaised, hc]
      have e2 : MpLog.line res c d = leftRaised res d := by simp [MpLog.line, leftRaised, hc]
      simp only [List.zip_cons_cons, List.filterMap_cons, e2, e1]
      cases leftRaised res d with
      | none => exact ih
      | some e => exact List.perm_middle.trans (ih.cons e)

theorem forall2_set {α : Type} {P : α → α → Prop} (hr : ∀ a, P a a) : ∀ {l : List α} {i : Nat} {c c' : α}, l[i]? = some c →
    P c c' → List.Forall₂ P l (l.set i c')
  | [], _, _, _, h, _ => by simp at h
  | a :: l, 0, c, c', h, hp => by
    cases (Option.some.inj h : a = c)
    exact .cons hp (List.forall₂_same.2 fun a _ => hr a)
  | a :: l, i + 1, c, c', h, hp => .cons (hr a) (forall2_set hr h hp)

theorem Farm.Step.results (hres : Stays S res) {xs : List X} {F G : Farm X} (hi : Farm.Inv S xs F) (h : Farm.Step S F G) :
    List.Forall₂ (fun c d => c.cl = .left → d.cl = .left ∧ res d.x = res c.x) F.conns G.conns := by
  have hr : ∀ c : Conn X, c.cl = .left → c.cl = .left ∧ res c.x = res c.x := fun c h => ⟨h, rfl⟩
  cases h with
  | connect h1 h2 => exact forall2_set hr h1 fun h => absurd (h2.symm.trans h) (by decide)
  | accept _ _ h1 _ => exact forall2_set hr h1 (hr _)
  | client h1 h2 _ => exact forall2_set hr h1 fun h => absurd (h2.symm.trans h) (by decide)
  | server h1 _ h3 => exact forall2_set hr h1 fun h => ⟨h, hres _ _ (hi.left _ _ h1 h) h3⟩
  | finish h1 _ _ => exact forall2_set hr h1 (hr _)
  | leave h1 h2 _ => exact forall2_set hr h1 fun h => absurd (h2.symm.trans h) (by decide)

theorem MpLog.Reach.logged (hS : S.Lawful) (hres : Stays S res) {xs : List X} {R : MpLog X}
    (h : MpLog.Reach S res (MpLog.start xs) R) : R.log.Perm (R.run.farm.conns.filterMap (leftRaised res)) := by
  generalize hR0 : MpLog.start xs = R0 at h
  induction h with
  | refl =>
    subst hR0
    simp only [MpLog.start, MpRun.start, Farm.start, List.filterMap_map]
    rw [show (leftRaised res ∘ fun x => (⟨.idle, .waiting, x⟩ : Conn X)) = fun _ => none from rfl]
    simp
  | @step T U hr hs ih =>
    subst hR0
    cases hs with
    | @step T' hs =>
      have hi := (MpRun.Reach.inv hS (MpLog.Reach.run hr)).farm
      refine (ih.append_right _).trans (lines_perm ?_)
      cases hs with
      | farm hG _ => exact Farm.Step.results hres hi hG
      | shutdown | exit | close => exact List.forall₂_same.2 fun c _ h => ⟨h, rfl⟩

/-- **C125, threads, what holds.** When `run_sessions` has returned, all client sessions have ended and every exception one of
them has raised has been logged, once for each session. -/
theorem C125_logged_partial (hS : S.Lawful) (hres : Stays S res) {xs : List X} {R : MpLog X}
    (h : MpLog.Reach S res (MpLog.start xs) R) (hm : R.run.main ≠ .sessions) :
    R.run.farm.conns.length = xs.length ∧ (∀ c ∈ R.run.farm.conns, S.doneC c.x) ∧
      R.log.Perm (R.run.farm.conns.filterMap fun c => raisedBy (res c.x)) := by
  have hi := MpRun.Reach.inv hS (MpLog.Reach.run h)
  have hl := hi.left hm
  refine ⟨hi.farm.len, fun c hc => ?_, (MpLog.Reach.logged hS hres h).trans ?_⟩
  · obtain ⟨i, hi'⟩ := List.getElem?_of_mem hc
    exact hi.farm.left i c hi' (hl c hc)
  · rw [List.filterMap_congr fun c hc => (by simp [leftRaised, hl c hc] : leftRaised res c = raisedBy (res c.x))]

end threads

/-- The result of a client of a TCP connection stays. -/
theorem tcp_stays {α β : Type} (f : α → Except Err Unit) : Stays (tcp (α := α) (β := β)) (tcpResult f) := by
  intro x y _ h
  have := TcpStep.keep h
  simp only [SockNet.swap] at this
  unfold tcpResult
  rw [this]

/-- C125 as intended, for threads: `run_sessions` returns normally only if all client sessions have returned normally. -/
def C125_claim : Prop := ∀ (α β : Type) (f : α → Except Err Unit) (xs : List (SockNet α β)) (R : MpLog (SockNet α β)),
  MpLog.Reach tcp (tcpResult f) (MpLog.start xs) R → R.run.main ≠ .sessions →
    ∀ c ∈ R.run.farm.conns, tcpResult f c.x = .ok ()

/-- A client session that reads a message raises a ComException when the server has closed the connection. -/
theorem lost_run : ∃ (x : SockNet (Except Err Bytes × Unit) Unit) (R : MpLog (SockNet (Except Err Bytes × Unit) Unit)),
    MpLog.Reach tcp (tcpResult fun r => r.1.map fun _ => ()) (MpLog.start [x]) R ∧ R.run.main ≠ .sessions ∧ R.log = [.comException] ∧
      ∃ c ∈ R.run.farm.conns, tcpResult (fun r => r.1.map fun _ => ()) c.x = .error .comException := by
  let x : SockNet (Except Err Bytes × Unit) Unit := SockNet.start (SocketChannel.readSync ()) (.ret ())
  let y : SockNet (Except Err Bytes × Unit) Unit := ⟨.ret (.error .comException, ()), .ret (), [], []⟩
  have hs : tcp.stepC x y := by
    obtain ⟨n, k, h1, h2⟩ := read_eof (u := SocketChannel.readSync ()) ReadSt.init
    show TcpStep ⟨SocketChannel.readSync (), .ret (), [], []⟩ ⟨.ret (.error .comException, ()), .ret (), [], []⟩
    rw [h1, ← h2]
    exact .eof n k
  refine ⟨x, ⟨⟨⟨[⟨.left, .waiting, y⟩], [0], false⟩, .stopping, true⟩, [.comException]⟩, ?_, by simp, rfl, _, List.mem_singleton.2 rfl, rfl⟩
  exact .step (.step (.step (.step (.refl _)
    (.step (.farm (.connect (i := 0) (c := ⟨.idle, .waiting, x⟩) rfl rfl) fun e => absurd rfl e)))
    (.step (.farm (.client (i := 0) (c := ⟨.running, .waiting, x⟩) (y := y) rfl rfl hs) fun e => absurd rfl e)))
    (.step (.farm (.leave (i := 0) (c := ⟨.running, .waiting, y⟩) rfl rfl ⟨_, rfl⟩) fun e => absurd rfl e)))
    (.step (.shutdown rfl (by simp [MpLog.start, MpRun.start, Farm.start])))

/-- **C125 fails.** A client session that reads a message raises a ComException when the server has closed the connection;
`run_sessions` returns nevertheless. -/
theorem C125_violated : ¬ C125_claim := by
  intro h
  obtain ⟨x, R, h1, h2, -, c, hc, he⟩ := lost_run
  have := h _ _ _ [x] R h1 h2 c hc
  rw [he] at this
  cases this

/-- The hypotheses of `C125_logged_partial` can be met: the run above. -/
example : ∃ (x : SockNet (Except Err Bytes × Unit) Unit) (R : MpLog (SockNet (Except Err Bytes × Unit) Unit)),
    MpLog.Reach tcp (tcpResult fun r => r.1.map fun _ => ()) (MpLog.start [x]) R ∧ R.run.main ≠ .sessions ∧ R.log = [.comException] ∧
      (tcp (α := Except Err Bytes × Unit) (β := Unit)).Lawful := by
  obtain ⟨x, R, h1, h2, h3, -⟩ := lost_run
  exact ⟨x, R, h1, h2, h3, tcp_lawful⟩

/-! ### `run_sessions` with coroutines -/

theorem awaitAll_ok {l : List (Except Err Unit)} : awaitAll l = .ok () ↔ ∀ r ∈ l, r = .ok () := by
  induction l with
  | nil => simp [awaitAll]
  | cons r l ih =>
    cases r with
    | ok u => simp [awaitAll, ih]
    | error e => simp [awaitAll]

theorem awaitAll_error {l : List (Except Err Unit)} {e : Err} (h : awaitAll l = .error e) : .error e ∈ l := by
  induction l with
  | nil => cases h
  | cons r l ih =>
    cases r with
    | ok u => exact List.mem_cons_of_mem _ (ih h)
    | error e' => cases h; exact List.mem_cons_self ..

section coroutines

variable {X : Type} {S : Link X} {res : X → Except Err Unit}

theorem PoolRun.Reach.pool {R T : PoolRun X} (h : PoolRun.Reach S res R T) : Pool.Reach S R.pool T.pool := by
  induction h with
  | refl => exact .refl _
  | step _ hs ih =>
    cases hs with
    | run hs _ => exact .step ih hs
    | ret h1 h2 _ => exact .step ih (.stop h1 h2)

theorem PoolRun.Reach.result {xs : List X} {R : PoolRun X} (h : PoolRun.Reach S res (PoolRun.start xs) R) :
    (R.pool.running = true → R.result = none) ∧ (R.pool.running = false → ∃ done : List (Except Err Unit),
      done.Perm (R.pool.conns.map fun c => res c.2) ∧ R.result = some (awaitAll done)) := by
  generalize hR0 : PoolRun.start xs = R0 at h
  induction h with
  | refl => subst hR0; exact ⟨fun _ => rfl, fun h => (by cases h)⟩
  | @step T U hr hs ih =>
    subst hR0
    cases hs with
    | @run P hs he =>
      refine ⟨fun hP => ih.1 (he ▸ hP), fun hP => ?_⟩
      have hT : T.pool.running = false := he ▸ hP
      cases hs with
      | connect h1 => rw [hT] at h1; cases h1
      | client h1 h2 _ => exact absurd ((PoolRun.Reach.pool hr).inv.stopped hT _ (List.mem_of_getElem? h1)).2 h2
      | server h1 => rw [hT] at h1; cases h1
      | stop h1 => rw [hT] at h1; cases h1
    | @ret done h1 h2 h3 => exact ⟨fun h => (by cases h), fun _ => ⟨done, h3, rfl⟩⟩

/-- **C125, coroutines.** When `run_sessions` has returned or raised, all clients have ended; it returns normally if and only if all
of them have; otherwise what it raises is what one of them has raised. -/
theorem C125_reported_partial {xs : List X} {R : PoolRun X} (h : PoolRun.Reach S res (PoolRun.start xs) R)
    {r : Except Err Unit} (hr : R.result = some r) :
    R.pool.conns.length = xs.length ∧ (∀ c ∈ R.pool.conns, c.1 = true ∧ S.doneC c.2) ∧
      (r = .ok () ↔ ∀ c ∈ R.pool.conns, res c.2 = .ok ()) ∧ ∀ e, r = .error e → ∃ c ∈ R.pool.conns, res c.2 = .error e := by
  obtain ⟨h1, h2⟩ := PoolRun.Reach.result h
  have hf : R.pool.running = false := by
    cases hb : R.pool.running with
    | false => rfl
    | true => rw [h1 hb] at hr; cases hr
  obtain ⟨done, hp, hd⟩ := h2 hf
  rw [hr] at hd
  cases hd
  have hi := (PoolRun.Reach.pool h).inv
  refine ⟨hi.len, hi.stopped hf, ?_, fun e he => ?_⟩
  · rw [awaitAll_ok]
    constructor
    · exact fun h c hc => h _ (hp.mem_iff.2 (List.mem_map.2 ⟨c, hc, rfl⟩))
    · intro h r hr
      obtain ⟨c, hc, rfl⟩ := List.mem_map.1 (hp.mem_iff.1 hr)
      exact h c hc
  · obtain ⟨c, hc, h⟩ := List.mem_map.1 (hp.mem_iff.1 (awaitAll_error he))
    exact ⟨c, hc, h⟩

/-- **C125, coroutines.** `run_sessions` does not wait forever unless a client does: when nothing more can happen, it has
returned or raised, or there is a client that has not ended. -/
theorem C125_returns_partial {xs : List X} {R : PoolRun X} (h : PoolRun.Reach S res (PoolRun.start xs) R) (hs : PoolRun.Stuck S res R) :
    (∃ r, R.result = some r) ∨ ∃ c ∈ R.pool.conns, ¬ S.doneC c.2 ∧ S.Stuck c.2 := by
  obtain ⟨-, h2⟩ := PoolRun.Reach.result h
  cases hb : R.pool.running with
  | false =>
    obtain ⟨done, -, hd⟩ := h2 hb
    exact .inl ⟨_, hd⟩
  | true =>
    right
    by_contra hn
    refine hs _ (.ret hb (fun c hc => ?_) (.refl _))
    obtain ⟨i, hi⟩ := List.getElem?_of_mem hc
    obtain ⟨b, x⟩ := c
    have hb' : b = true := by
      cases b with
      | true => rfl
      | false => exact absurd (.run (.connect hb hi) rfl) (hs _)
    subst hb'
    refine ⟨rfl, ?_⟩
    by_contra hd
    refine hn ⟨_, hc, hd, fun y hy => ?_⟩
    rcases hy with hy | hy
    · exact hs _ (.run (.client hi hd hy) rfl)
    · exact hs _ (.run (.server hb hi hy) rfl)

theorem PoolRun.acc {R : PoolRun X} (h : Pool.Terminates S R.pool) : Acc (fun T R => PoolRun.Step S res R T) R := by
  refine Subrelation.accessible (r := InvImage (fun Q P => Pool.Step S P Q) PoolRun.pool) ?_ (InvImage.accessible _ h)
  intro T R h
  show Pool.Step S R.pool T.pool
  cases h with
  | run h _ => exact h
  | ret h1 h2 _ => exact .stop h1 h2

theorem PoolRun.exists_final {R : PoolRun X} (h : Pool.Terminates S R.pool) :
    ∃ T, PoolRun.Reach S res R T ∧ PoolRun.Stuck S res T := by
  have hacc := PoolRun.acc (res := res) h
  clear h
  induction hacc with
  | intro R _ ih =>
    by_cases hs : PoolRun.Stuck S res R
    · exact ⟨R, .refl _, hs⟩
    · obtain ⟨Q, hQ⟩ := Classical.not_forall_not.1 hs
      obtain ⟨U, h1, h2⟩ := ih Q hQ
      refine ⟨U, ?_, h2⟩
      clear ih h2
      induction h1 with
      | refl => exact .step (.refl _) hQ
      | step _ hs ih => exact .step ih hs

end coroutines

/-- **C125, coroutines.** Clients on asyncio streams that would finish alone, with results `a d` that `f` takes to what they have
returned or raised: whatever the schedule, `run_sessions` ends; it returns normally if and only if all clients have,
and otherwise raises what one of them has raised. -/
theorem C125_run_sessions_partial {α β D : Type} {L : Lib} {ca cb : Clock} {ds : List D}
    {conn : D → AioNet Unit Unit Unit Unit α β} {a : D → α} {b : D → β} (f : α → Except Err Unit)
    (h : ∀ d ∈ ds, BothFinish L ca cb (conn d) (a d) (b d)) :
    Acc (fun T R => PoolRun.Step (aioLink L ca cb) (aioResult f) R T) (PoolRun.start (ds.map conn)) ∧
    (∃ R, PoolRun.Reach (aioLink L ca cb) (aioResult f) (PoolRun.start (ds.map conn)) R ∧ PoolRun.Stuck (aioLink L ca cb) (aioResult f) R) ∧
    ∀ R, PoolRun.Reach (aioLink L ca cb) (aioResult f) (PoolRun.start (ds.map conn)) R → PoolRun.Stuck (aioLink L ca cb) (aioResult f) R →
      ∃ r, R.result = some r ∧ (r = .ok () ↔ ∀ d ∈ ds, f (a d) = .ok ()) ∧ ∀ e, r = .error e → ∃ d ∈ ds, f (a d) = .error e := by
  have ht : Pool.Terminates (aioLink L ca cb) (PoolRun.start (ds.map conn)).pool := Pool.terminates fun x _ => aioLink_terminates x
  refine ⟨PoolRun.acc ht, PoolRun.exists_final ht, fun R hR hs => ?_⟩
  have hi := (PoolRun.Reach.pool hR).inv
  have from_d : ∀ c ∈ R.pool.conns, ∃ d ∈ ds, (aioLink L ca cb).Reach (conn d) c.2 := by
    intro c hc
    obtain ⟨i, hi'⟩ := List.getElem?_of_mem hc
    obtain ⟨x, hx, hr⟩ := hi.reach i c hi'
    rw [List.getElem?_map, Option.map_eq_some_iff] at hx
    obtain ⟨d, hd, rfl⟩ := hx
    exact ⟨d, List.mem_of_getElem? hd, hr⟩
  have res_of : ∀ {c : Bool × AioNet Unit Unit Unit Unit α β} {d : D}, d ∈ ds → (aioLink L ca cb).Reach (conn d) c.2 →
      (aioLink L ca cb).doneC c.2 → aioResult f c.2 = f (a d) := by
    rintro c d hd hr ⟨q, hq⟩
    rw [← (finish_results (h d hd) hr).1 q hq]
    simp only [aioResult, hq]
  obtain ⟨r, hr⟩ : ∃ r, R.result = some r := by
    rcases C125_returns_partial hR hs with hr | ⟨c, hc, h1, h2⟩
    · exact hr
    · obtain ⟨d, hd, hrd⟩ := from_d c hc
      obtain ⟨h3, -⟩ := (h d hd).2.2.1 _ (aioLink_reach hrd) (aioLink_stuck h2)
      exact absurd ⟨_, h3⟩ h1
  obtain ⟨h1, h2, h3, h4⟩ := C125_reported_partial hR hr
  refine ⟨r, hr, h3.trans ⟨fun k d hd => ?_, fun k c hc => ?_⟩, fun e he => ?_⟩
  · obtain ⟨i, hi'⟩ := List.getElem?_of_mem hd
    obtain ⟨c, hc⟩ : ∃ c, R.pool.conns[i]? = some c := by
      have : i < R.pool.conns.length := by rw [h1, List.length_map]; exact (List.getElem?_eq_some_iff.1 hi').1
      exact ⟨_, List.getElem?_eq_getElem this⟩
    obtain ⟨x, hx, hrx⟩ := hi.reach i c hc
    rw [List.getElem?_map, hi'] at hx
    cases hx
    rw [← res_of hd hrx (h2 c (List.mem_of_getElem? hc)).2]
    exact k c (List.mem_of_getElem? hc)
  · obtain ⟨d, hd, hr⟩ := from_d c hc
    rw [res_of hd hr (h2 c hc).2]
    exact k d hd
  · obtain ⟨c, hc, hce⟩ := h4 e he
    obtain ⟨d, hd, hr⟩ := from_d c hc
    exact ⟨d, hd, by rw [← res_of hd hr (h2 c hc).2]; exact hce⟩

/-- The hypotheses can be met: of two clients one returns and one raises `BadPeer`, and `run_sessions` raises `BadPeer`. -/
example : ∃ (conn : Except Err Unit → AioNet Unit Unit Unit Unit (Except Err Unit) Unit) (R : PoolRun _),
    PoolRun.Reach (aioLink toyLib exClock exClock) (aioResult id) (PoolRun.start ([.ok (), .error .badPeer].map conn)) R ∧
      R.result = some (.error .badPeer) := by
  let conn : Except Err Unit → AioNet Unit Unit Unit Unit (Except Err Unit) Unit := fun r =>
    AioNet.pair (Aio.closing (fun _ => true) (Aio.on (Aio.plain (.ret r)))) (Aio.closing (fun _ => true) (Aio.on (Aio.plain (.ret ()))))
  have h : ∀ r : Except Err Unit, BothFinish toyLib exClock exClock (conn r) r () := fun r =>
    have hst : Net.Stuck (Net.start (.ret r : IT appSig (Except Err Unit)) (.ret () : IT appSig Unit)) :=
      (Net.stuck_iff _).2 ⟨.inl ⟨_, rfl⟩, .inl ⟨_, rfl⟩⟩
    have hrun : Net.RunC Fits 0 (Net.start (.ret r : IT appSig (Except Err Unit)) (.ret () : IT appSig Unit)) ⟨.ret r, .ret (), [], []⟩ := .refl _
    pair_finish (impl_closing_plain _ _ 0) (impl_closing_plain _ _ 0) (hrun.calls hst) (hrun.run.endsIn hst) rfl rfl
  obtain ⟨-, ⟨R, h1, h2⟩, h3⟩ := C125_run_sessions_partial (ds := [.ok (), .error .badPeer]) (conn := conn) (a := id) (b := fun _ => ()) id
    fun d _ => h d
  obtain ⟨r, h4, h5, h6⟩ := h3 R h1 h2
  refine ⟨conn, R, h1, ?_⟩
  rw [h4]
  cases r with
  | ok u =>
    have := h5.1 rfl (.error .badPeer) (by simp)
    cases this
  | error e =>
    obtain ⟨d, hd, he⟩ := h6 e rfl
    simp only [List.mem_cons, List.not_mem_nil, or_false] at hd
    rcases hd with rfl | rfl <;> cases he
    rfl

/-! ### The main programs -/

/-- **C125, the main programs.** `stop_server` is called if and only if `run_sessions` has returned normally, and what
`run_sessions` raises ends the program. -/
theorem C125_main {tr : List (Ev mainSig)} {r : Except Err Unit} {s : Unit} (h : Call driverMain () tr r s)
    {q : Except Err Unit} (hq : (⟨.sessions, q⟩ : Ev mainSig) ∈ tr) :
    ((∃ v ∈ tr, v.op = .stop) ↔ q = .ok ()) ∧ (∀ e, q = .error e → r = .error e) := by
  unfold Call at h
  repeat' (rcases h with _ | @⟨_, _, (_ | _), _, _, h⟩)
  all_goals
    simp only [List.mem_cons, List.not_mem_nil, or_false] at hq
  · cases hq
  · rcases hq with hq | hq <;> cases hq
    refine ⟨⟨?_, fun h => (by cases h)⟩, fun e h => h⟩
    rintro ⟨v, hv, h⟩
    simp only [List.mem_cons, List.not_mem_nil, or_false] at hv
    rcases hv with rfl | rfl
    · cases h
    · cases h
  all_goals
    rcases hq with hq | hq | hq <;> cases hq
    exact ⟨⟨fun _ => rfl, fun _ => ⟨_, List.mem_cons_of_mem _ (List.mem_cons_of_mem _ (List.mem_cons_self ..)), rfl⟩⟩,
      fun e h => (by cases h)⟩

end Salt.Props
