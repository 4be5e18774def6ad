import Verif.Lemmas.TcpTime
import Verif.Props.AnyTime
import Verif.Props.StopServer

/-!
# C137: the server of the examples over TCP, with the same time objects in all sessions
-/

namespace Salt.Props

open Salt Spec

variable {σ α : Type} {L : Lib} {T : TimeObj σ} {cfgC : ClientCfg} {cfgS : ServerCfg} {kc ks : KeyPair}

/-- A client session and the handler of the server (dev/client_server.py:54-56, 87-101), with fuel for the loop of the latter.
Simplification: without the `MitmChannel` of the client, which changes nothing (C55). -/
def timedConn (cfgC : ClientCfg) (cfgS : ServerCfg) (pA : IT appSig α) (prog : Py appSig Unit Unit) (fuel : Nat) :
    TcpTime (Except Err α × ClientSt) (Except Err Unit) :=
  .start (sessionOnSocket (clientSession cfgC pA)) (sessionOnSocket (sessionLoop cfgS prog (fuel + 2)))

/-- The client's program has returned `a`, the handler has returned normally, and the key and the hashes of the session are made from
times of `T`. -/
def TimedResult (L : Lib) (T : TimeObj σ) (cfgS : ServerCfg) (kc ks : KeyPair) (a : α)
    (z : TcpTime (Except Err α × ClientSt) (Except Err Unit)) : Prop :=
  ∃ v w, z.a = .ret v ∧ z.b = .ret w ∧ v.1 = .ok a ∧ w = .ok () ∧
    ∃ cc cs, TimesOf T cc ∧ TimesOf T cs ∧ AgreedC L cc cs cfgS kc ks a v

/-- `session_tcp` without the `MitmChannel`. -/
theorem session_plain {cc cs : Clock} (S : Setup L cc cs cfgC cfgS kc ks) (hL : BoxSize L) {pA : IT appSig α}
    {prog : Py appSig Unit Unit} {n : Nat} (hn : n ≤ 2 ^ 62) (hA : Modest 65535 pA n) (hB : Modest 65535 (prog ()) n)
    (hb : cfgC.bufferM4 = true → ∃ ms l k, pA = .op (S := appSig) (.write ms l) k) {a : α} {m : Nat}
    (hr : Net.RunC CallFits m (Net.start pA (prog ())) ⟨.ret a, .ret (.ok (), ()), [], []⟩) (fuel : Nat) :
    ∃ sc, AgreedC L cc cs cfgS kc ks a (.ok a, sc) ∧ tcp.Ends (Results (.ok a, sc) (.ok ()))
      (SockNet.start (onSocket (party L cc (clientSession cfgC pA) 0))
        (onSocket (party L cs (sessionLoop cfgS prog (fuel + 2)) 0))) := by
  obtain ⟨key, h1, h2, hk, ⟨y, Y, e1, e2, e3, e4, e5, e6⟩, e7⟩ :=
    session_short hL S pA (prog ()) hn hA hB hb (hr.calls (stuck_rets _ _ _ _))
  have hy : y = ⟨.ret a, .ret (.ok (), ()), [], []⟩ := by
    obtain ⟨-, n, -, h3⟩ := e1
    exact ((h3 _ _ hr.run).2 (stuck_rets _ _ _ _)).symm
  subst hy
  obtain ⟨Ya, Yb, ab, ba⟩ := Y
  simp only at e3 e4
  obtain rfl := e5 rfl
  obtain rfl := e6 rfl
  cases e3 with
  | @ret _ rc hc =>
    cases e4 with
    | @ret _ rs hs =>
      obtain ⟨-, N, hN, -⟩ := e2
      obtain ⟨B, hB1, hB2⟩ := loop_round S.encS (e7.runC hN) hs.1 fuel
      obtain ⟨rc1, rc2⟩ := rc
      have hc1 := hc.1
      simp only at hc1
      subst hc1
      have hst : Net.Stuck (⟨.ret (.ok a, rc2), B, [], []⟩ : Net (Except Err α × ClientSt) (Except Err Unit)) := by
        refine (Net.stuck_iff _).2 ⟨.inl ⟨_, rfl⟩, ?_⟩
        rcases hB2 with hB2 | ⟨k, hB2, -⟩
        · exact .inl ⟨_, hB2⟩
        · exact .inr ⟨⟨k, hB2⟩, rfl⟩
      exact ⟨rc2, ⟨key, h1, h2, hk, hc⟩, tcp_ends (hB1.calls hst) (hB1.run.endsIn hst) hB2⟩

theorem timedConn_net (cc cs : Clock) (pA : IT appSig α) (prog : Py appSig Unit Unit) (fuel : Nat) :
    (timedConn cfgC cfgS pA prog fuel).net L cc cs 0 0 =
      SockNet.start (onSocket (party L cc (clientSession cfgC pA) 0)) (onSocket (party L cs (sessionLoop cfgS prog (fuel + 2)) 0)) := by
  simp only [timedConn, TcpTime.net, TcpTime.start, settle_session]
  rfl

/-- **C137, one connection.** Programs that end when directly connected, as an example session over TCP: whatever other threads do
with the time objects in between, both ends return, the client with the result of its program. -/
theorem C137_connection (hT : T.Fine) (s : σ) (hh : Honest L kc ks cfgC.sigKp cfgS.sigKp) (hkc : cfgC.encKp = some kc)
    (hks : cfgS.encKp = some ks) (hL : BoxSize L) {pA : IT appSig α}
    {prog : Py appSig Unit Unit} {n : Nat} (hn : n ≤ 2 ^ 62) (hA : Modest 65535 pA n) (hB : Modest 65535 (prog ()) n)
    (hb : cfgC.bufferM4 = true → ∃ ms l k, pA = .op (S := appSig) (.write ms l) k) {a : α} {m : Nat}
    (hr : Net.RunC CallFits m (Net.start pA (prog ())) ⟨.ret a, .ret (.ok (), ()), [], []⟩) (fuel : Nat) :
    (tcpTime L T).Ends (TimedResult L T cfgS kc ks a) (timedConn cfgC cfgS pA prog fuel) ∧
    (tcpTime L T).NeedsServer (timedConn cfgC cfgS pA prog fuel) := by
  have setup : ∀ {g h : List Tick}, (∀ t ∈ g, t.Of T) → (∀ t ∈ h, t.Of T) →
      Setup L (clockOf T s g) (clockOf T s h) cfgC cfgS kc ks := fun hg hh' =>
    ⟨hh, hkc, hks, Fine.accepts hT s s hg hh', Fine.accepts hT s s hh' hg⟩
  constructor
  · have := tcpTime_ends (L := L) (T := T) s (x := timedConn cfgC cfgS pA prog fuel)
      (Q := fun v w => v.1 = .ok a ∧ w = .ok () ∧ ∃ cc cs, TimesOf T cc ∧ TimesOf T cs ∧ AgreedC L cc cs cfgS kc ks a v) (by
        rintro cc cs ⟨g, hg, rfl⟩ ⟨h, hh', rfl⟩
        obtain ⟨sc, hag, t1, t2⟩ := session_plain (setup hg hh') hL hn hA hB hb hr fuel
        rw [timedConn_net]
        exact ⟨t1, fun z hz hs => ⟨(t2 z hz hs).1, (t2 z hz hs).2.1, _, _, (t2 z hz hs).2.2, rfl, rfl, _, _,
          ⟨(clockOf_range T s hg).1, (clockOf_range T s hg).2.1⟩, ⟨(clockOf_range T s hh').1, (clockOf_range T s hh').2.1⟩, hag⟩⟩)
    exact this
  · refine tcpTime_needs s (clockOf T s []) ?_
    rintro cc ⟨g, hg, rfl⟩
    rw [timedConn_net]
    refine ((session_listens (setup hg (by simp : ∀ t ∈ ([] : List Tick), t.Of T)) pA).onSocket).needs fun r => ?_
    obtain ⟨k, hk, -⟩ := loop_again hks L (clockOf T s []) prog (fuel + 1) 0
    rw [hk]
    exact read_ne_ret k r

/-- **C137, example session 1.** The main program with any number of clients, all sessions of the process having the same time
objects: every client gets its request back, every handler returns normally, and the server stops. -/
theorem C137_example1 (hT : T.Fine) (s : σ) (hh : Honest L kc ks cfgC.sigKp cfgS.sigKp) (hkc : cfgC.encKp = some kc)
    (hks : cfgS.encKp = some ks) (hL : BoxSize L) (fuel : Nat) (reqs : List Bytes) (hreq : ∀ q ∈ reqs, CallFits [q]) :
    MpRun.AllServed (tcpTime L T) reqs (fun q => timedConn cfgC cfgS (Example1.client q ()) Example1.server fuel)
      (fun q => TimedResult L T cfgS kc ks (.ok q, ())) := by
  have h := fun q hq => C137_connection (L := L) (T := T) hT s hh hkc hks hL (n := 1) (by decide) (example1_modest q).1
    (example1_modest q).2 (fun _ => ⟨_, _, _, rfl⟩) (example1_run q (hreq q hq)) fuel
  exact C116_all_served_partial tcpTime_lawful (fun q hq => (h q hq).1) fun q hq => (h q hq).2

/-- **C137, example session 3**, whose time keeper is one object for all clients and handlers (dev/example_session3.py:26-37):
in every client all comparisons succeed, every handler returns normally, and the server stops. -/
theorem C137_example3 (hh : Honest L kc ks cfgC.sigKp cfgS.sigKp) (hkc : cfgC.encKp = some kc)
    (hks : cfgS.encKp = some ks) (hL : BoxSize L) (fuel : Nat) (reqs : List (Bytes × Bytes × Bytes))
    (hreq : ∀ q ∈ reqs, CallFits [q.1] ∧ CallFits [q.2.1, q.2.2]) :
    MpRun.AllServed (tcpTime L oneTwoThreeObj) reqs
      (fun q => timedConn cfgC cfgS (Example3.client q.1 q.2.1 q.2.2 ()) Example3.server fuel)
      (fun _ => TimedResult L oneTwoThreeObj cfgS kc ks (.ok (), ())) := by
  have h := fun q hq => C137_connection (L := L) (T := oneTwoThreeObj) oneTwoThree_fine 0 hh hkc hks hL (n := 3) (by decide)
    (example3_modest q.1 q.2.1 q.2.2).1 (example3_modest q.1 q.2.1 q.2.2).2 (fun _ => ⟨_, _, _, rfl⟩)
    (example3_run q.1 q.2.1 q.2.2 (hreq q hq).1 (hreq q hq).2) fuel
  exact C116_all_served_partial tcpTime_lawful (fun q hq => (h q hq).1) fun q hq => (h q hq).2

/-- The hypotheses of C137 hold for some sessions and requests. -/
example (b b' : Bool) : oneTwoThreeObj.Fine ∧ Honest toyLib exKc exKs (exCfgC b).sigKp (exCfgS b').sigKp ∧ BoxSize toyLib ∧
    (exCfgC b).encKp = some exKc ∧ (exCfgS b').encKp = some exKs ∧ CallFits [[1, 2, 3]] ∧ CallFits [[1], [2, 3]] :=
  ⟨oneTwoThree_fine, (exSetup b b').honest, toy_size, rfl, rfl, by simp [CallFits], by simp [CallFits]⟩

end Salt.Props
