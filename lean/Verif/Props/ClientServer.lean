import Verif.Lemmas.Tcp
import Verif.Lemmas.Rounds
import Verif.Lemmas.SockSession
import Verif.Props.Dev2
import Verif.Props.Loops
import Verif.Props.Net2

/-!
# Many clients and one server thread (C102 - C104)
-/

set_option linter.unusedSimpArgs false

namespace Salt.Props

open Salt Salt.Spec

/-! ### C102: everybody is served -/

section general

variable {X : Type} {S : Link X}

/-- **C102.** `run_sessions` with any number of clients, each of which would end together with its handler if it were
alone: whatever the schedule of all threads, everything ends; then all client threads are at their ends, all
connections have been served, the results are those each pair would get alone, and `is_session_active` is false. -/
theorem C102_run_sessions (hS : S.Lawful) {xs : List X} {Q : Nat → X → Prop}
    (h : ∀ i x, xs[i]? = some x → S.Ends (Q i) x) :
    Farm.Terminates S (Farm.start xs) ∧ (∃ F, Farm.Reach S (Farm.start xs) F ∧ Farm.Stuck S F) ∧
    ∀ F, Farm.Reach S (Farm.start xs) F → Farm.Stuck S F →
      F.conns.length = xs.length ∧ F.active = false ∧
      ∀ (i : Nat) (c : Conn X), F.conns[i]? = some c → c.cl = .left ∧ c.sv = .served ∧ Q i c.x := by
  have ht : Farm.Terminates S (Farm.start xs) := by
    refine Farm.terminates fun x hx => ?_
    obtain ⟨i, hi⟩ := List.getElem?_of_mem hx
    exact (h i x hi).1
  refine ⟨ht, Farm.exists_final ht, fun F hF hs => ?_⟩
  have inv := hF.inv hS
  have ends : ∀ (i : Nat) (c : Conn X), F.conns[i]? = some c → S.Stuck c.x → S.doneC c.x ∧ S.doneS c.x ∧ Q i c.x := by
    intro i c hc hst
    obtain ⟨x, hx, hr⟩ := inv.reach i c hc
    exact (h i x hx).2 _ hr hst
  have noServing : ∀ (i : Nat) (c : Conn X), F.conns[i]? = some c → c.sv ≠ .serving := by
    intro i c hc hsv
    obtain ⟨-, ⟨h1, -⟩ | ⟨-, h1, h2⟩ | ⟨h1, -⟩⟩ := inv.final hs hS hc
    · rw [h1] at hsv; cases hsv
    · exact h2 (ends i c hc h1).2.1
    · rw [h1] at hsv; cases hsv
  have all : ∀ (i : Nat) (c : Conn X), F.conns[i]? = some c → c.cl = .left ∧ c.sv = .served ∧ Q i c.x := by
    intro i c hc
    obtain ⟨h1, ⟨-, j, d, hd, hds⟩ | ⟨hsv, -⟩ | ⟨hsv, hst, -⟩⟩ := inv.final hs hS hc
    · exact absurd hds (noServing j d hd)
    · exact absurd hsv (noServing i c hc)
    · obtain ⟨hdc, -, hq⟩ := ends i c hc hst
      refine ⟨?_, hsv, hq⟩
      rcases h1 with ⟨-, h1⟩ | ⟨h1, -⟩
      · exact absurd hdc h1
      · exact h1
  refine ⟨inv.len, ?_, all⟩
  cases ha : F.active with
  | false => rfl
  | true =>
    obtain ⟨i, c, hc, hr⟩ := inv.active ha
    rw [(all i c hc).1] at hr
    cases hr

/-- **C102.** The same for a list of clients: everybody is served. -/
theorem C102_all_served (hS : S.Lawful) {D : Type} {ds : List D} {conn : D → X} {Q : D → X → Prop}
    (h : ∀ d ∈ ds, S.Ends (Q d) (conn d)) : Farm.AllServed S ds conn Q := by
  obtain ⟨k1, k2, k3⟩ := C102_run_sessions hS (xs := ds.map conn) (Q := fun i z => ∀ d, ds[i]? = some d → Q d z) (by
      intro i x hx
      rw [List.getElem?_map, Option.map_eq_some_iff] at hx
      obtain ⟨d, hd, rfl⟩ := hx
      obtain ⟨t1, t2⟩ := h d (List.mem_of_getElem? hd)
      refine ⟨t1, fun z hz hs => ⟨(t2 z hz hs).1, (t2 z hz hs).2.1, fun d' hd' => ?_⟩⟩
      rw [hd] at hd'
      cases hd'
      exact (t2 z hz hs).2.2)
  refine ⟨k1, k2, fun F hF hs => ?_⟩
  obtain ⟨h1, h2, h3⟩ := k3 F hF hs
  rw [List.length_map] at h1
  refine ⟨h1, h2, fun i d hd => ?_⟩
  obtain ⟨c, hc⟩ : ∃ c, F.conns[i]? = some c :=
    ⟨_, List.getElem?_eq_getElem (h1 ▸ (List.getElem?_eq_some_iff.1 hd).1)⟩
  obtain ⟨h4, h5, h6⟩ := h3 i c hc
  exact ⟨c, hc, h4, h5, h6 d hd⟩

end general

/-! ### The example sessions as they are run by `MpClientServerPair` -/

/-- What a client thread does: `client_session` with a `MitmChannel` with a log around its `SocketChannel`
(dev/client_server.py:92-94). -/
def clientThread {α : Type} (clk : Nat → Nat) (p : IT appSig α) : IT sock (α × MitmSt) :=
  onSocket (quiet clk (Mitm.run p { log := true }) 0)

variable {L : Lib} {cc cs : Clock} {cfgC : ClientCfg} {cfgS : ServerCfg} {kc ks : KeyPair}

/-- What follows a session in the loop. -/
def nextRound (again : IT env (Except Err Unit)) : Except Err (Except Err Unit × Unit) × ServerSt → IT env (Except Err Unit)
  | (.error e, _) => .ret (.error e)
  | (.ok (.error e, _), _) => .ret (.error e)
  | (.ok (.ok _, _), s) => match s.chan with
    | none => .ret (.ok ())
    | some c => if App.last c then .ret (.ok ()) else again

theorem rounds_eq (cfg : ServerCfg) (prog : Py appSig Unit Unit) (fuel : Nat) :
    sessionRounds cfg prog (fuel + 1) = (serverSession cfg (prog ())).bind (nextRound (sessionRounds cfg prog fuel)) := by
  generalize hag : sessionRounds cfg prog fuel = again
  show (Server.handshake cfg Server.init).bind (afterHandshake prog (sessionRounds cfg prog fuel)) = _
  rw [hag]
  unfold serverSession
  rw [IT.bind_assoc]
  congr 1
  funext ⟨r, s⟩
  cases r with
  | error e => rfl
  | ok u =>
    simp only [afterHandshake, serverAfter]
    cases hc : s.chan with
    | none => rfl
    | some c =>
      simp only
      rw [IT.bind_assoc]
      congr 1
      funext ⟨⟨r, u⟩, c'⟩
      cases r <;> rfl

theorem handshake_read {cfg : ServerCfg} {kp : KeyPair} (h : cfg.encKp = some kp) :
    ∃ k, Server.handshake cfg Server.init = .op (S := env) .read k ∧ ∀ e, k (.error e) = .ret (.error e, Server.init) := by
  unfold Server.handshake Server.validate
  simp only [h]
  exact ⟨_, rfl, fun e => rfl⟩

/-- A server that is back at the beginning of its loop ends when the connection is closed. -/
theorem loop_again {cfg : ServerCfg} {kp : KeyPair} (h : cfg.encKp = some kp) (L : Lib) (c : Clock)
    (prog : Py appSig Unit Unit) (fuel j : Nat) :
    ∃ k, party L c (sessionLoop cfg prog (fuel + 1)) j = .op (S := appSig) .read k ∧ k (.error .comException) = .ret (.ok ()) := by
  obtain ⟨k, h1, h2⟩ := handshake_read h
  unfold sessionLoop sessionRounds
  rw [h1]
  refine ⟨_, rfl, ?_⟩
  dsimp only
  rw [h2]
  rfl

/-- The loop after a complete round: it has ended, or waits for the next client hello. -/
theorem loop_round {pA : IT appSig α} {prog : Py appSig Unit Unit} (hkp : cfgS.encKp = some ks) {rc : α}
    {rs : Except Err (Except Err Unit × Unit) × ServerSt} {n : Nat} {P : List Bytes → Prop}
    (h : Net.RunC P n (Net.start pA (party L cs (serverSession cfgS (prog ())) 0)) ⟨.ret rc, .ret rs, [], []⟩)
    (hrs : rs.1 = .ok (.ok (), ())) (fuel : Nat) :
    ∃ B, Net.RunC P n (Net.start pA (party L cs (sessionLoop cfgS prog (fuel + 2)) 0)) ⟨.ret rc, B, [], []⟩ ∧
      (B = .ret (.ok ()) ∨ ∃ k, B = .op (S := appSig) .read k ∧ k (.error .comException) = .ret (.ok ())) := by
  obtain ⟨j, hj⟩ := party_then h fun r => (nextRound (sessionRounds cfgS prog (fuel + 1)) r).bind fun r => .ret (catchCom r)
  rw [← IT.bind_assoc, ← rounds_eq] at hj
  refine ⟨_, hj, ?_⟩
  obtain ⟨r, s⟩ := rs
  simp only at hrs
  subst hrs
  simp only [nextRound]
  cases s.chan with
  | none => exact .inl rfl
  | some c =>
    simp only
    split
    · exact .inl rfl
    · exact .inr (loop_again hkp L cs prog fuel j)

/-- Programs that end when directly connected, and their example sessions over TCP. -/
theorem session_tcp (S : Setup L cc cs cfgC cfgS kc ks) (hL : BoxSize L) {pA : IT appSig α} {prog : Py appSig Unit Unit}
    {n : Nat} (hn : n ≤ 2 ^ 62) (hA : Modest 65535 pA n) (hB : Modest 65535 (prog ()) n)
    (hb : cfgC.bufferM4 = true → ∃ ms l k, pA = .op (S := appSig) (.write ms l) k) {a : α} {m : Nat}
    (hr : Net.RunC CallFits m (Net.start pA (prog ())) ⟨.ret a, .ret (.ok (), ()), [], []⟩) (clk : Nat → Nat) (fuel : Nat) :
    ∃ sc, AgreedC L cc cs cfgS kc ks a (.ok a, sc) ∧ tcp.Ends (fun z => ∃ sm, Results ((.ok a, sc), sm) (.ok ()) z)
      (SockNet.start (clientThread clk (party L cc (clientSession cfgC pA) 0))
        (onSocket (party L cs (sessionLoop cfgS prog (fuel + 2)) 0))) := by
  obtain ⟨key, h1, h2, hk, ⟨y, Y, e1, e2, e3, e4, e5, e6⟩, e7⟩ :=
    session_short hL S pA (prog ()) hn hA hB hb (hr.calls (stuck_rets _ _ _ _))
  have hy : y = ⟨.ret a, .ret (.ok (), ()), [], []⟩ := by
    obtain ⟨-, n, -, h3⟩ := e1
    exact ((h3 _ _ hr.run).2 (stuck_rets _ _ _ _)).symm
  subst hy
  obtain ⟨Ya, Yb, ab, ba⟩ := Y
  simp only at e3 e4
  obtain rfl := e5 rfl
  obtain rfl := e6 rfl
  cases e3 with
  | @ret _ rc hc =>
    cases e4 with
    | @ret _ rs hs =>
      obtain ⟨-, N, hN, -⟩ := e2
      obtain ⟨B, hB1, hB2⟩ := loop_round S.encS (e7.runC hN) hs.1 fuel
      obtain ⟨sm, hsm⟩ := mitm_then (clk := clk) (s := { log := true }) (i := 0) hB1
      obtain ⟨rc1, rc2⟩ := rc
      have hc1 := hc.1
      simp only at hc1
      subst hc1
      have hag : AgreedC L cc cs cfgS kc ks a (.ok a, rc2) := ⟨key, h1, h2, hk, hc⟩
      have hst : Net.Stuck (⟨.ret ((.ok a, rc2), sm), B, [], []⟩ : Net ((Except Err α × ClientSt) × MitmSt) (Except Err Unit)) := by
        refine (Net.stuck_iff _).2 ⟨.inl ⟨_, rfl⟩, ?_⟩
        rcases hB2 with hB2 | ⟨k, hB2, -⟩
        · exact .inl ⟨_, hB2⟩
        · exact .inr ⟨⟨k, hB2⟩, rfl⟩
      obtain ⟨t1, t2⟩ := tcp_ends (hsm.calls hst) (hsm.run.endsIn hst) hB2
      exact ⟨rc2, hag, t1, fun z hz hs => ⟨(t2 z hz hs).1, (t2 z hz hs).2.1, sm, (t2 z hz hs).2.2⟩⟩

/-- **C102, example session 1.** Any number of clients, each with its request: whatever the schedule of the threads and
the segmentation of the streams, every client gets its request back, and every handler returns normally. -/
theorem C102_example1 (S : Setup L cc cs cfgC cfgS kc ks) (hL : BoxSize L) (clk : Nat → Nat) (fuel : Nat)
    (reqs : List Bytes) (hreq : ∀ q ∈ reqs, CallFits [q]) :
    Farm.AllServed tcp reqs
      (fun q => SockNet.start (clientThread clk (party L cc (clientSession cfgC (Example1.client q ())) 0))
        (onSocket (party L cs (sessionLoop cfgS Example1.server (fuel + 2)) 0)))
      (fun q z => ∃ sc sm, Results ((.ok (.ok q, ()), sc), sm) (.ok ()) z ∧ AgreedC (α := Except Err Bytes × Unit) L cc cs cfgS kc ks (.ok q, ()) (.ok (.ok q, ()), sc)) := by
  refine C102_all_served tcp_lawful fun q hq => ?_
  obtain ⟨sc, hag, t1, t2⟩ := session_tcp S hL (n := 1) (by decide) (example1_modest q).1 (example1_modest q).2
    (fun _ => ⟨_, _, _, rfl⟩) (example1_run q (hreq q hq)) clk fuel
  exact ⟨t1, fun z hz hs => ⟨(t2 z hz hs).1, (t2 z hz hs).2.1, sc, (t2 z hz hs).2.2.choose, (t2 z hz hs).2.2.choose_spec, hag⟩⟩

/-- **C102, example session 3.** The same: in every client all comparisons succeed. -/
theorem C102_example3 (S : Setup L cc cs cfgC cfgS kc ks) (hL : BoxSize L) (clk : Nat → Nat) (fuel : Nat)
    (reqs : List (Bytes × Bytes × Bytes)) (hreq : ∀ q ∈ reqs, CallFits [q.1] ∧ CallFits [q.2.1, q.2.2]) :
    Farm.AllServed tcp reqs
      (fun q => SockNet.start (clientThread clk (party L cc (clientSession cfgC (Example3.client q.1 q.2.1 q.2.2 ())) 0))
        (onSocket (party L cs (sessionLoop cfgS Example3.server (fuel + 2)) 0)))
      (fun _ z => ∃ sc sm, Results ((.ok (.ok (), ()), sc), sm) (.ok ()) z ∧ AgreedC (α := Except Err Unit × Unit) L cc cs cfgS kc ks (.ok (), ()) (.ok (.ok (), ()), sc)) := by
  refine C102_all_served tcp_lawful fun q hq => ?_
  obtain ⟨sc, hag, t1, t2⟩ := session_tcp S hL (n := 3) (by decide) (example3_modest q.1 q.2.1 q.2.2).1
    (example3_modest q.1 q.2.1 q.2.2).2 (fun _ => ⟨_, _, _, rfl⟩) (example3_run q.1 q.2.1 q.2.2 (hreq q hq).1 (hreq q hq).2) clk fuel
  exact ⟨t1, fun z hz hs => ⟨(t2 z hz hs).1, (t2 z hz hs).2.1, sc, (t2 z hz hs).2.2.choose, (t2 z hz hs).2.2.choose_spec, hag⟩⟩

/-- **C102, example session 2.** Any number of A1 clients: each gets the A2 with the names SCv2 and ECHO. -/
theorem C102_example2 (uw : Nat → Bool) (L : Lib) (c : Clock) (sig enc : KeyPair) (clk : Nat → Nat) (n : Nat) :
    Farm.AllServed tcp (List.replicate n ())
      (fun _ => SockNet.start (clientThread clk (A1Client.doA1A2 uw { A1Client.init with a1 := Example2.a1 }))
        (onSocket (party L c (Example2.serverSession
          { sigKp := sig, encKp := some enc, a2 := some Example2.a2, bufferM2 := false }) 0)))
      (fun _ z => ∃ p sm, Results ((.ok (), ⟨Example2.a1, some p⟩), sm) (.ok ()) z ∧
        A2.entries 1 p.optBytes = [A2.sc2ProtString ++ ascii ['E', 'C', 'H', 'O', '-', '-', '-', '-', '-', '-']]) := by
  refine C102_all_served tcp_lawful fun _ _ => ?_
  obtain ⟨p, m, h, -, -, h4⟩ := a1_run uw L c
    (cfg := { sigKp := sig, encKp := some enc, a2 := some Example2.a2, bufferM2 := false }) (kp := enc) rfl
    (s := { A1Client.init with a1 := Example2.a1 }) (addr := some (List.replicate 32 8))
    (.key 0 (List.replicate 32 8) (by decide)) (nss := false)
    (prots := [(A2.sc2ProtString, ascii ['E', 'C', 'H', 'O', '-', '-', '-', '-', '-', '-'])])
    rfl (by decide) (by decide) (by decide)
  obtain ⟨j, hj⟩ := party_then h fun q => .ret (catchCom q.1)
  obtain ⟨sm, hsm⟩ := mitm_then (clk := clk) (s := { log := true }) (i := 0) hj
  obtain ⟨t1, t2⟩ := tcp_ends (rb := Except.ok (ε := Err) ()) (hsm.calls (stuck_rets _ _ _ _)) (hsm.run.endsIn (stuck_rets _ _ _ _)) (.inl rfl)
  exact ⟨t1, fun z hz hs => ⟨(t2 z hz hs).1, (t2 z hz hs).2.1, p, sm, (t2 z hz hs).2.2, h4⟩⟩

/-! The simple echo session -/

theorem echo_server_eof (data : Bytes) (hd : data ≠ []) (n fuel : Nat) :
    ∃ k, Perf (SimpleEcho.server (n + fuel + 1) ()) (echoAnswers data n) (.op (S := appSig) .read k) ∧
      k (.error .comException) = .ret (.ok (), ()) := by
  induction n with
  | zero => exact ⟨_, .nil _, rfl⟩
  | succ n ih =>
    obtain ⟨k, ih, hk⟩ := ih
    rw [show n + 1 + fuel + 1 = (n + fuel + 1) + 1 by omega]
    unfold SimpleEcho.server
    rw [onError_eq]
    generalize hh : afterTry _ = h
    generalize SimpleEcho.server (n + fuel + 1) = p at ih
    refine ⟨fun r => (k r).bind h, Perf.bind (u := .op (S := appSig) .read k) ?_ h, ?_⟩
    · refine .cons (S := appSig) _ _ _ ?_
      show Perf ((if data = [] then return () else (do
          exWrite [data] false
          p) : Py appSig Unit Unit) ()) _ _
      rw [if_neg hd]
      exact .cons (S := appSig) _ _ _ ih
    · dsimp only
      rw [hk, ← hh]
      rfl

theorem echo_runC {a a' : IT appSig α} {b b' : IT appSig β} {P : List Bytes → Prop} (data : Bytes) (hP : P [data]) (n : Nat)
    (ha : Perf a (echoCalls data n) a') (hb : Perf b (echoAnswers data n) b') :
    Net.RunC P (4 * n) ⟨a, b, [], []⟩ ⟨a', b', [], []⟩ := by
  induction n generalizing a b with
  | zero => cases ha; cases hb; exact .refl _
  | succ n ih =>
    cases ha with
    | cons e k r ha =>
      generalize hx : k (.ok ()) = x at ha
      cases ha with
      | cons e' k' r' ha =>
        cases hb with
        | cons e'' k'' r'' hb =>
          generalize hy : k'' (.ok data) = y at hb
          cases hb with
          | cons e3 k3 r3 hb =>
            refine .step (.aWrite [data] false _ hP) ?_
            rw [hx]
            refine .step (.bRead data _) ?_
            rw [hy]
            exact .step (.bWrite [data] false _ hP) (.step (.aRead data _) (ih ha hb))

theorem echo_ends (clk : Nat → Nat) (n fuel : Nat) {d : Bytes} (hd : d ≠ [] ∧ d.length < 2 ^ 31) :
    tcp.Ends (fun z => ∃ sm, Results ((.ok (List.replicate n d), ()), sm) (.ok (), ()) z)
      (SockNet.start (clientThread clk (SimpleEcho.client d n ())) (onSocket (SimpleEcho.server (n + fuel + 1) ()))) := by
  obtain ⟨k, hk, hk'⟩ := echo_server_eof d hd.1 n fuel
  have hr := echo_runC (P := Fits) d (by simpa [Fits] using hd.2) n (echo_client d n) hk
  obtain ⟨sm, hsm⟩ := mitm_then (clk := clk) (s := { log := true }) (i := 0) hr
  have hst : Net.Stuck (⟨.ret ((.ok (List.replicate n d), ()), sm), .op (S := appSig) .read k, [], []⟩ :
      Net ((Except Err (List Bytes) × Unit) × MitmSt) (Except Err Unit × Unit)) :=
    (Net.stuck_iff _).2 ⟨.inl ⟨_, rfl⟩, .inr ⟨⟨k, rfl⟩, rfl⟩⟩
  obtain ⟨t1, t2⟩ := tcp_ends (hsm.calls hst) (hsm.run.endsIn hst) (.inr ⟨k, rfl, hk'⟩)
  exact ⟨t1, fun z hz hs => ⟨(t2 z hz hs).1, (t2 z hz hs).2.1, sm, (t2 z hz hs).2.2⟩⟩

/-- **C102, the simple echo session.** Any number of clients, each with data of its own and any number of rounds (6 bytes and
10 rounds in the code): every client gets its data back in every round. -/
theorem C102_simple_echo (clk : Nat → Nat) (n fuel : Nat) (datas : List Bytes)
    (hd : ∀ d ∈ datas, d ≠ [] ∧ d.length < 2 ^ 31) :
    Farm.AllServed tcp datas
      (fun d => SockNet.start (clientThread clk (SimpleEcho.client d n ())) (onSocket (SimpleEcho.server (n + fuel + 1) ())))
      (fun d z => ∃ sm, Results ((.ok (List.replicate n d), ()), sm) (.ok (), ()) z) :=
  C102_all_served tcp_lawful fun d hdd => echo_ends clk n fuel (hd d hdd)

/-- The hypotheses can be met: three clients of example 1 with the toy library, and ten rounds of echo for two clients. -/
example (b b' : Bool) : Farm.AllServed tcp (List.replicate 3 Example1.request)
    (fun q => SockNet.start (clientThread id (party toyLib exClock (clientSession (exCfgC b) (Example1.client q ())) 0))
      (onSocket (party toyLib exClock (sessionLoop (exCfgS b') Example1.server 2) 0)))
    (fun q z => ∃ sc sm, Results ((.ok (.ok q, ()), sc), sm) (.ok ()) z ∧
      AgreedC (α := Except Err Bytes × Unit) toyLib exClock exClock (exCfgS b') exKc exKs (.ok q, ()) (.ok (.ok q, ()), sc)) :=
  C102_example1 (exSetup b b') toy_size id 0 (List.replicate 3 Example1.request) (by simp [CallFits, Example1.request])

example : Farm.AllServed tcp [[1, 2, 3, 4, 5, 6], [7]]
    (fun d => SockNet.start (clientThread id (SimpleEcho.client d 10 ())) (onSocket (SimpleEcho.server 11 ())))
    (fun d z => ∃ sm, Results ((.ok (List.replicate 10 d), ()), sm) (.ok (), ()) z) :=
  C102_simple_echo id 10 0 [[1, 2, 3, 4, 5, 6], [7]] (by simp)

/-- **C102, the threads.** In `_run_session`, whatever other threads have done, the `MitmChannel` can be made, and after it any
client session, because the channel has left an event loop (cf. C101). -/
theorem C102_loops {p : Loops.Proc} (h : Reach Own p) (t : Loops.Thread) (k : Loops.Kind) (hr : p.io.running t = none) :
    (Loops.step (.make t .channel none) p).1 = .ok () ∧
    (Loops.step (.make t k none) (Loops.step (.make t .channel none) p).2).1 = .ok () := by
  refine ⟨(C101_threads_partial h).1 t .channel (.inr rfl), ?_⟩
  have h' : Reach Own (Loops.step (.make t .channel none) p).2 := .step _ h (.inl rfl)
  have hl : ∃ l, (Loops.step (.make t .channel none) p).2.io.current t = some l := by
    rcases construct_cases .channel t none p.io (.inl rfl) with ⟨l, hc, hl⟩ | ⟨hc, -⟩ | ⟨hk, -⟩
    · refine ⟨l, ?_⟩
      simp only [Loops.step, hc]
      rw [hr] at hl
      exact hl.resolve_left (by simp)
    · refine ⟨p.io.made, ?_⟩
      simp only [Loops.step, hc]
      exact put_eq ..
    · rcases hk with hk | hk <;> cases hk
  obtain ⟨l, hl⟩ := hl
  exact (C101_threads_partial h').2.1 t k l hl

/-! ### C103: clients do not depend on each other -/

/-- C103 as intended: a client that would be served alone is served, whatever the other clients do. -/
def C103_claim : Prop := ∀ (α β : Type) (xs : List (SockNet α β)) (i : Nat) (x : SockNet α β), xs[i]? = some x →
  tcp.Ends (fun _ => True) x → ∀ F, Farm.Reach tcp (Farm.start xs) F → Farm.Stuck tcp F →
    ∀ c, F.conns[i]? = some c → c.sv = .served

section general

variable {X : Type} {S : Link X}

/-- **C103, what holds.** When nothing more can happen, every accepted connection is where it could end alone, and if alone both
programs would end, they have ended; a connection is left waiting only if a connection is being served on which
nothing can happen and whose handler has not ended. -/
theorem C103_accepted_partial (hS : S.Lawful) {xs : List X} (ht : ∀ x ∈ xs, S.Terminates x) :
    Farm.Terminates S (Farm.start xs) ∧ ∀ F, Farm.Reach S (Farm.start xs) F → Farm.Stuck S F →
      ∀ (i : Nat) (c : Conn X), F.conns[i]? = some c → ∃ x, xs[i]? = some x ∧ S.Reach x c.x ∧
        (c.sv ≠ .waiting → S.Stuck c.x ∧ ∀ Q, S.Ends Q x → c.cl = .left ∧ c.sv = .served ∧ Q c.x) ∧
        (c.sv = .waiting → ∃ (j : Nat) (d : Conn X), F.conns[j]? = some d ∧ d.sv = .serving ∧ S.Stuck d.x ∧ ¬ S.doneS d.x) := by
  refine ⟨Farm.terminates ht, fun F hF hs i c hc => ?_⟩
  have inv := hF.inv hS
  obtain ⟨x, hx, hr⟩ := inv.reach i c hc
  refine ⟨x, hx, hr, fun hne => ?_, fun hw => ?_⟩
  · obtain ⟨h1, ⟨h2, -⟩ | ⟨h2, h3, h4⟩ | ⟨h2, h3, h4⟩⟩ := inv.final hs hS hc
    · exact absurd h2 hne
    · exact ⟨h3, fun Q hQ => absurd (hQ.2 _ hr h3).2.1 h4⟩
    · refine ⟨h3, fun Q hQ => ⟨?_, h2, (hQ.2 _ hr h3).2.2⟩⟩
      rcases h1 with ⟨-, h1⟩ | ⟨h1, -⟩
      · exact absurd (hQ.2 _ hr h3).1 h1
      · exact h1
  · obtain ⟨-, ⟨-, j, d, hd, hds⟩ | ⟨h2, -⟩ | ⟨h2, -⟩⟩ := inv.final hs hS hc
    · refine ⟨j, d, hd, hds, ?_⟩
      obtain ⟨-, ⟨h2, -⟩ | ⟨-, h3, h4⟩ | ⟨h2, -⟩⟩ := inv.final hs hS hd
      · rw [hds] at h2; cases h2
      · exact ⟨h3, h4⟩
      · rw [hds] at h2; cases h2
    · rw [hw] at h2; cases h2
    · rw [hw] at h2; cases h2

/-- C103 fails: while a connection is served on which nothing can happen, no other connection is ever accepted. -/
theorem C103_blocked {F G : Farm X} (h : Farm.Reach S F G) {i : Nat} {c : Conn X} (hc : F.conns[i]? = some c)
    (hsv : c.sv = .serving) (hst : S.Stuck c.x) (hd : ¬ S.doneS c.x) :
    (∃ c', G.conns[i]? = some c' ∧ c'.sv = .serving ∧ c'.x = c.x) ∧
    ∀ (j : Nat) (d : Conn X), j ≠ i → F.conns[j]? = some d → d.sv = .waiting → ∃ d', G.conns[j]? = some d' ∧ d'.sv = .waiting := by
  induction h with
  | refl => exact ⟨⟨c, hc, hsv, rfl⟩, fun j d _ hj hw => ⟨d, hj, hw⟩⟩
  | @step G H _ hs ih =>
    obtain ⟨⟨c', h1, h2, h3⟩, h4⟩ := ih
    have upd : ∀ {k : Nat} {e e' : Conn X}, G.conns[k]? = some e →
        (k = i → e'.sv = .serving ∧ e'.x = c.x) → (e.sv = .waiting → e'.sv = .waiting) →
        (∃ c', (G.conns.set k e')[i]? = some c' ∧ c'.sv = .serving ∧ c'.x = c.x) ∧
        ∀ (j : Nat) (d : Conn X), j ≠ i → F.conns[j]? = some d → d.sv = .waiting →
          ∃ d', (G.conns.set k e')[j]? = some d' ∧ d'.sv = .waiting := by
      intro k e e' hk hi hj
      refine ⟨?_, fun j d hji hjd hw => ?_⟩
      · by_cases hki : i = k
        · exact ⟨e', (get_set hk).2 (.inl ⟨hki, rfl⟩), hi hki.symm⟩
        · exact ⟨c', (get_set hk).2 (.inr ⟨hki, h1⟩), h2, h3⟩
      · obtain ⟨d', hd', hw'⟩ := h4 j d hji hjd hw
        by_cases hjk : j = k
        · subst hjk
          rw [hk] at hd'
          cases hd'
          exact ⟨e', (get_set hk).2 (.inl ⟨rfl, rfl⟩), hj hw'⟩
        · exact ⟨d', (get_set hk).2 (.inr ⟨hjk, hd'⟩), hw'⟩
    cases hs with
    | @connect k e hk hcl =>
      refine upd hk (fun hki => ?_) id
      subst hki; rw [h1] at hk; cases hk; exact ⟨h2, h3⟩
    | @accept k q e hn _ hk _ => exact absurd h2 (hn c' (List.mem_of_getElem? h1))
    | @client k e y hk _ hy =>
      refine upd hk (fun hki => ?_) id
      subst hki; rw [h1] at hk; cases hk; rw [h3] at hy; exact absurd (.inl hy) (hst y)
    | @server k e y hk _ hy =>
      refine upd hk (fun hki => ?_) id
      subst hki; rw [h1] at hk; cases hk; rw [h3] at hy; exact absurd (.inr hy) (hst y)
    | @finish k e hk hse hde =>
      refine upd hk (fun hki => ?_) fun hw => ?_
      · subst hki; rw [h1] at hk; cases hk; rw [h3] at hde; exact absurd hde hd
      · rw [hse] at hw; cases hw
    | @leave k e hk hcl hdc =>
      refine upd hk (fun hki => ?_) id
      subst hki; rw [h1] at hk; cases hk; exact ⟨h2, h3⟩

end general

/-- The type of what a client thread of the simple echo session returns. -/
abbrev EchoResult := (Except Err (List Bytes) × Unit) × MitmSt

/-- A connection of a client that has connected and waits for data, to a server of the simple echo session. -/
def silent : SockNet EchoResult (Except Err Unit × Unit) :=
  SockNet.start (.op (S := sock) (.recv 4) fun _ => .ret ((.ok [], ()), { log := true })) (onSocket (SimpleEcho.server 11 ()))

theorem silent_waits : ∃ k, silent.b = .op (S := sock) (.recv 4) k := by
  show ∃ k, onSocket (SimpleEcho.server 11 ()) = _
  obtain ⟨k, hk, -⟩ := echo_server_eof [1] (by simp) 0 10
  rw [show SimpleEcho.server 11 () = .op (S := appSig) .read k by cases hk; rfl, onSocket]
  rw [readSync_head, recvall_succ_run _ _ (by decide)]
  exact ⟨_, rfl⟩

theorem recv_stuck {α β : Type} {n : Nat} {k : Except Err Bytes → IT sock α} {m : Nat} {k' : Except Err Bytes → IT sock β} {ab : Bytes} {Y : SockNet α β} :
    ¬ TcpStep ⟨.op (S := sock) (.recv n) k, .op (S := sock) (.recv m) k', ab, []⟩ Y := by
  intro h
  generalize hx : (⟨.op (S := sock) (.recv n) k, .op (S := sock) (.recv m) k', ab, []⟩ : SockNet α β) = x at h
  cases h with
  | send => cases hx
  | recv n chunk k hne =>
    injection hx with h1 h2 h3 h4
    exact hne (List.append_eq_nil_iff.1 h4.symm).1
  | eof => cases hx
  | broken => cases hx
  | reset => cases hx

theorem silent_stuck : tcp.Stuck silent := by
  obtain ⟨k, hk⟩ := silent_waits
  have he : silent = ⟨.op (S := sock) (.recv 4) fun _ => .ret ((.ok [], ()), { log := true }), .op (S := sock) (.recv 4) k, [], []⟩ := by
    rw [← hk]; rfl
  rw [he]
  rintro y (h | h)
  · exact recv_stuck h
  · exact recv_stuck h

/-- **C103 fails.** A client connects to the server of the simple echo session and sends nothing; a client of the simple echo
session that connects after it is never served. -/
theorem C103_violated : ¬ C103_claim := by
  intro h
  let good : SockNet EchoResult (Except Err Unit × Unit) :=
    SockNet.start (clientThread id (SimpleEcho.client [1, 2, 3, 4, 5, 6] 10 ())) (onSocket (SimpleEcho.server 11 ()))
  have hg := echo_ends id 10 0 (d := [1, 2, 3, 4, 5, 6]) ⟨by simp, by simp⟩
  let F0 : Farm (SockNet EchoResult (Except Err Unit × Unit)) := Farm.start [silent, good]
  let F1 : Farm (SockNet EchoResult (Except Err Unit × Unit)) := ⟨[⟨.running, .waiting, silent⟩, ⟨.idle, .waiting, good⟩], [0], true⟩
  let F2 : Farm (SockNet EchoResult (Except Err Unit × Unit)) := ⟨[⟨.running, .serving, silent⟩, ⟨.idle, .waiting, good⟩], [], true⟩
  have s1 : Farm.Step tcp F0 F1 := .connect (i := 0) (c := ⟨.idle, .waiting, silent⟩) rfl rfl
  have s2 : Farm.Step tcp F1 F2 := .accept (i := 0) (c := ⟨.running, .waiting, silent⟩) (by simp [F1]) rfl rfl rfl
  have r2 : Farm.Reach tcp F0 F2 := .step (.step (.refl _) s1) s2
  have ht : Farm.Terminates tcp F0 := Farm.terminates fun x _ => tcp_terminates x
  have ht2 : Farm.Terminates tcp F2 := (ht.inv s1).inv s2
  obtain ⟨G, hG, hs⟩ := Farm.exists_final ht2
  have hb := C103_blocked hG (i := 0) (c := ⟨.running, .serving, silent⟩) rfl rfl silent_stuck
    (by rintro ⟨r, hr⟩; obtain ⟨k, hk⟩ := silent_waits; dsimp only at hr; rw [hk] at hr; cases hr)
  obtain ⟨d, hd, hw⟩ := hb.2 1 ⟨.idle, .waiting, good⟩ (by decide) rfl rfl
  have := h _ _ [silent, good] 1 good rfl ⟨hg.1, fun z hz hs => ⟨(hg.2 z hz hs).1, (hg.2 z hz hs).2.1, trivial⟩⟩ G (r2.trans hG) hs d hd
  rw [hw] at this
  cases this

/-- The hypotheses of `C103_accepted_partial` can be met: any connections whatsoever. -/
example (xs : List (SockNet EchoResult (Except Err Unit × Unit))) : Farm.Terminates tcp (Farm.start (silent :: xs)) :=
  (C103_accepted_partial tcp_lawful fun x _ => tcp_terminates x).1

/-! ### C104: `is_session_active` -/

/-- C104 as intended: `is_session_active` is true exactly while a client thread has a connection. -/
def C104_claim : Prop := ∀ (α β : Type) (xs : List (SockNet α β)) (F : Farm (SockNet α β)),
  Farm.Reach tcp (Farm.start xs) F → (F.active = true ↔ ∃ c ∈ F.conns, c.cl = .running)

/-- **C104, what holds.** If `is_session_active` is true, some client thread has a connection; with one client it is
true exactly then. -/
theorem C104_active_partial {X : Type} {S : Link X} (hS : S.Lawful) {xs : List X} {F : Farm X}
    (h : Farm.Reach S (Farm.start xs) F) :
    (F.active = true → ∃ c ∈ F.conns, c.cl = .running) ∧
    (xs.length ≤ 1 → (F.active = true ↔ ∃ c ∈ F.conns, c.cl = .running)) := by
  have h1 : F.active = true → ∃ c ∈ F.conns, c.cl = .running := fun ha => by
    obtain ⟨i, c, hc, hr⟩ := (h.inv hS).active ha
    exact ⟨c, List.mem_of_getElem? hc, hr⟩
  refine ⟨h1, fun hl => ⟨h1, ?_⟩⟩
  clear h1
  generalize hF : Farm.start xs = F0 at h
  induction h with
  | refl =>
    subst hF
    rintro ⟨c, hc, hr⟩
    simp only [Farm.start, List.mem_map] at hc
    obtain ⟨x, -, rfl⟩ := hc
    cases hr
  | @step G H h hs ih =>
    have hlen : G.conns.length ≤ 1 := by subst hF; rw [(h.inv hS).len]; exact hl
    have one : ∀ {i : Nat} {c c' : Conn X}, G.conns[i]? = some c → G.conns = [c] ∧ G.conns.set i c' = [c'] := by
      intro i c c' hc
      match hG : G.conns, hlen, hc with
      | [d], _, hc =>
        match i, hc with
        | 0, hc => cases hc; exact ⟨rfl, rfl⟩
    cases hs with
    | connect => exact fun _ => rfl
    | leave hc => rintro ⟨d, hd, hr⟩; rw [(one hc).2] at hd; cases hd with | head => cases hr | tail _ hd => cases hd
    | accept _ _ hc =>
      rintro ⟨d, hd, hr⟩
      rw [(one hc).2, List.mem_singleton] at hd
      subst hd
      exact ih ⟨_, List.mem_of_getElem? hc, hr⟩
    | client hc =>
      rintro ⟨d, hd, hr⟩
      rw [(one hc).2, List.mem_singleton] at hd
      subst hd
      exact ih ⟨_, List.mem_of_getElem? hc, hr⟩
    | server hc =>
      rintro ⟨d, hd, hr⟩
      rw [(one hc).2, List.mem_singleton] at hd
      subst hd
      exact ih ⟨_, List.mem_of_getElem? hc, hr⟩
    | finish hc =>
      rintro ⟨d, hd, hr⟩
      rw [(one hc).2, List.mem_singleton] at hd
      subst hd
      exact ih ⟨_, List.mem_of_getElem? hc, hr⟩

/-- **C104 fails.** With two clients, the one that leaves first clears the attribute while the other one has its
connection. -/
theorem C104_violated : ¬ C104_claim := by
  intro h
  let x : SockNet Unit Unit := SockNet.start (.ret ()) (.ret ())
  let y : SockNet Unit Unit := SockNet.start (.op (S := sock) (.recv 4) fun _ => .ret ()) (.ret ())
  have r : Farm.Reach tcp (Farm.start [x, y]) ⟨[⟨.left, .waiting, x⟩, ⟨.running, .waiting, y⟩], [0, 1], false⟩ := by
    refine .step (.step (.step (.refl _) (.connect (i := 0) (c := ⟨.idle, .waiting, x⟩) rfl rfl))
      (.connect (i := 1) (c := ⟨.idle, .waiting, y⟩) rfl rfl)) (.leave (i := 0) (c := ⟨.running, .waiting, x⟩) rfl rfl ⟨(), rfl⟩)
  have := (h _ _ _ _ r).2 ⟨⟨.running, .waiting, y⟩, by simp, rfl⟩
  cases this

end Salt.Props
