import Verif.Lemmas.MpRun
import Verif.Props.ClientServer

/-!
# Main programs: `start_server`, `run_sessions`, `stop_server` (C116)
-/

namespace Salt.Props

open Salt Salt.Spec

/-- C116 as intended: after `stop_server`, every client that would end together with its handler if it were alone has been
served. -/
def C116_claim : Prop := ∀ (α β : Type) (ds : List (SockNet α β)), (∀ d ∈ ds, tcp.Ends (fun _ => True) d) →
  MpRun.AllServed tcp ds id fun _ _ => True

section general

variable {X : Type} {S : Link X}

/-- **C116.** `run_sessions` with any number of clients, each of which would end together with its handler if it were alone,
and then `stop_server`: whatever the schedule of all threads, everything ends, and then `stop_server` and
`serve_forever` have returned, and all client threads are at their ends.  A connection has been served, with the results
the pair would get alone, or it was never accepted, and then its client has ended without the server having done
anything. -/
theorem C116_stop_server (hS : S.Lawful) {xs : List X} {Q : Nat → X → Prop} (h : ∀ i x, xs[i]? = some x → S.Ends (Q i) x) :
    MpRun.Terminates S (MpRun.start xs) ∧ (∃ R, MpRun.Reach S (MpRun.start xs) R ∧ MpRun.Stuck S R) ∧
    ∀ R, MpRun.Reach S (MpRun.start xs) R → MpRun.Stuck S R →
      R.main = .stopped ∧ R.loop = false ∧ R.farm.conns.length = xs.length ∧ R.farm.active = false ∧
      ∀ (i : Nat) (c : Conn X), R.farm.conns[i]? = some c → c.cl = .left ∧
        (c.sv = .served ∧ Q i c.x ∨ c.sv = .waiting ∧ S.doneC c.x ∧ ∃ x, xs[i]? = some x ∧ S.ReachC x c.x) := by
  have ht : MpRun.Terminates S (MpRun.start xs) := by
    refine MpRun.terminates fun x hx => ?_
    obtain ⟨i, hi⟩ := List.getElem?_of_mem hx
    exact (h i x hi).1
  refine ⟨ht, MpRun.exists_final ht, fun R hR hs => ?_⟩
  have inv := hR.inv hS
  have ends : ∀ (i : Nat) (c : Conn X), R.farm.conns[i]? = some c → S.Stuck c.x → S.doneC c.x ∧ S.doneS c.x ∧ Q i c.x := by
    intro i c hc hst
    obtain ⟨x, hx, hr⟩ := inv.farm.reach i c hc
    exact (h i x hx).2 _ hr hst
  have hm : R.main ≠ .sessions := by
    intro hm
    have hst : Farm.Stuck S R.farm := fun G hG => hs _ (.farm hG fun e => absurd hm e)
    have noServing : ∀ (i : Nat) (c : Conn X), R.farm.conns[i]? = some c → c.sv ≠ .serving := by
      intro i c hc hsv
      obtain ⟨-, ⟨h1, -⟩ | ⟨-, h1, h2⟩ | ⟨h1, -⟩⟩ := inv.farm.final hst hS hc
      · rw [h1] at hsv; cases hsv
      · exact h2 (ends i c hc h1).2.1
      · rw [h1] at hsv; cases hsv
    refine hs _ (.shutdown hm fun c hc => ?_)
    obtain ⟨i, hc⟩ := List.getElem?_of_mem hc
    obtain ⟨h1, ⟨-, j, d, hd, hds⟩ | ⟨hsv, -⟩ | ⟨hsv, hst, -⟩⟩ := inv.farm.final hst hS hc
    · exact absurd hds (noServing j d hd)
    · exact absurd hsv (noServing i c hc)
    · rcases h1 with ⟨-, h1⟩ | ⟨h1, -⟩
      · exact absurd (ends i c hc hst).1 h1
      · exact h1
  have noC : ∀ (i : Nat) (c : Conn X), R.farm.conns[i]? = some c → S.doneC c.x ∧ ∀ y, ¬ S.stepC c.x y := fun i c hc =>
    have hd := inv.farm.left i c hc (inv.left hm c (List.mem_of_getElem? hc))
    ⟨hd, fun y => hS.noC _ y hd⟩
  have noServing : ∀ c ∈ R.farm.conns, c.sv ≠ .serving := by
    intro c hc hsv
    obtain ⟨i, hc⟩ := List.getElem?_of_mem hc
    have hst : S.Stuck c.x := by
      rintro y (hy | hy)
      · exact (noC i c hc).2 y hy
      · exact hs _ (.farm (.server hc hsv hy) fun _ => rfl)
    exact hs _ (.farm (.finish hc hsv (ends i c hc hst).2.1) fun _ => rfl)
  have hl : R.loop = false := by
    cases hl : R.loop with
    | false => rfl
    | true =>
      cases hmm : R.main with
      | sessions => exact absurd hmm hm
      | stopping => exact absurd (.exit hmm hl noServing) (hs _)
      | stopped => rw [inv.stopped hmm] at hl; cases hl
  have hmm : R.main = .stopped := by
    cases hmm : R.main with
    | sessions => exact absurd hmm hm
    | stopping => exact absurd (.close hmm hl) (hs _)
    | stopped => rfl
  refine ⟨hmm, hl, inv.farm.len, ?_, fun i c hc => ⟨inv.left hm c (List.mem_of_getElem? hc), ?_⟩⟩
  · cases ha : R.farm.active with
    | false => rfl
    | true =>
      obtain ⟨i, c, hc, hr⟩ := inv.farm.active ha
      rw [inv.left hm c (List.mem_of_getElem? hc)] at hr
      cases hr
  · cases hsv : c.sv with
    | waiting => exact .inr ⟨rfl, (noC i c hc).1, inv.alone i c hc hsv⟩
    | serving => exact absurd hsv (noServing c (List.mem_of_getElem? hc))
    | served =>
      have hd := inv.farm.served i c hc hsv
      refine .inl ⟨rfl, (ends i c hc ?_).2.2⟩
      rintro y (hy | hy)
      · exact (noC i c hc).2 y hy
      · exact hS.noS _ y hd hy

/-- **C116, what holds.** If moreover no client ends before the server has done something, everybody has been served. -/
theorem C116_all_served_partial (hS : S.Lawful) {D : Type} {ds : List D} {conn : D → X} {Q : D → X → Prop}
    (h : ∀ d ∈ ds, S.Ends (Q d) (conn d)) (hn : ∀ d ∈ ds, S.NeedsServer (conn d)) : MpRun.AllServed S ds conn Q := by
  obtain ⟨k1, k2, k3⟩ := C116_stop_server hS (xs := ds.map conn) (Q := fun i z => ∀ d, ds[i]? = some d → Q d z) (by
      intro i x hx
      rw [List.getElem?_map, Option.map_eq_some_iff] at hx
      obtain ⟨d, hd, rfl⟩ := hx
      obtain ⟨t1, t2⟩ := h d (List.mem_of_getElem? hd)
      refine ⟨t1, fun z hz hs => ⟨(t2 z hz hs).1, (t2 z hz hs).2.1, fun d' hd' => ?_⟩⟩
      rw [hd] at hd'
      cases hd'
      exact (t2 z hz hs).2.2)
  refine ⟨k1, k2, fun R hR hs => ?_⟩
  obtain ⟨h1, h2, h3, h4, h5⟩ := k3 R hR hs
  rw [List.length_map] at h3
  refine ⟨h1, h2, h3, h4, fun i d hd => ?_⟩
  obtain ⟨c, hc⟩ : ∃ c, R.farm.conns[i]? = some c :=
    ⟨_, List.getElem?_eq_getElem (h3 ▸ (List.getElem?_eq_some_iff.1 hd).1)⟩
  obtain ⟨h6, ⟨h7, h8⟩ | ⟨-, h8, x, hx, hr⟩⟩ := h5 i c hc
  · exact ⟨c, hc, h6, h7, h8 d hd⟩
  · rw [List.getElem?_map, hd] at hx
    cases hx
    exact absurd h8 (hn d (List.mem_of_getElem? hd) _ hr)

end general

/-- **C116 fails.** A client of the simple echo session that does nothing (no rounds) is not served if it has left, and the
main program has called `stop_server`, before the server thread has accepted its connection. -/
theorem C116_violated : ¬ C116_claim := by
  intro h
  let x : SockNet EchoResult (Except Err Unit × Unit) :=
    SockNet.start (clientThread id (SimpleEcho.client [1] 0 ())) (onSocket (SimpleEcho.server 1 ()))
  have hx := echo_ends id 0 0 (d := [1]) ⟨by simp, by simp⟩
  have hx' : tcp.Ends (fun _ => True) x := ⟨hx.1, fun z hz hs => ⟨(hx.2 z hz hs).1, (hx.2 z hz hs).2.1, trivial⟩⟩
  have hd : tcp.doneC x := ⟨_, rfl⟩
  obtain ⟨-, -, h3⟩ := h _ _ [x] (by simpa using hx')
  have r : MpRun.Reach tcp (MpRun.start [x]) ⟨⟨[⟨.left, .waiting, x⟩], [0], false⟩, .stopped, false⟩ := by
    refine .step (.step (.step (.step (.step (.refl _)
      (.farm (.connect (i := 0) (c := ⟨.idle, .waiting, x⟩) rfl rfl) fun e => absurd rfl e))
      (.farm (.leave (i := 0) (c := ⟨.running, .waiting, x⟩) rfl rfl hd) fun e => absurd rfl e))
      (.shutdown rfl (by simp [MpRun.start, Farm.start])))
      (.exit rfl rfl (by simp [MpRun.start, Farm.start])))
      (.close rfl rfl)
  have hs : MpRun.Stuck tcp (⟨⟨[⟨.left, .waiting, x⟩], [0], false⟩, .stopped, false⟩ : MpRun (SockNet EchoResult (Except Err Unit × Unit))) := by
    intro T hT
    have key : ∀ {i : Nat} {c : Conn (SockNet EchoResult (Except Err Unit × Unit))},
        [(⟨.left, .waiting, x⟩ : Conn (SockNet EchoResult (Except Err Unit × Unit)))][i]? = some c → c = ⟨.left, .waiting, x⟩ := by
      intro i c hc
      exact List.mem_singleton.1 (List.mem_of_getElem? hc)
    cases hT with
    | farm hG hq =>
      cases hG with
      | connect h1 h2 => rw [key h1] at h2; cases h2
      | accept h1 h2 h3 h4 => cases h2; cases hq (by simp)
      | client h1 h2 => rw [key h1] at h2; cases h2
      | server h1 h2 => rw [key h1] at h2; cases h2
      | finish h1 h2 => rw [key h1] at h2; cases h2
      | leave h1 h2 => rw [key h1] at h2; cases h2
    | shutdown h1 => cases h1
    | exit h1 => cases h1
    | close h1 => cases h1
  obtain ⟨-, -, -, -, h8⟩ := h3 _ r hs
  obtain ⟨c, hc, -, hsv, -⟩ := h8 0 x rfl
  cases hc
  cases hsv

/-! ### The main programs of the examples -/

theorem read_ne_ret {α : Type} (k : Except Err Bytes → IT appSig α) (r : α) : onSocket (.op (S := appSig) .read k) ≠ .ret r := by
  rw [onSocket, readSync_head, recvall_succ_run _ _ (by decide)]
  exact fun h => (by cases h)

variable {L : Lib} {cc cs : Clock} {cfgC : ClientCfg} {cfgS : ServerCfg} {kc ks : KeyPair}

/-- A client session needs its server. -/
theorem session_needs (S : Setup L cc cs cfgC cfgS kc ks) {α : Type} (pA : IT appSig α) (prog : Py appSig Unit Unit)
    (clk : Nat → Nat) (fuel : Nat) :
    tcp.NeedsServer (SockNet.start (clientThread clk (party L cc (clientSession cfgC pA) 0))
      (onSocket (party L cs (sessionLoop cfgS prog (fuel + 2)) 0))) := by
  refine (((session_listens S pA).mitm clk _ 0).onSocket).needs fun r => ?_
  obtain ⟨k, hk, -⟩ := loop_again S.encS L cs prog (fuel + 1) 0
  rw [hk]
  exact read_ne_ret k r

/-- **C116, example session 1** (dev/example_session1.py:99-107). Any number of clients, each with its request, and then
`stop_server`: every client has got its request back, every handler has returned normally, and the server has
stopped. -/
theorem C116_example1 (S : Setup L cc cs cfgC cfgS kc ks) (hL : BoxSize L) (clk : Nat → Nat) (fuel : Nat)
    (reqs : List Bytes) (hreq : ∀ q ∈ reqs, CallFits [q]) :
    MpRun.AllServed tcp reqs
      (fun q => SockNet.start (clientThread clk (party L cc (clientSession cfgC (Example1.client q ())) 0))
        (onSocket (party L cs (sessionLoop cfgS Example1.server (fuel + 2)) 0)))
      (fun q z => ∃ sc sm, Results ((.ok (.ok q, ()), sc), sm) (.ok ()) z ∧ AgreedC (α := Except Err Bytes × Unit) L cc cs cfgS kc ks (.ok q, ()) (.ok (.ok q, ()), sc)) := by
  refine C116_all_served_partial tcp_lawful (fun q hq => ?_) fun q _ => session_needs S _ _ clk fuel
  obtain ⟨sc, hag, t1, t2⟩ := session_tcp S hL (n := 1) (by decide) (example1_modest q).1 (example1_modest q).2
    (fun _ => ⟨_, _, _, rfl⟩) (example1_run q (hreq q hq)) clk fuel
  exact ⟨t1, fun z hz hs => ⟨(t2 z hz hs).1, (t2 z hz hs).2.1, sc, (t2 z hz hs).2.2.choose, (t2 z hz hs).2.2.choose_spec, hag⟩⟩

/-- **C116, example session 3** (dev/example_session3.py:155-163). -/
theorem C116_example3 (S : Setup L cc cs cfgC cfgS kc ks) (hL : BoxSize L) (clk : Nat → Nat) (fuel : Nat)
    (reqs : List (Bytes × Bytes × Bytes)) (hreq : ∀ q ∈ reqs, CallFits [q.1] ∧ CallFits [q.2.1, q.2.2]) :
    MpRun.AllServed tcp reqs
      (fun q => SockNet.start (clientThread clk (party L cc (clientSession cfgC (Example3.client q.1 q.2.1 q.2.2 ())) 0))
        (onSocket (party L cs (sessionLoop cfgS Example3.server (fuel + 2)) 0)))
      (fun _ z => ∃ sc sm, Results ((.ok (.ok (), ()), sc), sm) (.ok ()) z ∧ AgreedC (α := Except Err Unit × Unit) L cc cs cfgS kc ks (.ok (), ()) (.ok (.ok (), ()), sc)) := by
  refine C116_all_served_partial tcp_lawful (fun q hq => ?_) fun q _ => session_needs S _ _ clk fuel
  obtain ⟨sc, hag, t1, t2⟩ := session_tcp S hL (n := 3) (by decide) (example3_modest q.1 q.2.1 q.2.2).1
    (example3_modest q.1 q.2.1 q.2.2).2 (fun _ => ⟨_, _, _, rfl⟩) (example3_run q.1 q.2.1 q.2.2 (hreq q hq).1 (hreq q hq).2) clk fuel
  exact ⟨t1, fun z hz hs => ⟨(t2 z hz hs).1, (t2 z hz hs).2.1, sc, (t2 z hz hs).2.2.choose, (t2 z hz hs).2.2.choose_spec, hag⟩⟩

theorem a1_listens (uw : Nat → Bool) (s : A1ClientSt) (hs : s.a1.toBytes.length < 2 ^ 31) : Listens (A1Client.doA1A2 uw s) := by
  unfold A1Client.doA1A2
  simp only [Py.bind_run, Py.getSt_run, Py.call_run, IT.op_bind, IT.ret_bind]
  exact ⟨by simpa [Fits] using hs, trivial⟩

/-- **C116, example session 2** (dev/example_session2.py:90-98). -/
theorem C116_example2 (uw : Nat → Bool) (L : Lib) (c : Clock) (sig enc : KeyPair) (clk : Nat → Nat) (n : Nat) :
    MpRun.AllServed tcp (List.replicate n ())
      (fun _ => SockNet.start (clientThread clk (A1Client.doA1A2 uw { A1Client.init with a1 := Example2.a1 }))
        (onSocket (party L c (Example2.serverSession
          { sigKp := sig, encKp := some enc, a2 := some Example2.a2, bufferM2 := false }) 0)))
      (fun _ z => ∃ p sm, Results ((.ok (), ⟨Example2.a1, some p⟩), sm) (.ok ()) z ∧
        A2.entries 1 p.optBytes = [A2.sc2ProtString ++ ascii ['E', 'C', 'H', 'O', '-', '-', '-', '-', '-', '-']]) := by
  refine C116_all_served_partial tcp_lawful (fun _ _ => ?_) fun _ _ => ?_
  · obtain ⟨p, m, h, -, -, h4⟩ := a1_run uw L c
      (cfg := { sigKp := sig, encKp := some enc, a2 := some Example2.a2, bufferM2 := false }) (kp := enc) rfl
      (s := { A1Client.init with a1 := Example2.a1 }) (addr := some (List.replicate 32 8))
      (.key 0 (List.replicate 32 8) (by decide)) (nss := false)
      (prots := [(A2.sc2ProtString, ascii ['E', 'C', 'H', 'O', '-', '-', '-', '-', '-', '-'])])
      rfl (by decide) (by decide) (by decide)
    obtain ⟨j, hj⟩ := party_then h fun q => .ret (catchCom q.1)
    obtain ⟨sm, hsm⟩ := mitm_then (clk := clk) (s := { log := true }) (i := 0) hj
    obtain ⟨t1, t2⟩ := tcp_ends (rb := Except.ok (ε := Err) ()) (hsm.calls (stuck_rets _ _ _ _)) (hsm.run.endsIn (stuck_rets _ _ _ _)) (.inl rfl)
    exact ⟨t1, fun z hz hs => ⟨(t2 z hz hs).1, (t2 z hz hs).2.1, p, sm, (t2 z hz hs).2.2, h4⟩⟩
  · refine (((a1_listens uw _ (by decide)).mitm clk _ 0).onSocket).needs fun r => ?_
    obtain ⟨k, hk, -⟩ := handshake_read
      (cfg := { sigKp := sig, encKp := some enc, a2 := some Example2.a2, bufferM2 := false }) (kp := enc) rfl
    unfold Example2.serverSession
    rw [hk]
    exact read_ne_ret _ r

/-- **C116, the simple echo session** with at least one round. -/
theorem C116_simple_echo (clk : Nat → Nat) (n fuel : Nat) (datas : List Bytes)
    (hd : ∀ d ∈ datas, d ≠ [] ∧ d.length < 2 ^ 31) :
    MpRun.AllServed tcp datas
      (fun d => SockNet.start (clientThread clk (SimpleEcho.client d (n + 1) ())) (onSocket (SimpleEcho.server (n + 1 + fuel + 1) ())))
      (fun d z => ∃ sm, Results ((.ok (List.replicate (n + 1) d), ()), sm) (.ok (), ()) z) := by
  refine C116_all_served_partial tcp_lawful (fun d hdd => echo_ends clk (n + 1) fuel (hd d hdd)) fun d hdd => ?_
  have hl : Listens (SimpleEcho.client d (n + 1) ()) := ⟨by simpa [Fits] using (hd d hdd).2, trivial⟩
  refine ((hl.mitm clk _ 0).onSocket).needs fun r => ?_
  obtain ⟨k, hk, -⟩ := echo_server_eof [1] (by simp) 0 (n + 1 + fuel)
  rw [Nat.zero_add] at hk
  rw [show SimpleEcho.server (n + 1 + fuel + 1) () = .op (S := appSig) .read k by cases hk; rfl]
  exact read_ne_ret k r

/-- The hypotheses can be met: three clients of example 1 with the toy library, and ten rounds of echo for two clients. -/
example (b b' : Bool) : MpRun.AllServed tcp (List.replicate 3 Example1.request)
    (fun q => SockNet.start (clientThread id (party toyLib exClock (clientSession (exCfgC b) (Example1.client q ())) 0))
      (onSocket (party toyLib exClock (sessionLoop (exCfgS b') Example1.server 2) 0)))
    (fun q z => ∃ sc sm, Results ((.ok (.ok q, ()), sc), sm) (.ok ()) z ∧
      AgreedC (α := Except Err Bytes × Unit) toyLib exClock exClock (exCfgS b') exKc exKs (.ok q, ()) (.ok (.ok q, ()), sc)) :=
  C116_example1 (exSetup b b') toy_size id 0 (List.replicate 3 Example1.request) (by simp [CallFits, Example1.request])

example : MpRun.AllServed tcp [[1, 2, 3, 4, 5, 6], [7]]
    (fun d => SockNet.start (clientThread id (SimpleEcho.client d 10 ())) (onSocket (SimpleEcho.server 11 ())))
    (fun d z => ∃ sm, Results ((.ok (List.replicate 10 d), ()), sm) (.ok (), ()) z) :=
  C116_simple_echo id 9 0 [[1, 2, 3, 4, 5, 6], [7]] (by simp)

end Salt.Props
