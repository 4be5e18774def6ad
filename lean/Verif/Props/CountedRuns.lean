import Verif.Props.Transcript
import Verif.Props.ClientServer
import Verif.Props.ClientServerA

/-!
# What the clients of the example servers print (C131)
-/

namespace Salt.Spec.Net

variable {α β : Type} {P : List Bytes → Prop} {x y : Net α β} {la lb : List (Bool × List Bytes)}

theorem Logged.within (h : Logged x la lb y) (hc : Calls P x) : (∀ c ∈ la, P c.2) ∧ ∀ c ∈ lb, P c.2 := by
  induction h with
  | refl x => exact ⟨by simp, by simp⟩
  | aWrite ms l k _ ih =>
    obtain ⟨h1, h2⟩ := ih (hc.after (.one (.aWrite ms l k)))
    refine ⟨fun c hm => ?_, h2⟩
    rcases List.mem_cons.1 hm with rfl | hm
    · exact (hc 0 _ (.refl _)).1 ms l k rfl
    · exact h1 c hm
  | aRead m k _ ih => exact ih (hc.after (.one (.aRead m k)))
  | bWrite ms l k _ ih =>
    obtain ⟨h1, h2⟩ := ih (hc.after (.one (.bWrite ms l k)))
    refine ⟨h1, fun c hm => ?_⟩
    rcases List.mem_cons.1 hm with rfl | hm
    · exact (hc 0 _ (.refl _)).2 ms l k rfl
    · exact h2 c hm
  | bRead m k _ ih => exact ih (hc.after (.one (.bRead m k)))

theorem Logged.runC (h : Logged x la lb y) (ha : ∀ c ∈ la, P c.2) (hb : ∀ c ∈ lb, P c.2) : ∃ n, RunC P n x y := by
  induction h with
  | refl x => exact ⟨0, .refl x⟩
  | aWrite ms l k _ ih =>
    obtain ⟨n, ih⟩ := ih (fun c hc => ha c (List.mem_cons_of_mem _ hc)) hb
    exact ⟨_, .step (.aWrite ms l k (ha _ List.mem_cons_self)) ih⟩
  | aRead m k _ ih => obtain ⟨n, ih⟩ := ih ha hb; exact ⟨_, .step (.aRead m k) ih⟩
  | bWrite ms l k _ ih =>
    obtain ⟨n, ih⟩ := ih ha fun c hc => hb c (List.mem_cons_of_mem _ hc)
    exact ⟨_, .step (.bWrite ms l k (hb _ List.mem_cons_self)) ih⟩
  | bRead m k _ ih => obtain ⟨n, ih⟩ := ih ha hb; exact ⟨_, .step (.bRead m k) ih⟩

end Salt.Spec.Net

namespace Salt.Props

open Salt Salt.Spec

variable {α β : Type} {L : Lib} {cc cs : Clock} {cfgC : ClientCfg} {cfgS : ServerCfg} {kc ks : KeyPair}

/-- The counters that a client sees after the handshake, and in the end: bytes read and bytes written. -/
def counts (b4 : Bool) (s : MitmSt) (ca cb : List AppCall) : (Nat × Nat) × (Nat × Nat) :=
  ((s.counterRead + 158, s.counterWrite + if b4 then 42 else 162),
    (s.counterRead + 158 + wireBytes cb, s.counterWrite + 162 + wireBytes ca))

theorem counted_run (S : Setup L cc cs cfgC cfgS kc ks) (hL : BoxSize L) {pA : IT appSig α} {pB : IT appSig β} {n : Nat}
    (hn : n ≤ 2 ^ 62) (hA : Modest 65535 pA n) (hB : Modest 65535 pB n)
    (hb : cfgC.bufferM4 = true → ∃ ms l k, pA = .op (S := appSig) (.write ms l) k)
    {ca cb : List AppCall} {a : α} {b : β} {ia ib : Nat}
    (hr : AppNet.Logged (AppNet.start pA pB) ca cb ⟨.ret a, .ret b, [], [], [], [], ia, ib⟩)
    (hc : Net.Calls CallFits (Net.start pA pB)) (clk : Nat → Nat) (i : Nat) (s : MitmSt) :
    ∃ rc rs N, Agreed L cc cs cfgC cfgS kc ks a b rc rs ∧
      Net.RunC Fits N (Net.start (quiet clk (countedClient L cc cfgC pA s) i) (party L cs (serverSession cfgS pB) 0))
        ⟨.ret (rc, counts cfgC.bufferM4 s ca cb), .ret rs, [], []⟩ := by
  obtain ⟨rc, rs, la, lb, ag, h1, h2⟩ := counters_log S pA pB hn hA hB hb hr clk i s
  obtain ⟨-, -, -, -, -, hf⟩ := session_short hL S pA pB hn hA hB hb hc
  obtain ⟨k1, k2⟩ := h1.within hf
  obtain ⟨N, hN⟩ := h2.runC k1 k2
  exact ⟨rc, rs, N, ag, hN⟩

/-- **C131, coroutines.** A client that counts, as a coroutine on an `AsyncioChannel` with a `MitmChannel` around it, and a
server: whatever the schedule and the pieces in which bytes arrive, both end, and the client has seen these numbers. -/
theorem C131_asyncio (S : Setup L cc cs cfgC cfgS kc ks) (hL : BoxSize L) {pA : IT appSig α} {pB : IT appSig β} {n : Nat}
    (hn : n ≤ 2 ^ 62) (hA : Modest 65535 pA n) (hB : Modest 65535 pB n)
    (hb : cfgC.bufferM4 = true → ∃ ms l k, pA = .op (S := appSig) (.write ms l) k)
    {ca cb : List AppCall} {a : α} {b : β} {ia ib : Nat}
    (hr : AppNet.Logged (AppNet.start pA pB) ca cb ⟨.ret a, .ret b, [], [], [], [], ia, ib⟩)
    (hc : Net.Calls CallFits (Net.start pA pB)) (clk : Nat → Nat) (s : MitmSt)
    (nA : Except Err α × ClientSt → Bool) (nB : Except Err β × ServerSt → Bool)
    (hnA : ∀ s, nA (.ok a, s) = true) (hnB : ∀ s, nB (.ok b, s) = true) :
    ∃ rc rs, Agreed L cc cs cfgC cfgS kc ks a b rc rs ∧
      BothFinish L cc cs (AioNet.pair
        (Aio.closing (fun r => nA r.1) (Aio.on (Aio.plain (quiet clk (countedClient L cc cfgC pA s) 0))))
        (Aio.closing nB (Aio.on (Aio.alone (serverSession cfgS pB)))))
        (rc, counts cfgC.bufferM4 s ca cb) rs := by
  obtain ⟨⟨ra, sc⟩, ⟨rb, ss⟩, N, hag, h⟩ := counted_run S hL hn hA hB hb hr hc clk 0 s
  obtain ⟨rfl, rfl⟩ : ra = .ok a ∧ rb = .ok b := by
    obtain ⟨_, _, _, -, h4, h5⟩ := hag
    exact ⟨h4.1, h5.1⟩
  exact ⟨_, _, hag, pair_finish (impl_closing_plain _ _ 0) (impl_closing_alone nB _ 0) (h.calls (stuck_rets _ _ _ _))
    (h.run.endsIn (stuck_rets _ _ _ _)) (hnA _) (hnB _)⟩

/-- **C131, threads.** The same with a client thread and the loop of the example server, over TCP. -/
theorem C131_tcp (S : Setup L cc cs cfgC cfgS kc ks) (hL : BoxSize L) {pA : IT appSig α} {prog : Py appSig Unit Unit} {n : Nat}
    (hn : n ≤ 2 ^ 62) (hA : Modest 65535 pA n) (hB : Modest 65535 (prog ()) n)
    (hb : cfgC.bufferM4 = true → ∃ ms l k, pA = .op (S := appSig) (.write ms l) k)
    {ca cb : List AppCall} {a : α} {ia ib : Nat}
    (hr : AppNet.Logged (AppNet.start pA (prog ())) ca cb ⟨.ret a, .ret (.ok (), ()), [], [], [], [], ia, ib⟩)
    (hc : Net.Calls CallFits (Net.start pA (prog ()))) (clk : Nat → Nat) (s : MitmSt) (fuel : Nat) :
    ∃ rc, AgreedC L cc cs cfgS kc ks a rc ∧
      tcp.Ends (Results (rc, counts cfgC.bufferM4 s ca cb) (.ok ()))
        (SockNet.start (onSocket (quiet clk (countedClient L cc cfgC pA s) 0))
          (onSocket (party L cs (sessionLoop cfgS prog (fuel + 2)) 0))) := by
  obtain ⟨rc, ⟨rb, ss⟩, N, ⟨key, h1, h2, hk, h4, h5⟩, h⟩ := counted_run S hL hn hA hB hb hr hc clk 0 s
  obtain ⟨B, hB1, hB2⟩ := loop_round S.encS h h5.1 fuel
  refine ⟨rc, ⟨key, h1, h2, hk, h4⟩, ?_⟩
  have hst : Net.Stuck (⟨.ret (rc, counts cfgC.bufferM4 s ca cb), B, [], []⟩ :
      Net ((Except Err α × ClientSt) × (Nat × Nat) × (Nat × Nat)) (Except Err Unit)) := by
    refine (Net.stuck_iff _).2 ⟨.inl ⟨_, rfl⟩, ?_⟩
    rcases hB2 with hB2 | ⟨k, hB2, -⟩
    · exact .inl ⟨_, hB2⟩
    · exact .inr ⟨⟨k, hB2⟩, rfl⟩
  exact tcp_ends (hB1.calls hst) (hB1.run.endsIn hst) hB2

/-! ### The example sessions as they are run -/

theorem example1_fits {q : Bytes} (h : CallFits [q]) : Net.Calls CallFits (Net.start (Example1.client q ()) (Example1.server ())) :=
  (example1_run q h).calls (stuck_rets _ _ _ _)

theorem example3_fits {r1 r21 r22 : Bytes} (h : CallFits [r1]) (h' : CallFits [r21, r22]) :
    Net.Calls CallFits (Net.start (Example3.client r1 r21 r22 ()) (Example3.server ())) :=
  (example3_run r1 r21 r22 h h').calls (stuck_rets _ _ _ _)

theorem example1_counts (b4 : Bool) (q : Bytes) : counts b4 { log := true } [⟨4, true, [q]⟩] [⟨5, false, [q]⟩] =
    ((158, if b4 then 42 else 162), (182 + q.length, 186 + q.length)) := by
  simp only [counts, wireBytes, callBytes, List.map_cons, List.map_nil, List.sum_cons, List.sum_nil, List.length_cons,
    List.length_nil, Prod.mk.injEq]
  split <;> simp at * <;> omega

theorem example3_counts (b4 : Bool) {r1 r21 r22 : Bytes} (h1 : r21.length ≤ 65535) (h2 : r22.length ≤ 65535) :
    counts b4 { log := true } [⟨4, false, [r1]⟩, ⟨6, false, [r21, r22]⟩] [⟨5, false, [r1]⟩, ⟨7, true, [r21, r22]⟩] =
    ((158, if b4 then 42 else 162), (212 + r1.length + r21.length + r22.length, 216 + r1.length + r21.length + r22.length)) := by
  have e1 : callBytes [r1] = r1.length + 24 := by simp [callBytes]
  have e2 : callBytes [r21, r22] = r21.length + r22.length + 30 := by
    simp [callBytes, h1, h2]
    omega
  simp only [counts, wireBytes, List.map_cons, List.map_nil, List.sum_cons, List.sum_nil, e1, e2, Prod.mk.injEq]
  refine ⟨⟨by simp, by simp⟩, by simp; omega, by simp; omega⟩

/-- **C131, dev/example_session1.py** with any number of clients and any requests: every client sees 158 bytes read and 42
written after the handshake (162 without the buffering of M4), and in the end 182 and 186 and the request each. -/
theorem C131_example1 (S : Setup L cc cs cfgC cfgS kc ks) (hL : BoxSize L) (clk : Nat → Nat) (fuel : Nat)
    (reqs : List Bytes) (hreq : ∀ q ∈ reqs, CallFits [q]) :
    Farm.AllServed tcp reqs
      (fun q => SockNet.start (onSocket (quiet clk (countedClient L cc cfgC (Example1.client q ()) { log := true }) 0))
        (onSocket (party L cs (sessionLoop cfgS Example1.server (fuel + 2)) 0)))
      (fun q z => ∃ rc, AgreedC L cc cs cfgS kc ks (.ok q, ()) rc ∧
        Results (rc, (158, if cfgC.bufferM4 then 42 else 162), (182 + q.length, 186 + q.length)) (.ok ()) z) := by
  refine C102_all_served tcp_lawful fun q hq => ?_
  obtain ⟨rc, hag, t1, t2⟩ := C131_tcp S hL (n := 1) (by decide) (example1_modest q).1 (example1_modest q).2
    (fun _ => ⟨_, _, _, rfl⟩) (example1_calls q) (example1_fits (hreq q hq)) clk { log := true } fuel
  rw [example1_counts] at t2
  exact ⟨t1, fun z hz hs => ⟨(t2 z hz hs).1, (t2 z hz hs).2.1, rc, hag, (t2 z hz hs).2.2⟩⟩

/-- **C131, dev/example_session3.py** with any number of clients. -/
theorem C131_example3 (S : Setup L cc cs cfgC cfgS kc ks) (hL : BoxSize L) (clk : Nat → Nat) (fuel : Nat)
    (reqs : List (Bytes × Bytes × Bytes))
    (hreq : ∀ q ∈ reqs, CallFits [q.1] ∧ q.2.1.length ≤ 65535 ∧ q.2.2.length ≤ 65535) :
    Farm.AllServed tcp reqs
      (fun q => SockNet.start (onSocket (quiet clk (countedClient L cc cfgC (Example3.client q.1 q.2.1 q.2.2 ()) { log := true }) 0))
        (onSocket (party L cs (sessionLoop cfgS Example3.server (fuel + 2)) 0)))
      (fun q z => ∃ rc, AgreedC L cc cs cfgS kc ks (.ok (), ()) rc ∧
        Results (rc, (158, if cfgC.bufferM4 then 42 else 162), (212 + q.1.length + q.2.1.length + q.2.2.length,
          216 + q.1.length + q.2.1.length + q.2.2.length)) (.ok ()) z) := by
  refine C102_all_served tcp_lawful fun q hq => ?_
  obtain ⟨g1, g2, g3⟩ := hreq q hq
  obtain ⟨rc, hag, t1, t2⟩ := C131_tcp S hL (n := 3) (by decide) (example3_modest q.1 q.2.1 q.2.2).1
    (example3_modest q.1 q.2.1 q.2.2).2 (fun _ => ⟨_, _, _, rfl⟩) (example3_calls q.1 q.2.1 q.2.2 g2 g3)
    (example3_fits g1 (by simp [CallFits]; omega)) clk { log := true } fuel
  rw [example3_counts _ g2 g3] at t2
  exact ⟨t1, fun z hz hs => ⟨(t2 z hz hs).1, (t2 z hz hs).2.1, rc, hag, (t2 z hz hs).2.2⟩⟩

/-- The client coroutines with their `MitmChannel`: dev/example_session1_a.py:58-103, dev/example_session3_a.py:75-158. -/
def countedCoroutine (L : Lib) (c : Clock) (cfg : ClientCfg) (clk : Nat → Nat) (prog : IT appSig (Except Err α × Unit)) :
    IT (aio Unit) ((Except Err (Except Err α × Unit) × ClientSt) × (Nat × Nat) × (Nat × Nat)) :=
  Aio.closing (fun r => Aio.okExample r.1) (Aio.on (Aio.plain (quiet clk (countedClient L c cfg prog { log := true }) 0)))

/-- **C131, dev/example_session1_a.py** with any number of clients. -/
theorem C131_example1_a (S : Setup L cc cs cfgC cfgS kc ks) (hL : BoxSize L) (clk : Nat → Nat)
    (reqs : List Bytes) (hreq : ∀ q ∈ reqs, CallFits [q]) :
    AioServed L cc cs reqs
      (fun q => AioNet.pair (countedCoroutine L cc cfgC clk (Example1.client q ())) (Example1A.server cfgS))
      (fun q r => AgreedC L cc cs cfgS kc ks (.ok q, ()) r.1 ∧
        r.2 = ((158, if cfgC.bufferM4 then 42 else 162), (182 + q.length, 186 + q.length)))
      (fun _ r => AgreedS L cc cs cfgC cfgS kc ks (.ok (), ()) r) := by
  refine C105_all_served fun q hq => ?_
  obtain ⟨rc, rs, ⟨key, h1, h2, hk, hc, hs⟩, h⟩ := C131_asyncio S hL (n := 1) (by decide) (example1_modest q).1 (example1_modest q).2
    (fun _ => ⟨_, _, _, rfl⟩) (example1_calls q) (example1_fits (hreq q hq)) clk { log := true } Aio.okExample Aio.okExample
    (fun _ => rfl) fun _ => rfl
  exact ⟨_, _, h, ⟨⟨_, _, _, hk, hc⟩, example1_counts _ _⟩, ⟨_, _, _, hk, hs⟩⟩

/-- **C131, dev/example_session3_a.py** with any number of clients. -/
theorem C131_example3_a (S : Setup L cc cs cfgC cfgS kc ks) (hL : BoxSize L) (clk : Nat → Nat)
    (reqs : List (Bytes × Bytes × Bytes))
    (hreq : ∀ q ∈ reqs, CallFits [q.1] ∧ q.2.1.length ≤ 65535 ∧ q.2.2.length ≤ 65535) :
    AioServed L cc cs reqs
      (fun q => AioNet.pair (countedCoroutine L cc cfgC clk (Example3.client q.1 q.2.1 q.2.2 ())) (Example3A.server cfgS))
      (fun q r => AgreedC L cc cs cfgS kc ks (.ok (), ()) r.1 ∧
        r.2 = ((158, if cfgC.bufferM4 then 42 else 162), (212 + q.1.length + q.2.1.length + q.2.2.length,
          216 + q.1.length + q.2.1.length + q.2.2.length)))
      (fun _ r => AgreedS L cc cs cfgC cfgS kc ks (.ok (), ()) r) := by
  refine C105_all_served fun q hq => ?_
  obtain ⟨g1, g2, g3⟩ := hreq q hq
  obtain ⟨rc, rs, ⟨key, h1, h2, hk, hc, hs⟩, h⟩ := C131_asyncio S hL (n := 3) (by decide) (example3_modest q.1 q.2.1 q.2.2).1
    (example3_modest q.1 q.2.1 q.2.2).2 (fun _ => ⟨_, _, _, rfl⟩) (example3_calls q.1 q.2.1 q.2.2 g2 g3)
    (example3_fits g1 (by simp [CallFits]; omega)) clk { log := true } Aio.okExample Aio.okExample (fun _ => rfl) fun _ => rfl
  exact ⟨_, _, h, ⟨⟨_, _, _, hk, hc⟩, example3_counts _ g2 g3⟩, ⟨_, _, _, hk, hs⟩⟩

/-- As they are in the package, with the toy library: three clients of example 1 in either version; each prints 200 (or 320)
handshake bytes and 380 bytes in all. -/
example (b' : Bool) (clk : Nat → Nat) :
    Farm.AllServed tcp (List.replicate 3 Example1.request)
      (fun q => SockNet.start (onSocket (quiet clk (countedClient toyLib exClock (exCfgC true) (Example1.client q ()) { log := true }) 0))
        (onSocket (party toyLib exClock (sessionLoop (exCfgS b') Example1.server 2) 0)))
      (fun _ z => ∃ rc, Results (rc, (158, 42), (188, 192)) (.ok ()) z) := by
  obtain ⟨h1, h2, h3⟩ := C131_example1 (exSetup true b') toy_size clk 0 (List.replicate 3 Example1.request)
    (by simp [CallFits, Example1.request])
  refine ⟨h1, h2, fun F hF hs => ?_⟩
  obtain ⟨k1, k2, k3⟩ := h3 F hF hs
  refine ⟨k1, k2, fun i d hd => ?_⟩
  obtain ⟨c, c1, c2, c3, rc, -, c4⟩ := k3 i d hd
  obtain rfl : d = Example1.request := List.eq_of_mem_replicate (List.mem_of_getElem? hd)
  exact ⟨c, c1, c2, c3, rc, c4⟩

example (b' : Bool) (clk : Nat → Nat) :
    AioServed toyLib exClock exClock [Example3.requests]
      (fun q => AioNet.pair (countedCoroutine toyLib exClock (exCfgC false) clk (Example3.client q.1 q.2.1 q.2.2 ())) (Example3A.server (exCfgS b')))
      (fun q r => AgreedC toyLib exClock exClock (exCfgS b') exKc exKs (.ok (), ()) r.1 ∧
        r.2 = ((158, 162), (212 + q.1.length + q.2.1.length + q.2.2.length, 216 + q.1.length + q.2.1.length + q.2.2.length)))
      (fun _ r => AgreedS toyLib exClock exClock (exCfgC false) (exCfgS b') exKc exKs (.ok (), ()) r) :=
  C131_example3_a (exSetup false b') toy_size clk _ (by simp [CallFits, Example3.requests])

end Salt.Props
