import Verif.Lemmas.TcpBreak
import Verif.Lemmas.Pool
import Verif.Props.StopServer

/-!
# Connections that break and the server thread (C126)
-/

namespace Salt.Props

open Salt Salt.Spec

section general

variable {α β : Type}

/-- **C126, one connection.** Two programs that end on a TCP connection also end if the connection may break at any time;
and if it has not broken, they end as on a connection that does not. -/
theorem C126_ends {Q : SockNet α β → Prop} {x : SockNet α β} (h : tcp.Ends Q x) : tcpBreak.Ends (IfWorks Q) (working x) :=
  tcpBreak_ends h

/-- **C126, both cases occur.** The connection can last until both programs have ended, and, unless both have ended from
the beginning, it can break. -/
theorem C126_both {Q : SockNet α β → Prop} {x : SockNet α β} (h : tcp.Ends Q x) :
    (∃ z, tcpBreak.Reach (working x) z ∧ tcpBreak.Stuck z ∧ z.alive = true ∧ Q z.net) ∧
    (tcp.doneC x ∧ tcp.doneS x ∨ ∃ z, tcpBreak.Reach (working x) z ∧ tcpBreak.Stuck z ∧ z.alive = false) := by
  constructor
  · obtain ⟨z, h1, h2⟩ := Link.exists_final h.1
    obtain ⟨h3, h4, h5⟩ := h.2 z h1 h2
    refine ⟨working z, tcp_lift h1, ?_, rfl, h5⟩
    rintro y (hy | hy)
    · exact tcpBreak_lawful.noC (working z) _ h3 hy
    · exact tcpBreak_lawful.noS (working z) _ h4 hy
  · by_cases hd : tcp.doneC x ∧ tcp.doneS x
    · exact .inl hd
    · have hcut : ∃ y, tcpBreak.Reach (working x) y ∧ y.alive = false := by
        by_cases hc : tcp.doneC x
        · exact ⟨_, .step (.refl _) (.inr (.inr (.inr ⟨⟨rfl, 0, 0, rfl⟩, fun hs => hd ⟨hc, hs⟩⟩))), rfl⟩
        · exact ⟨_, .step (.refl _) (.inl (.inr (.inr ⟨⟨rfl, 0, 0, rfl⟩, hc⟩))), rfl⟩
      obtain ⟨y, hy, hv⟩ := hcut
      obtain ⟨z, h1, h2⟩ := Link.exists_final (tcpBreak_terminates y)
      refine .inr ⟨z, hy.trans h1, h2, ?_⟩
      cases hz : z.alive with
      | false => rfl
      | true => rw [(tcpBreak_sim h1 hz).1] at hv; cases hv

/-- **C126, `run_sessions`.** Any number of clients, each of which would end together with its handler if it were alone, on
connections any of which may break at any time: whatever the schedule of all threads, everything ends; then all client
threads are at their ends, every connection has been accepted and its handler is at its end, `is_session_active` is
false, and on the connections that have not broken the results are those each pair would get alone. -/
theorem C126_run_sessions {D : Type} {ds : List D} {conn : D → SockNet α β} {Q : D → SockNet α β → Prop}
    (h : ∀ d ∈ ds, tcp.Ends (Q d) (conn d)) :
    Farm.AllServed tcpBreak ds (fun d => working (conn d)) fun d => IfWorks (Q d) :=
  C102_all_served tcpBreak_lawful fun d hd => C126_ends (h d hd)

/-- **C126, clients that hang.** The same if only some of the clients (`good`) would end together with their handlers, and the
others are any programs whatsoever, as is what the handlers do with them: since in the end the connections of clients
that hang are broken, everything ends, and the good clients whose connections have not broken get their results. -/
theorem C126_others {D : Type} {ds : List D} {conn : D → SockNet α β} {good : D → Prop} {Q : D → SockNet α β → Prop}
    (h : ∀ d ∈ ds, good d → tcp.Ends (Q d) (conn d)) :
    Farm.AllServed tcpBreak ds (fun d => working (conn d)) fun d z => good d → IfWorks (Q d) z := by
  refine C102_all_served tcpBreak_lawful fun d hd => ?_
  obtain ⟨t1, t2⟩ := tcpBreak_all (Q := fun z => good d → Q d z) (x := conn d)
    fun z hz hs hg => ((h d hd hg).2 z hz hs).2.2
  exact ⟨t1, fun z hz hs => ⟨(t2 z hz hs).1, (t2 z hz hs).2.1, fun hg hv => (t2 z hz hs).2.2 hv hg⟩⟩

/-- **C126, `stop_server`.** The same with `stop_server` after `run_sessions`, for clients that do not end before the server has
done something: `stop_server` and `serve_forever` return, and the clients whose connections have not broken have been
served. -/
theorem C126_stop_server {D : Type} {ds : List D} {conn : D → SockNet α β} {Q : D → SockNet α β → Prop}
    (h : ∀ d ∈ ds, tcp.Ends (Q d) (conn d)) (hn : ∀ d ∈ ds, tcp.NeedsServer (conn d)) : UnbrokenServed ds conn Q := by
  obtain ⟨k1, k2, k3⟩ := C116_stop_server tcpBreak_lawful (xs := ds.map fun d => working (conn d))
    (Q := fun i z => ∀ d, ds[i]? = some d → IfWorks (Q d) z) (by
      intro i x hx
      rw [List.getElem?_map, Option.map_eq_some_iff] at hx
      obtain ⟨d, hd, rfl⟩ := hx
      obtain ⟨t1, t2⟩ := C126_ends (h d (List.mem_of_getElem? hd))
      refine ⟨t1, fun z hz hs => ⟨(t2 z hz hs).1, (t2 z hz hs).2.1, fun d' hd' => ?_⟩⟩
      rw [hd] at hd'
      cases hd'
      exact (t2 z hz hs).2.2)
  refine ⟨k1, k2, fun R hR hs => ?_⟩
  obtain ⟨h1, h2, h3, h4, h5⟩ := k3 R hR hs
  rw [List.length_map] at h3
  refine ⟨h1, h2, h3, h4, fun i d hd => ?_⟩
  obtain ⟨c, hc⟩ : ∃ c, R.farm.conns[i]? = some c :=
    ⟨_, List.getElem?_eq_getElem (h3 ▸ (List.getElem?_eq_some_iff.1 hd).1)⟩
  obtain ⟨h6, ⟨h7, h8⟩ | ⟨h7, h8, x, hx, hr⟩⟩ := h5 i c hc
  · exact ⟨c, hc, h6, by rw [h7]; nofun, fun hv => ⟨h7, h8 d hd hv⟩⟩
  · rw [List.getElem?_map, hd] at hx
    cases hx
    refine ⟨c, hc, h6, by rw [h7]; nofun, fun hv => ?_⟩
    rw [tcpBreak_needs (hn d (List.mem_of_getElem? hd)) hr h8] at hv
    cases hv

end general

/-! ### The example sessions -/

variable {L : Lib} {cc cs : Clock} {cfgC : ClientCfg} {cfgS : ServerCfg} {kc ks : KeyPair}

/-- **C126, example session 1.** -/
theorem C126_example1 (S : Setup L cc cs cfgC cfgS kc ks) (hL : BoxSize L) (clk : Nat → Nat) (fuel : Nat)
    (reqs : List Bytes) (hreq : ∀ q ∈ reqs, CallFits [q]) :
    UnbrokenServed reqs
      (fun q => SockNet.start (clientThread clk (party L cc (clientSession cfgC (Example1.client q ())) 0))
        (onSocket (party L cs (sessionLoop cfgS Example1.server (fuel + 2)) 0)))
      (fun q z => ∃ sc sm, Results ((.ok (.ok q, ()), sc), sm) (.ok ()) z ∧ AgreedC (α := Except Err Bytes × Unit) L cc cs cfgS kc ks (.ok q, ()) (.ok (.ok q, ()), sc)) := by
  refine C126_stop_server (fun q hq => ?_) fun q _ => session_needs S _ _ clk fuel
  obtain ⟨sc, hag, t1, t2⟩ := session_tcp S hL (n := 1) (by decide) (example1_modest q).1 (example1_modest q).2
    (fun _ => ⟨_, _, _, rfl⟩) (example1_run q (hreq q hq)) clk fuel
  exact ⟨t1, fun z hz hs => ⟨(t2 z hz hs).1, (t2 z hz hs).2.1, sc, (t2 z hz hs).2.2.choose, (t2 z hz hs).2.2.choose_spec, hag⟩⟩

/-- **C126, example session 3.** -/
theorem C126_example3 (S : Setup L cc cs cfgC cfgS kc ks) (hL : BoxSize L) (clk : Nat → Nat) (fuel : Nat)
    (reqs : List (Bytes × Bytes × Bytes)) (hreq : ∀ q ∈ reqs, CallFits [q.1] ∧ CallFits [q.2.1, q.2.2]) :
    UnbrokenServed reqs
      (fun q => SockNet.start (clientThread clk (party L cc (clientSession cfgC (Example3.client q.1 q.2.1 q.2.2 ())) 0))
        (onSocket (party L cs (sessionLoop cfgS Example3.server (fuel + 2)) 0)))
      (fun _ z => ∃ sc sm, Results ((.ok (.ok (), ()), sc), sm) (.ok ()) z ∧ AgreedC (α := Except Err Unit × Unit) L cc cs cfgS kc ks (.ok (), ()) (.ok (.ok (), ()), sc)) := by
  refine C126_stop_server (fun q hq => ?_) fun q _ => session_needs S _ _ clk fuel
  obtain ⟨sc, hag, t1, t2⟩ := session_tcp S hL (n := 3) (by decide) (example3_modest q.1 q.2.1 q.2.2).1
    (example3_modest q.1 q.2.1 q.2.2).2 (fun _ => ⟨_, _, _, rfl⟩) (example3_run q.1 q.2.1 q.2.2 (hreq q hq).1 (hreq q hq).2) clk fuel
  exact ⟨t1, fun z hz hs => ⟨(t2 z hz hs).1, (t2 z hz hs).2.1, sc, (t2 z hz hs).2.2.choose, (t2 z hz hs).2.2.choose_spec, hag⟩⟩

/-- **C126, the simple echo session** (`run_sessions`). -/
theorem C126_simple_echo (clk : Nat → Nat) (n fuel : Nat) (datas : List Bytes)
    (hd : ∀ d ∈ datas, d ≠ [] ∧ d.length < 2 ^ 31) :
    Farm.AllServed tcpBreak datas
      (fun d => working (SockNet.start (clientThread clk (SimpleEcho.client d n ())) (onSocket (SimpleEcho.server (n + fuel + 1) ()))))
      (fun d => IfWorks fun z => ∃ sm, Results ((.ok (List.replicate n d), ()), sm) (.ok (), ()) z) :=
  C126_run_sessions fun d hdd => echo_ends clk n fuel (hd d hdd)

/-- The hypotheses can be met: three clients of example 1 with the toy library, and ten rounds of echo for two clients. -/
example (b b' : Bool) : UnbrokenServed (List.replicate 3 Example1.request)
    (fun q => SockNet.start (clientThread id (party toyLib exClock (clientSession (exCfgC b) (Example1.client q ())) 0))
      (onSocket (party toyLib exClock (sessionLoop (exCfgS b') Example1.server 2) 0)))
    (fun q z => ∃ sc sm, Results ((.ok (.ok q, ()), sc), sm) (.ok ()) z ∧
      AgreedC (α := Except Err Bytes × Unit) toyLib exClock exClock (exCfgS b') exKc exKs (.ok q, ()) (.ok (.ok q, ()), sc)) :=
  C126_example1 (exSetup b b') toy_size id 0 (List.replicate 3 Example1.request) (by simp [CallFits, Example1.request])

example : Farm.AllServed tcpBreak [[1, 2, 3, 4, 5, 6], [7]]
    (fun d => working (SockNet.start (clientThread id (SimpleEcho.client d 10 ())) (onSocket (SimpleEcho.server 11 ()))))
    (fun d => IfWorks fun z => ∃ sm, Results ((.ok (List.replicate 10 d), ()), sm) (.ok (), ()) z) :=
  C126_simple_echo id 10 0 [[1, 2, 3, 4, 5, 6], [7]] (by simp)

/-- A client that sends nothing, waits forever and would keep the server from serving others (C103), besides one that
works. -/
example : Farm.AllServed tcpBreak [none, some [1, 2, 3]]
    (fun d => working (match d with
      | none => SockNet.start (.op (S := sock) (.recv 1) fun _ => .ret ((.ok [], ()), { log := true })) (onSocket (SimpleEcho.server 11 ()))
      | some d => SockNet.start (clientThread id (SimpleEcho.client d 10 ())) (onSocket (SimpleEcho.server 11 ()))))
    (fun d z => ∀ m, d = some m → IfWorks (fun z => ∃ sm, Results ((.ok (List.replicate 10 m), ()), sm) (.ok (), ()) z) z) := by
  have h := C126_others (ds := [none, some [1, 2, 3]]) (good := fun d => d.isSome = true)
    (conn := fun d => match d with
      | none => SockNet.start (.op (S := sock) (.recv 1) fun _ => .ret (((.ok [], ()), { log := true }) : EchoResult))
        (onSocket (SimpleEcho.server 11 ()))
      | some d => SockNet.start (clientThread id (SimpleEcho.client d 10 ())) (onSocket (SimpleEcho.server 11 ())))
    (Q := fun d z => ∀ m, d = some m → ∃ sm, Results ((.ok (List.replicate 10 m), ()), sm) (.ok (), ()) z) (by
      intro d hd hg
      rcases d with _ | d
      · cases hg
      · have hd : d = [1, 2, 3] := by simpa using hd
        subst hd
        obtain ⟨t1, t2⟩ := echo_ends id 10 0 (d := [1, 2, 3]) (by simp)
        refine ⟨t1, fun z hz hs => ⟨(t2 z hz hs).1, (t2 z hz hs).2.1, fun m hm => ?_⟩⟩
        cases hm
        exact (t2 z hz hs).2.2)
  refine ⟨h.1, h.2.1, fun F hF hs => ?_⟩
  obtain ⟨h1, h2, h3⟩ := h.2.2 F hF hs
  refine ⟨h1, h2, fun i d hd => ?_⟩
  obtain ⟨c, k1, k2, k3, k4⟩ := h3 i d hd
  exact ⟨c, k1, k2, k3, fun m hm hv => k4 (by rw [hm]; rfl) hv m hm⟩

end Salt.Props
