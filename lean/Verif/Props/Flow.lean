import Verif.Lemmas.FlowDead
import Verif.Props.AioExamples
import Verif.Props.Buffers

/-!
# Flow control of asyncio streams

C120: `AsyncioChannel.write` ends with `await writer.drain()`, which waits while more than the high water mark is in the
write buffer of the transport, and a `StreamReader` that holds too much makes its transport stop reading.  Coroutines
that take turns do not notice this, whatever the limits; others can block each other for ever.
-/

set_option linter.unusedSimpArgs false

namespace Salt.Props

open Salt Salt.Spec

variable {α β : Type}

/-- What one would like to have: two coroutines that use any sessions and messages, each on an `AsyncioChannel` on one
end of a connection, with messages shorter than `2^31` bytes, end as if they were connected by message links, whatever the
schedule, the pieces in which bytes arrive, and the limits.  It is false: `C120_violated`. -/
def C120_claim : Prop := ∀ {α β : Type} (l : Limits) (L : Lib) (ca cb : Clock) (tA : IT env α) (tB : IT env β) (y : Net α β),
  l.Ok → Net.Calls Fits (Net.start (party L ca tA 0) (party L cb tB 0)) →
  EndsIn (Net.start (party L ca tA 0) (party L cb tB 0)) y → y.ab = [] → y.ba = [] →
  FlowEndsLike l L ca cb y (AioNet.pair (Aio.on (Aio.alone tA)) (Aio.on (Aio.alone tB)))

/-- **C120, the part that holds.** Coroutines that take turns, and read everything written to them, end as if they were
connected by message links, whatever the schedule, the pieces in which bytes arrive, and the limits. -/
theorem C120_turns_partial {l : Limits} (hl : l.Ok) (L : Lib) (ca cb : Clock) (tA : IT env α) (tB : IT env β) {y : Net α β}
    (hc : Net.Calls Fits (Net.start (party L ca tA 0) (party L cb tB 0)))
    (hd : Net.HalfDuplex (Net.start (party L ca tA 0) (party L cb tB 0)))
    (hy : EndsIn (Net.start (party L ca tA 0) (party L cb tB 0)) y) (h1 : y.ab = []) (h2 : y.ba = []) :
    FlowEndsLike l L ca cb y (AioNet.pair (Aio.on (Aio.alone tA)) (Aio.on (Aio.alone tB))) :=
  flow_ends hl (impl_open_alone tA 0) (impl_open_alone tB 0) hc ⟨hy, .inl ⟨fun _ => rfl, fun _ => rfl⟩⟩ hd h1 h2

/-- **C120, what always holds.** Whether the coroutines take turns or not: all comes to an end, whoever has returned has
returned what they return with message links, and if all stops with nobody in `drain()` (and nothing is left on the
message links), it stops as with message links. -/
theorem C120_safe_partial {l : Limits} (hl : l.Ok) (L : Lib) (ca cb : Clock) (tA : IT env α) (tB : IT env β) {y : Net α β}
    (hc : Net.Calls Fits (Net.start (party L ca tA 0) (party L cb tB 0)))
    (hy : EndsIn (Net.start (party L ca tA 0) (party L cb tB 0)) y) :
    Flow.Terminates l L ca cb (.start (AioNet.pair (Aio.on (Aio.alone tA)) (Aio.on (Aio.alone tB)))) ∧
    ∀ Y, Flow.Reach l L ca cb (.start (AioNet.pair (Aio.on (Aio.alone tA)) (Aio.on (Aio.alone tB)))) Y →
      (∀ r, Y.net.a.tasks () = .ret r → y.a = .ret r) ∧ (∀ r, Y.net.b.tasks () = .ret r → y.b = .ret r) ∧
      (Flow.Stuck l L ca cb Y → Y.a.drain () = false → Y.b.drain () = false → y.ab = [] → y.ba = [] →
        AioEnd Y.net.a () y.a ∧ AioEnd Y.net.b () y.b ∧ Y.net.ab = [] ∧ Y.net.ba = [] ∧ Y.net.a.rt.buffer = [] ∧
          Y.net.b.rt.buffer = []) :=
  ⟨flow_terminates _, fun _ hr => flow_safe hl (impl_open_alone tA 0) (impl_open_alone tB 0) hc
    ⟨hy, .inl ⟨fun _ => rfl, fun _ => rfl⟩⟩ hr⟩

/-- **C120, any number of tasks.** Flow control only leaves out schedules, so all that is said about all schedules of
tasks on asyncio streams without it (C92, C93, C94, C97) stays true. -/
theorem C120_schedules {ι κ σ τ : Type} [DecidableEq ι] [DecidableEq κ] {l : Limits} {L : Lib} {ca cb : Clock}
    {X : AioNet ι κ σ τ α β} {Y : Flow ι κ σ τ α β} (hr : Flow.Reach l L ca cb (.start X) Y) :
    AioNet.Reach L ca cb X Y.net := flow_reach_net hr

/-- **C120 for sessions, the part that holds.** A client and a server, each a coroutine on one end of a connection, with
programs that take turns and read everything: whatever the schedule, the pieces in which bytes arrive, and the limits,
each side returns what its program returns when the two programs are directly connected, or waits if it waits there. -/
theorem C120_sessions_partial {L : Lib} {cc cs : Clock} {cfgC : ClientCfg} {cfgS : ServerCfg} {kc ks : KeyPair}
    (S : Setup L cc cs cfgC cfgS kc ks) (hL : BoxSize L) (pA : IT appSig α) (pB : IT appSig β) {n : Nat}
    (hn : n ≤ 2 ^ 62) (hA : Modest 65535 pA n) (hB : Modest 65535 pB n) (hc : Net.Calls CallFits (Net.start pA pB))
    (hb4 : cfgC.bufferM4 = true → ∃ ms l k, pA = .op (S := appSig) (.write ms l) k)
    (hd : Net.HalfDuplex (Net.start pA pB)) {y : Net α β} (hy : EndsIn (Net.start pA pB) y) (h1 : y.ab = []) (h2 : y.ba = [])
    {l : Limits} (hl : l.Ok) :
    ∃ key ha hb, KeysOf L cc cs cfgS.bufferM2 kc ks key ha hb ∧
      ∃ Z, SameEnd (ClientEnd key ha hb cfgS.sigKp.pub) y.a Z.a ∧ SameEnd (ServerEnd key ha hb cfgC.sigKp.pub) y.b Z.b ∧
        FlowEndsLike l L cc cs Z (AioNet.pair (Aio.on (Aio.alone (clientSession cfgC pA)))
          (Aio.on (Aio.alone (serverSession cfgS pB)))) := by
  obtain ⟨key, ha, hb, hk, ⟨y', Y, e1, e2, e3, e4, e5, e6⟩, e7⟩ := session_short hL S pA pB hn hA hB hb4 hc
  obtain ⟨s, m, hm, -⟩ := hy
  obtain rfl : y = y' := by
    obtain ⟨-, _, -, h⟩ := e1
    exact (h _ _ hm).2 s
  exact ⟨key, ha, hb, hk, Y, e3, e4, C120_turns_partial hl L cc cs _ _ e7
    (session_eager S pA pB hn hA hB hb4 hd (hm.endsIn s) h1 h2) e2 (e5 h1) (e6 h2)⟩

/-- **C120, closing.** A client and a server whose programs take turns and both return when they are directly connected,
and which close the channel unless an exception has been raised: whatever the schedule, the pieces in which bytes arrive,
and the limits, both sides come to an end, with the same results, and close the connection. -/
theorem C120_closing_partial {L : Lib} {cc cs : Clock} {cfgC : ClientCfg} {cfgS : ServerCfg} {kc ks : KeyPair}
    (S : Setup L cc cs cfgC cfgS kc ks) (hL : BoxSize L) {pA : IT appSig α} {pB : IT appSig β} {n : Nat}
    (hn : n ≤ 2 ^ 62) (hA : Modest 65535 pA n) (hB : Modest 65535 pB n)
    (hb4 : cfgC.bufferM4 = true → ∃ ms l k, pA = .op (S := appSig) (.write ms l) k)
    (nA : Except Err α × ClientSt → Bool) (nB : Except Err β × ServerSt → Bool) {a : α} {b : β}
    (hc : Net.Calls CallFits (Net.start pA pB)) (hd : Net.HalfDuplex (Net.start pA pB))
    (he : EndsIn (Net.start pA pB) ⟨.ret a, .ret b, [], []⟩)
    (hnA : ∀ s, nA (.ok a, s) = true) (hnB : ∀ s, nB (.ok b, s) = true) {l : Limits} (hl : l.Ok) :
    ∃ sc ss, Agreed L cc cs cfgC cfgS kc ks a b (.ok a, sc) (.ok b, ss) ∧ FlowFinish l L cc cs
      (AioNet.pair (Aio.closing nA (Aio.on (Aio.alone (clientSession cfgC pA))))
        (Aio.closing nB (Aio.on (Aio.alone (serverSession cfgS pB))))) (.ok a, sc) (.ok b, ss) := by
  obtain ⟨h1, m, h2, h3⟩ := he
  obtain ⟨⟨ra, sc⟩, ⟨rb, ss⟩, e1, hag⟩ := session_returns S hn hA hB hb4 h2
  obtain ⟨rfl, rfl⟩ : ra = .ok a ∧ rb = .ok b := by
    obtain ⟨_, _, _, -, h4, h5⟩ := hag
    exact ⟨h4.1, h5.1⟩
  obtain ⟨key, k1, k2, hk, -, e5⟩ := session_short hL S pA pB hn hA hB hb4 hc
  exact ⟨sc, ss, hag, flow_finish hl (impl_closing_alone nA _ 0) (impl_closing_alone nB _ 0) e5 e1
    (session_eager S pA pB hn hA hB hb4 hd (h2.endsIn h1) rfl rfl) (hnA _) (hnB _)⟩

/-- **C120, example session 1.** -/
theorem C120_example1 {L : Lib} {cc cs : Clock} {cfgC : ClientCfg} {cfgS : ServerCfg} {kc ks : KeyPair}
    (S : Setup L cc cs cfgC cfgS kc ks) (hL : BoxSize L) (request : Bytes) (hr : request.length ≤ 2 ^ 31 - 29)
    {l : Limits} (hl : l.Ok) :
    ∃ sc ss, Agreed (α := Except Err Bytes × Unit) (β := Except Err Unit × Unit) L cc cs cfgC cfgS kc ks (.ok request, ())
        (.ok (), ()) (.ok (.ok request, ()), sc) (.ok (.ok (), ()), ss) ∧
      FlowFinish l L cc cs (AioNet.pair (Example1A.client cfgC request) (Example1A.server cfgS))
        (.ok (.ok request, ()), sc) (.ok (.ok (), ()), ss) := by
  have r := example1_run request (P := CallFits) (by simp [CallFits]; omega)
  exact C120_closing_partial S hL (n := 1) (by decide) (example1_modest request).1 (example1_modest request).2
    (fun _ => ⟨_, _, _, rfl⟩) _ _ (r.calls (stuck_rets _ _ _ _)) ((example1_runE request).halfDuplex (stuck_rets _ _ _ _))
    (r.run.endsIn (stuck_rets _ _ _ _)) (fun _ => rfl) (fun _ => rfl) hl

/-- **C120, example session 3.** -/
theorem C120_example3 {L : Lib} {cc cs : Clock} {cfgC : ClientCfg} {cfgS : ServerCfg} {kc ks : KeyPair}
    (S : Setup L cc cs cfgC cfgS kc ks) (hL : BoxSize L) (r1 r21 r22 : Bytes) (h1 : r1.length ≤ 2 ^ 31 - 29)
    (h2 : r21.length + r22.length ≤ 2 ^ 31 - 31) {l : Limits} (hl : l.Ok) :
    ∃ sc ss, Agreed (α := Except Err Unit × Unit) (β := Except Err Unit × Unit) L cc cs cfgC cfgS kc ks (.ok (), ())
        (.ok (), ()) (.ok (.ok (), ()), sc) (.ok (.ok (), ()), ss) ∧
      FlowFinish l L cc cs (AioNet.pair (Example3A.client cfgC r1 r21 r22) (Example3A.server cfgS))
        (.ok (.ok (), ()), sc) (.ok (.ok (), ()), ss) := by
  have r := example3_run r1 r21 r22 (P := CallFits) (by simp [CallFits]; omega) (by simp [CallFits]; omega)
  exact C120_closing_partial S hL (n := 3) (by decide) (example3_modest r1 r21 r22).1 (example3_modest r1 r21 r22).2
    (fun _ => ⟨_, _, _, rfl⟩) _ _ (r.calls (stuck_rets _ _ _ _)) ((example3_runE r1 r21 r22).halfDuplex (stuck_rets _ _ _ _))
    (r.run.endsIn (stuck_rets _ _ _ _)) (fun _ => rfl) (fun _ => rfl) hl

/-- **C120, asking for the protocols** (example session 2). -/
theorem C120_a1 (uw : Nat → Bool) (L : Lib) (cc cs : Clock) {cfg : ServerCfg} {kp : KeyPair}
    (hkp : cfg.encKp = some kp) {s : A1ClientSt} {addr : Option Bytes} (ha : IsA1 s.a1.toBytes addr)
    {nss : Bool} {prots : List (Bytes × Bytes)} (h2 : a1Answer cfg = a2 nss true prots)
    (hn : prots.length ≤ 127) (hnss : nss = true → prots = [])
    (hp : ∀ q ∈ prots, q.1.length = 10 ∧ q.2.length = 10 ∧ (∀ b ∈ q.1, NameByte b) ∧ ∀ b ∈ q.2, NameByte b)
    {l : Limits} (hl : l.Ok) :
    ∃ p, FlowFinish l L cc cs (AioNet.pair (Example2A.client uw s) (Example2A.server cfg))
        (.ok (), { s with a2 := some p }) (.ok (), { Server.init with isDone := true }) ∧
      A2.noSuchServer p = nss.toNat ∧ A2.count p = prots.length ∧
      A2.entries prots.length p.optBytes = prots.map (fun q => q.1 ++ q.2) := by
  obtain ⟨_, hcl, hsv, -⟩ := a1_perf uw L cs hkp ha h2 hn hnss hp
  obtain ⟨p, m, h, h'⟩ := a1_run uw L cs hkp ha h2 hn hnss hp
  exact ⟨p, flow_finish hl (impl_closing_plain _ _ 0) (impl_closing_alone _ _ 0) (h.calls (stuck_rets _ _ _ _))
    (h.run.endsIn (stuck_rets _ _ _ _)) ((ask_runE hcl hsv).halfDuplex (stuck_rets _ _ _ _)) rfl rfl, h'⟩

theorem echo_pair_runE (msg : Bytes) (hm : msg ≠ []) (n fuel : Nat) (rs : List Bytes) :
    Net.RunE (⟨echoClientP msg n rs, echoServerP (n + fuel + 1), [], []⟩ : Net _ _)
      ⟨.ret (.ok (rs ++ List.replicate n msg), ()), .ret (.ok (), ()), [], []⟩ := by
  induction n generalizing rs with
  | zero =>
    rw [show 0 + fuel + 1 = fuel + 1 by omega]
    refine .step (.aWrite [[]] false _ (not_writing_read _)) (.step (.bRead [] _) ?_)
    simp only [if_true, List.replicate_zero, List.append_nil]
    exact .refl _
  | succ n ih =>
    rw [show n + 1 + fuel + 1 = (n + fuel + 1) + 1 by omega]
    refine .step (.aWrite [msg] false _ (not_writing_read _)) (.step (.bRead msg _) ?_)
    simp only [hm, if_false]
    refine .step (.bWrite [msg] false _ (not_writing_read _)) (.step (.aRead msg _) ?_)
    rw [List.replicate_succ, List.append_cons]
    exact ih _

/-- **C120, the simple echo session.** Data of any size, any number of rounds and any limits. -/
theorem C120_simple_echo (L : Lib) (cc cs : Clock) (data : Bytes) (hd : data ≠ []) (hl : data.length < 2 ^ 31)
    (n fuel : Nat) {l : Limits} (hlim : l.Ok) :
    FlowFinish l L cc cs (AioNet.pair (SimpleEchoA.client data n ()) (SimpleEchoA.server (n + fuel + 1) ()))
      (.ok (List.replicate n data), ()) (.ok (), ()) := by
  obtain ⟨m, h⟩ := echo_pair_run data hd (P := Fits) (by simpa [Fits] using hl) (by simp [Fits]) n fuel []
  exact flow_finish hlim (impl_client n 0) (impl_server _ 0) (h.calls (stuck_rets _ _ _ _))
    (h.run.endsIn (stuck_rets _ _ _ _)) ((echo_pair_runE data hd n fuel []).halfDuplex (stuck_rets _ _ _ _)) rfl rfl

/-! ### Where it fails -/

/-- Write, then read, on any channel. -/
def envWriteRead (m : Bytes) : IT env (Except Err Bytes) :=
  .op (S := env) (.write [m] false) fun _ => .op (S := env) .read fun r => .ret r

theorem envWriteRead_party (L : Lib) (c : Clock) (m : Bytes) : party L c (envWriteRead m) 0 = exWriteRead m := rfl

/-- More than all buffers on the way hold: the write buffer up to the high water mark and the sockets; and then the write
buffer down to the low water mark, the sockets, and the `StreamReader` of the other side. -/
def Overflows (l : Limits) (n : Nat) : Prop := l.high + l.cap < n ∧ l.low + 2 * l.cap + 2 * l.limit < n

theorem envWriteRead_first (m : Bytes) (hm : m.length < 2 ^ 31) :
    ∃ k, WritesFirst (4 + m.length) (Aio.on (Aio.alone (envWriteRead m))) k ∧
      (∀ r, Aio.on (Aio.alone (envWriteRead m)) ≠ .ret r) ∧ ∀ r, k (.ok ()) ≠ .ret r := by
  have e0 : Aio.on (Aio.alone (envWriteRead m)) = (Aio.handle (.write [m] false)).bind fun _ =>
      (Aio.handle .read).bind fun r => .ret r := rfl
  have h1 : ∃ k, Sends [m] (Aio.on (Aio.alone (envWriteRead m))) (.op (S := aio Unit) (.stream .drain) k) ∧
      k (.ok ()) = (Aio.handle .read).bind fun r => .ret r := by
    rw [e0]
    simp only [Aio.handle, AsyncioChannel.write, Py.bind_run, embed_bind, IT.bind_assoc]
    exact ⟨_, sends_writeAll [m] (by simpa using hm) _, rfl⟩
  obtain ⟨k, h1, h2⟩ := h1
  refine ⟨k, .inr ⟨[m], h1, ?_⟩, ?_, ?_⟩
  · simp [frames_cons, frame, leBytes_length', frames]
  · intro r h
    rw [h] at h1
    cases h1
  · intro r h
    rw [h2, aio_read] at h
    cases h

/-- **C120, both write first.** Both sides write a message and then read: with message links both get the message of the
other one, but if the messages overflow the buffers, then whatever the schedule neither ever returns, and in the end both
wait in `drain()`. -/
theorem C120_both_write {l : Limits} (hl : l.Ok) (L : Lib) (ca cb : Clock) (m m' : Bytes) (h : Overflows l (4 + m.length))
    (h' : Overflows l (4 + m'.length)) (hm : m.length < 2 ^ 31) (hm' : m'.length < 2 ^ 31) :
    EndsIn (Net.start (party L ca (envWriteRead m) 0) (party L cb (envWriteRead m') 0)) ⟨.ret (.ok m'), .ret (.ok m), [], []⟩ ∧
    (∃ Y, Flow.Reach l L ca cb (.start (AioNet.pair (Aio.on (Aio.alone (envWriteRead m))) (Aio.on (Aio.alone (envWriteRead m'))))) Y ∧
      Flow.Stuck l L ca cb Y) ∧
    ∀ Y, Flow.Reach l L ca cb (.start (AioNet.pair (Aio.on (Aio.alone (envWriteRead m))) (Aio.on (Aio.alone (envWriteRead m'))))) Y →
      (∀ r, Y.net.a.tasks () ≠ .ret r) ∧ (∀ r, Y.net.b.tasks () ≠ .ret r) ∧
      (Flow.Stuck l L ca cb Y → Y.a.drain () = true ∧ Y.b.drain () = true) := by
  have hr := exWriteRead_run m m' (P := Fits) (by simpa [Fits] using hm) (by simpa [Fits] using hm')
  refine ⟨hr.run.endsIn (stuck_rets _ _ _ _), flow_final _, fun Y hY => ?_⟩
  obtain ⟨k, e1, e2, e3⟩ := envWriteRead_first m hm
  obtain ⟨k', e1', e2', e3'⟩ := envWriteRead_first m' hm'
  have hb := flow_blocked hl e1 e1' h h' hY
  refine ⟨fun r hr => ?_, fun r hr => ?_, fun hs => ⟨hb.final e2 hs, hb.swap.final e2' hs.swap⟩⟩
  · rcases hb.2.1.pos with ⟨p, -⟩ | ⟨p, -⟩
    · exact e2 r (p.symm.trans hr)
    · exact e3 r (p.symm.trans hr)
  · rcases hb.2.2.pos with ⟨p, -⟩ | ⟨p, -⟩
    · exact e2' r (p.symm.trans hr)
    · exact e3' r (p.symm.trans hr)

/-- The claim at the beginning is false. -/
theorem C120_violated : ¬ C120_claim := by
  intro hc
  have hr := exWriteRead_run [1] [2] (P := Fits) (by simp [Fits]) (by simp [Fits])
  obtain ⟨-, ⟨Y, h1, h2⟩, h3⟩ := C120_both_write (l := ⟨0, 0, 0, 1⟩) ⟨by decide, by decide⟩ toyLib exClock exClock [1] [2]
    ⟨by decide, by decide⟩ ⟨by decide, by decide⟩ (by decide) (by decide)
  have h := hc ⟨0, 0, 0, 1⟩ toyLib exClock exClock (envWriteRead [1]) (envWriteRead [2]) ⟨.ret (.ok [2]), .ret (.ok [1]), [], []⟩
    ⟨by decide, by decide⟩ (hr.calls (stuck_rets _ _ _ _)) (hr.run.endsIn (stuck_rets _ _ _ _)) rfl rfl
  have h4 := (h.2.2 Y h1 h2).2.2.1
  rw [((h3 Y h1).2.2 h2).1] at h4
  cases h4

/-- **C120, nobody reads.** Writing to a side that has returned without reading, and has not closed the connection: with
message links the writer returns, but with a message that overflows the buffers it waits in `drain()` in the end, whatever
the schedule. -/
theorem C120_unread {l : Limits} (hl : l.Ok) (L : Lib) (ca cb : Clock) (m : Bytes) (h : Overflows l (4 + m.length))
    (hm : m.length < 2 ^ 31) (Y : Flow Unit Unit Unit Unit (Except Err Bytes) Unit)
    (hr : Flow.Reach l L ca cb (.start (AioNet.pair (Aio.on (Aio.alone (envWriteRead m))) (.ret ()))) Y)
    (hs : Flow.Stuck l L ca cb Y) : Y.a.drain () = true := by
  obtain ⟨k, e1, e2, -⟩ := envWriteRead_first m hm
  exact (flow_blocked hl e1 (.inl ⟨(), rfl⟩) h h hr (kB := fun _ => .ret ())).final e2 hs

/-! ### Examples -/

/-- The limits of asyncio. -/
theorem default_ok {cap : Nat} (h : 0 < cap) : (Limits.default cap).Ok := ⟨by simp [Limits.default], h⟩

/-- The simple echo session with the limits of asyncio, sockets that hold 64 KiB, and data of a mebibyte. -/
example (data : Bytes) (h : data.length = 2 ^ 20) := C120_simple_echo toyLib exClock exClock data
  (by rintro rfl; simp at h) (by omega) 10 0 (default_ok (cap := 65536) (by decide))

/-- Example session 1 on the toy library with limits of one byte. -/
example (b b' : Bool) := C120_example1 (exSetup b b') toy_size [1, 2, 3] (by simp) (l := ⟨1, 0, 0, 1⟩) ⟨by decide, by decide⟩

/-- Two coroutines that each write a mebibyte before they read, with the limits of asyncio and sockets that hold 64 KiB,
never return. -/
example (Y : Flow Unit Unit Unit Unit (Except Err Bytes) (Except Err Bytes))
    (hr : Flow.Reach (Limits.default 65536) toyLib exClock exClock
      (.start (AioNet.pair (Aio.on (Aio.alone (envWriteRead (zeros (2 ^ 20))))) (Aio.on (Aio.alone (envWriteRead (zeros (2 ^ 20))))))) Y) :
    ∀ r, Y.net.a.tasks () ≠ .ret r := by
  have hlen : (zeros (2 ^ 20)).length = 2 ^ 20 := List.length_replicate
  generalize zeros (2 ^ 20) = m at hlen hr
  have ho : Overflows (Limits.default 65536) (4 + m.length) := by
    constructor <;> simp only [Limits.default] <;> omega
  exact ((C120_both_write (default_ok (by decide)) _ _ _ m m ho ho (by omega) (by omega)).2.2 Y hr).1

/-- The hypotheses of the sessions theorem on the toy library, with limits of zero and one byte in the sockets. -/
example (b b' : Bool) := C120_sessions_partial (exSetup b b') toy_size
    exAsk exEcho (n := 2) (by decide) ex_modest.1
    (fun _ _ => ⟨by simp, by simp, by simp, fun _ => ⟨by simp, by simp, by simp, fun _ => trivial⟩⟩)
    (Net.calls_within ⟨by simp, fun _ _ _ => trivial⟩
      (fun _ _ => ⟨by simp, fun _ => ⟨by simp, fun _ => trivial⟩⟩)) (fun _ => ⟨_, _, _, rfl⟩)
    ex_turns (ex_echo.endsIn (stuck_rets _ _ _ _)) rfl rfl (l := ⟨0, 0, 0, 1⟩) ⟨by decide, by decide⟩

end Salt.Props
