import Verif.Lemmas.AioImpl
import Verif.Props.Dev2

/-!
# Two coroutines joined by a connection, and the example sessions with coroutines (C97, C98)
-/

namespace Salt.Props

open Salt Salt.Spec

variable {α β : Type}

/-! ### C97 -/

/-- **C97.** Two coroutines that use any sessions and messages, each on an `AsyncioChannel` on one end of a connection,
with messages shorter than `2^31` bytes: whatever the schedule and the pieces in which bytes arrive, all ends as if they
were connected by message links. -/
theorem C97_streams (L : Lib) (ca cb : Clock) (tA : IT env α) (tB : IT env β)
    (hc : Net.Calls Fits (Net.start (party L ca tA 0) (party L cb tB 0))) :
    ∃ y, EndsIn (Net.start (party L ca tA 0) (party L cb tB 0)) y ∧
      AioEndsLike L ca cb y (AioNet.pair (Aio.on (Aio.alone tA)) (Aio.on (Aio.alone tB))) := by
  obtain ⟨n, y, h1, h2⟩ := Net.exists_final (Net.start (party L ca tA 0) (party L cb tB 0))
  exact ⟨y, h1.endsIn h2, pair_ends (impl_open_alone tA 0) (impl_open_alone tB 0) hc
    ⟨h1.endsIn h2, .inl ⟨fun _ => rfl, fun _ => rfl⟩⟩⟩

/-- **C97 for sessions.** A client and a server, each a coroutine on one end of a connection, with arbitrary programs
whose calls are of limited size when the two are directly connected: whatever the schedule and the pieces in which bytes
arrive, each side returns what its program returns when the two programs are directly connected, or waits if it waits
there. -/
theorem C97_sessions {L : Lib} {cc cs : Clock} {cfgC : ClientCfg} {cfgS : ServerCfg} {kc ks : KeyPair}
    (S : Setup L cc cs cfgC cfgS kc ks) (hL : BoxSize L) (pA : IT appSig α) (pB : IT appSig β) {n : Nat}
    (hn : n ≤ 2 ^ 62) (hA : Modest 65535 pA n) (hB : Modest 65535 pB n) (hc : Net.Calls CallFits (Net.start pA pB))
    (hb4 : cfgC.bufferM4 = true → ∃ ms l k, pA = .op (S := appSig) (.write ms l) k) :
    ∃ key h1 h2 y, KeysOf L cc cs cfgS.bufferM2 kc ks key h1 h2 ∧ EndsIn (Net.start pA pB) y ∧
      ∃ Z, SameEnd (ClientEnd key h1 h2 cfgS.sigKp.pub) y.a Z.a ∧ SameEnd (ServerEnd key h1 h2 cfgC.sigKp.pub) y.b Z.b ∧
        (y.ab = [] → Z.ab = []) ∧ (y.ba = [] → Z.ba = []) ∧
        AioEndsLike L cc cs Z (AioNet.pair (Aio.on (Aio.alone (clientSession cfgC pA)))
          (Aio.on (Aio.alone (serverSession cfgS pB)))) := by
  obtain ⟨key, h1, h2, hk, ⟨y, Y, e1, e2, e3, e4, e6, e7⟩, e5⟩ := session_short hL S pA pB hn hA hB hb4 hc
  exact ⟨key, h1, h2, y, hk, e1, Y, e3, e4, e6, e7, pair_ends (impl_open_alone _ 0) (impl_open_alone _ 0) e5
    ⟨e2, .inl ⟨fun _ => rfl, fun _ => rfl⟩⟩⟩

/-- **C97, closing.** A client and a server whose programs both return when they are directly connected, and which close
the channel unless an exception has been raised: whatever the schedule and the pieces in which bytes arrive, both sides
come to an end, with the same results, and close the connection; neither does so while it has something to receive. -/
theorem C97_closing {L : Lib} {cc cs : Clock} {cfgC : ClientCfg} {cfgS : ServerCfg} {kc ks : KeyPair}
    (S : Setup L cc cs cfgC cfgS kc ks) (hL : BoxSize L) {pA : IT appSig α} {pB : IT appSig β} {n : Nat}
    (hn : n ≤ 2 ^ 62) (hA : Modest 65535 pA n) (hB : Modest 65535 pB n)
    (hb4 : cfgC.bufferM4 = true → ∃ ms l k, pA = .op (S := appSig) (.write ms l) k)
    (nA : Except Err α × ClientSt → Bool) (nB : Except Err β × ServerSt → Bool) {a : α} {b : β}
    (hc : Net.Calls CallFits (Net.start pA pB)) (he : EndsIn (Net.start pA pB) ⟨.ret a, .ret b, [], []⟩)
    (hnA : ∀ s, nA (.ok a, s) = true) (hnB : ∀ s, nB (.ok b, s) = true) :
    ∃ sc ss, Agreed L cc cs cfgC cfgS kc ks a b (.ok a, sc) (.ok b, ss) ∧ BothFinish L cc cs (AioNet.pair (Aio.closing nA (Aio.on (Aio.alone (clientSession cfgC pA))))
      (Aio.closing nB (Aio.on (Aio.alone (serverSession cfgS pB))))) (.ok a, sc) (.ok b, ss) := by
  obtain ⟨h1, m, h2, h3⟩ := he
  obtain ⟨⟨ra, sc⟩, ⟨rb, ss⟩, e1, hag⟩ := session_returns S hn hA hB hb4 h2
  obtain ⟨rfl, rfl⟩ : ra = .ok a ∧ rb = .ok b := by
    obtain ⟨_, _, _, -, h4, h5⟩ := hag
    exact ⟨h4.1, h5.1⟩
  obtain ⟨key, k1, k2, hk, -, e5⟩ := session_short hL S pA pB hn hA hB hb4 hc
  exact ⟨sc, ss, hag, pair_finish (impl_closing_alone nA _ 0) (impl_closing_alone nB _ 0) e5 e1 (hnA _) (hnB _)⟩

/-- The client asks two questions and the server answers in the other order, on the toy library. -/
example (b b' : Bool) : ∃ sc ss, Agreed (α := List (Except Err Bytes)) toyLib exClock exClock (exCfgC b) (exCfgS b') exKc exKs [.ok [2, 3], .ok [1]] ()
    (.ok [.ok [2, 3], .ok [1]], sc) (.ok (), ss) ∧ BothFinish toyLib exClock exClock
    (AioNet.pair (Aio.closing Aio.okSession (Aio.on (Aio.alone (clientSession (exCfgC b) exAsk))))
      (Aio.closing Aio.okSession (Aio.on (Aio.alone (serverSession (exCfgS b') exEcho)))))
    (.ok [.ok [2, 3], .ok [1]], sc) (.ok (), ss) :=
  C97_closing (pB := exEcho) (exSetup b b') toy_size (n := 2) (by decide) ex_modest.1
    (fun _ _ => ⟨by simp, by simp, by simp, fun _ => ⟨by simp, by simp, by simp, fun _ => trivial⟩⟩)
    (fun _ => ⟨_, _, _, rfl⟩) _ _ (Net.calls_within ⟨by simp, fun _ _ _ => trivial⟩
      (fun _ _ => ⟨by simp, fun _ => ⟨by simp, fun _ => trivial⟩⟩))
    (ex_echo.endsIn (stuck_rets _ _ _ _)) (fun _ => rfl) fun _ => rfl

/-! ### C98 -/

namespace Example1A

/-- `client_session`, dev/example_session1_a.py:58-103 (the `MitmChannel` passes everything on). -/
def client (cfg : ClientCfg) (request : Bytes) : IT (aio Unit) (Except Err (Except Err Bytes × Unit) × ClientSt) :=
  Aio.closing Aio.okExample (Aio.on (Aio.alone (clientSession cfg (Example1.client request ()))))

/-- `server_session`, dev/example_session1_a.py:39-56. -/
def server (cfg : ServerCfg) : IT (aio Unit) (Except Err (Except Err Unit × Unit) × ServerSt) :=
  Aio.closing Aio.okExample (Aio.on (Aio.alone (serverSession cfg (Example1.server ()))))

end Example1A

namespace Example2A

/-- `client_session`, dev/example_session2_a.py:55-87, with any A1. -/
def client (uw : Nat → Bool) (s : A1ClientSt) : IT (aio Unit) (Except Err Unit × A1ClientSt) :=
  Aio.closing Aio.okSession (Aio.on (Aio.plain (A1Client.doA1A2 uw s)))

/-- `server_session`, dev/example_session2_a.py:34-53. -/
def server (cfg : ServerCfg) : IT (aio Unit) (Except Err Unit × ServerSt) :=
  Aio.closing Aio.okSession (Aio.on (Aio.alone (Server.handshake cfg Server.init)))

end Example2A

namespace Example3A

/-- `client_session`, dev/example_session3_a.py:75-158. -/
def client (cfg : ClientCfg) (r1 r21 r22 : Bytes) : IT (aio Unit) (Except Err (Except Err Unit × Unit) × ClientSt) :=
  Aio.closing Aio.okExample (Aio.on (Aio.alone (clientSession cfg (Example3.client r1 r21 r22 ()))))

/-- `server_session`, dev/example_session3_a.py:52-73. -/
def server (cfg : ServerCfg) : IT (aio Unit) (Except Err (Except Err Unit × Unit) × ServerSt) :=
  Aio.closing Aio.okExample (Aio.on (Aio.alone (serverSession cfg (Example3.server ()))))

end Example3A

/-- **C98.** Example session 1 with coroutines, with any keys, any buffering and any request of up to `2^31 - 29` bytes:
whatever the schedule and the pieces in which bytes arrive, both sides end without exception and close the connection,
and the response is the request. -/
theorem C98_example1 {L : Lib} {cc cs : Clock} {cfgC : ClientCfg} {cfgS : ServerCfg} {kc ks : KeyPair}
    (S : Setup L cc cs cfgC cfgS kc ks) (hL : BoxSize L) (request : Bytes) (hr : request.length ≤ 2 ^ 31 - 29) :
    ∃ sc ss, Agreed (α := Except Err Bytes × Unit) (β := Except Err Unit × Unit) L cc cs cfgC cfgS kc ks (.ok request, ()) (.ok (), ()) (.ok (.ok request, ()), sc) (.ok (.ok (), ()), ss) ∧
      BothFinish L cc cs (AioNet.pair (Example1A.client cfgC request) (Example1A.server cfgS))
      (.ok (.ok request, ()), sc) (.ok (.ok (), ()), ss) := by
  have r := example1_run request (P := CallFits) (by simp [CallFits]; omega)
  exact C97_closing S hL (n := 1) (by decide) (example1_modest request).1 (example1_modest request).2
    (fun _ => ⟨_, _, _, rfl⟩) _ _ (r.calls (stuck_rets _ _ _ _)) (r.run.endsIn (stuck_rets _ _ _ _))
    (fun _ => rfl) fun _ => rfl

/-- **C98.** Example session 3 with coroutines, with any keys, buffering and requests of limited size: whatever the
schedule and the pieces in which bytes arrive, both sides end without exception (so none of the comparisons at the end
fails) and close the connection. -/
theorem C98_example3 {L : Lib} {cc cs : Clock} {cfgC : ClientCfg} {cfgS : ServerCfg} {kc ks : KeyPair}
    (S : Setup L cc cs cfgC cfgS kc ks) (hL : BoxSize L) (r1 r21 r22 : Bytes) (h1 : r1.length ≤ 2 ^ 31 - 29)
    (h2 : r21.length + r22.length ≤ 2 ^ 31 - 31) :
    ∃ sc ss, Agreed (α := Except Err Unit × Unit) (β := Except Err Unit × Unit) L cc cs cfgC cfgS kc ks (.ok (), ()) (.ok (), ()) (.ok (.ok (), ()), sc) (.ok (.ok (), ()), ss) ∧
      BothFinish L cc cs (AioNet.pair (Example3A.client cfgC r1 r21 r22) (Example3A.server cfgS))
      (.ok (.ok (), ()), sc) (.ok (.ok (), ()), ss) := by
  have r := example3_run r1 r21 r22 (P := CallFits) (by simp [CallFits]; omega) (by simp [CallFits]; omega)
  exact C97_closing S hL (n := 3) (by decide) (example3_modest r1 r21 r22).1 (example3_modest r1 r21 r22).2
    (fun _ => ⟨_, _, _, rfl⟩) _ _ (r.calls (stuck_rets _ _ _ _)) (r.run.endsIn (stuck_rets _ _ _ _))
    (fun _ => rfl) fun _ => rfl

/-- **C98.** An A1 client and a server with coroutines: whatever the schedule and the pieces in which bytes arrive, both
sides end without exception and close the connection, and the client holds the A2 of the server. -/
theorem C98_a1 (uw : Nat → Bool) (L : Lib) (cc cs : Clock) {cfg : ServerCfg} {kp : KeyPair}
    (hkp : cfg.encKp = some kp) {s : A1ClientSt} {addr : Option Bytes} (ha : IsA1 s.a1.toBytes addr)
    {nss : Bool} {prots : List (Bytes × Bytes)} (h2 : a1Answer cfg = a2 nss true prots)
    (hn : prots.length ≤ 127) (hnss : nss = true → prots = [])
    (hp : ∀ q ∈ prots, q.1.length = 10 ∧ q.2.length = 10 ∧ (∀ b ∈ q.1, NameByte b) ∧ ∀ b ∈ q.2, NameByte b) :
    ∃ p, BothFinish L cc cs (AioNet.pair (Example2A.client uw s) (Example2A.server cfg))
        (.ok (), { s with a2 := some p }) (.ok (), { Server.init with isDone := true }) ∧
      A2.noSuchServer p = nss.toNat ∧ A2.count p = prots.length ∧
      A2.entries prots.length p.optBytes = prots.map (fun q => q.1 ++ q.2) := by
  obtain ⟨p, m, h, h'⟩ := a1_run uw L cs hkp ha h2 hn hnss hp
  exact ⟨p, pair_finish (impl_closing_plain _ _ 0) (impl_closing_alone _ _ 0) (h.calls (stuck_rets _ _ _ _))
    (h.run.endsIn (stuck_rets _ _ _ _)) rfl rfl, h'⟩

/-- Example session 2 with coroutines. -/
theorem C98_example2 (uw : Nat → Bool) (L : Lib) (cc cs : Clock) (sig enc : KeyPair) :
    ∃ p, BothFinish L cc cs (AioNet.pair (Example2A.client uw { A1Client.init with a1 := Example2.a1 })
        (Example2A.server { sigKp := sig, encKp := some enc, a2 := some Example2.a2, bufferM2 := false }))
        (.ok (), ⟨Example2.a1, some p⟩) (.ok (), { Server.init with isDone := true }) ∧
      A2.entries 1 p.optBytes = [A2.sc2ProtString ++ ascii ['E', 'C', 'H', 'O', '-', '-', '-', '-', '-', '-']] := by
  obtain ⟨p, h1, -, -, h4⟩ := C98_a1 uw L cc cs
    (cfg := { sigKp := sig, encKp := some enc, a2 := some Example2.a2, bufferM2 := false }) (kp := enc) rfl
    (s := { A1Client.init with a1 := Example2.a1 }) (addr := some (List.replicate 32 8))
    (.key 0 (List.replicate 32 8) (by decide)) (nss := false)
    (prots := [(A2.sc2ProtString, ascii ['E', 'C', 'H', 'O', '-', '-', '-', '-', '-', '-'])])
    rfl (by decide) (by decide) (by decide)
  exact ⟨p, h1, h4⟩

/-- **C98.** The simple echo session with coroutines, with any non-empty data and any number of rounds: whatever the
schedule and the pieces in which bytes arrive, both sides end without exception and close the connection, and the client
has got a response equal to the data for each request. -/
theorem C98_simple_echo (L : Lib) (cc cs : Clock) (data : Bytes) (hd : data ≠ []) (hl : data.length < 2 ^ 31)
    (n fuel : Nat) :
    BothFinish L cc cs (AioNet.pair (SimpleEchoA.client data n ()) (SimpleEchoA.server (n + fuel + 1) ()))
      (.ok (List.replicate n data), ()) (.ok (), ()) := by
  obtain ⟨m, h⟩ := echo_pair_run data hd (P := Fits) (by simpa [Fits] using hl) (by simp [Fits]) n fuel []
  exact pair_finish (impl_client n 0) (impl_server _ 0) (h.calls (stuck_rets _ _ _ _))
    (h.run.endsIn (stuck_rets _ _ _ _)) rfl rfl

/-- The example sessions on the toy library, as they are in the package. -/
example (b b' : Bool) : (∃ sc ss, BothFinish toyLib exClock exClock
      (AioNet.pair (Example1A.client (exCfgC b) Example1.request) (Example1A.server (exCfgS b')))
      (.ok (.ok Example1.request, ()), sc) (.ok (.ok (), ()), ss)) ∧
    BothFinish toyLib exClock exClock (AioNet.pair (SimpleEchoA.client [1, 2, 3, 4, 5, 6] 10 ()) (SimpleEchoA.server 11 ()))
      (.ok (List.replicate 10 [1, 2, 3, 4, 5, 6]), ()) (.ok (), ()) :=
  ⟨let ⟨sc, ss, _, h⟩ := C98_example1 (exSetup b b') toy_size Example1.request (by decide); ⟨sc, ss, h⟩,
    C98_simple_echo _ _ _ _ (by simp) (by simp) 10 0⟩

end Salt.Props
