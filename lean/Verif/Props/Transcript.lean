import Verif.Lemmas.Counted
import Verif.Props.Dev2

/-!
# What is written during sessions, and the byte counters of the examples (C111, C112)
-/

set_option linter.unusedSimpArgs false

namespace Salt.Props

open Salt Salt.Spec

variable {α β : Type} {L : Lib} {cc cs : Clock} {cfgC : ClientCfg} {cfgS : ServerCfg} {kc ks : KeyPair}

/-! ### The transcript -/

/-- **C111, the transcript.** What the two sides write during a session is determined by the write calls `ca` and `cb`
that the application programs make: it is M1 and the encrypted M4 and packets of the client's calls, and M2 and the
encrypted M3 and packets of the server's calls, whatever the schedule.  An unfinished session has written prefixes. -/
theorem C111_transcript (S : Setup L cc cs cfgC cfgS kc ks) (pA : IT appSig α) (pB : IT appSig β) {n : Nat}
    (hn : n ≤ 2 ^ 62) (hA : Modest 65535 pA n) (hB : Modest 65535 pB n)
    (hb : cfgC.bufferM4 = true → ∃ ms l k, pA = .op (S := appSig) (.write ms l) k) :
    (∃ ca cb y, AppNet.Logged (AppNet.start pA pB) ca cb y ∧ Net.Stuck y.net) ∧
    ∀ {ca cb y}, AppNet.Logged (AppNet.start pA pB) ca cb y → Net.Stuck y.net →
      ∃ la lb, Transcript L cc cs cfgC cfgS kc ks ca cb (messages la) (messages lb) ∧
        ∀ la' lb' Z, Net.Logged (Net.start (party L cc (clientSession cfgC pA) 0) (party L cs (serverSession cfgS pB) 0))
            la' lb' Z → la' <+: la ∧ lb' <+: lb ∧ (Net.Stuck Z → la' = la ∧ lb' = lb) := by
  constructor
  · obtain ⟨m, y, hy, hst⟩ := Net.exists_final (Net.start pA pB)
    obtain ⟨la, lb, h⟩ := hy.logged
    obtain ⟨ca, cb, z, h1, rfl, -⟩ := AppNet.Logged.of_net (x := AppNet.start pA pB) h rfl (by simp [AppNet.start])
      (by simp [AppNet.start])
    exact ⟨ca, cb, z, h1, hst⟩
  · intro ca cb y hy hst
    obtain ⟨la, lb, Y, h1, h2, -, -, h3, -⟩ := session_log S pA pB hn hA hB hb hy hst
    refine ⟨la, lb, h3, fun la' lb' Z h => ?_⟩
    obtain ⟨ra, rb, rfl, rfl, hz⟩ := h1.prefix h2 h
    refine ⟨⟨ra, rfl⟩, ⟨rb, rfl⟩, fun hs => ?_⟩
    obtain ⟨rfl, rfl, -⟩ := hz.of_stuck hs
    simp

theorem m1_size (t : Nat) (pk : Bytes) : (Spec.m1 t pk none).length = 10 + pk.length := by
  simp only [Spec.m1, le32, List.length_append, List.length_cons, List.length_nil]

theorem m2_size (t : Nat) (pk : Bytes) : (Spec.m2 false false t pk).length = 6 + pk.length := by
  simp only [Spec.m2, le32, List.length_append, List.length_cons, List.length_nil]

theorem m3_size (t : Nat) (pk sg : Bytes) : (Spec.m3 t pk sg).length = 6 + pk.length + sg.length := by
  simp only [Spec.m3, le32, List.length_append, List.length_cons, List.length_nil]

theorem m4_size (t : Nat) (pk sg : Bytes) : (Spec.m4 t pk sg).length = 6 + pk.length + sg.length := by
  simp only [Spec.m4, le32, List.length_append, List.length_cons, List.length_nil]

/-- **C111, sizes.** The transcript determines the numbers of bytes: 162 for the handshake from the client, 158 from the
server, and `wireBytes` for the calls of the programs. -/
theorem C111_bytes (S : Setup L cc cs cfgC cfgS kc ks) {ca cb : List AppCall} {la lb : List Bytes}
    (h : Transcript L cc cs cfgC cfgS kc ks ca cb la lb) :
    size la = 162 + wireBytes ca ∧ size lb = 158 + wireBytes cb := by
  obtain ⟨key, h1, h2, s3, s4, rawA, rawB, hk, e3, e4, rfl, hA, rfl, hB⟩ := h
  obtain ⟨hc, hs⟩ : (s3.take 64).length = 64 ∧ (s4.take 64).length = 64 := by
    obtain ⟨g, g1, g2, -⟩ := S.honest.sigS.works ([0x53, 0x43, 0x2d, 0x53, 0x49, 0x47, 0x30, 0x31] ++ h1 ++ h2)
    obtain ⟨g', g3, g4, -⟩ := S.honest.sigC.works ([0x53, 0x43, 0x2d, 0x53, 0x49, 0x47, 0x30, 0x32] ++ h1 ++ h2)
    rw [e3] at g2
    rw [e4] at g4
    cases g2
    cases g4
    simp only [List.length_take, List.length_append]
    omega
  have zA := sealed_size S.honest.box hk.length hA
  have zB := sealed_size S.honest.box hk.length hB
  have wA := packets_size cc ca
  have wB := packets_size cs cb
  have k1 := S.honest.dh.aPub
  have k2 := S.honest.dh.bPub
  have k3 := S.honest.sigC.pub
  have k4 := S.honest.sigS.pub
  simp only [List.map_cons, size_cons, List.length_cons, m3_size, m4_size] at zA zB
  simp only [size_cons, m1_size, m2_size]
  omega

/-! ### The counters -/

/-- A session with and without the `MitmChannel` of a client that looks at its counters. -/
theorem counters_log (S : Setup L cc cs cfgC cfgS kc ks) (pA : IT appSig α) (pB : IT appSig β) {n : Nat}
    (hn : n ≤ 2 ^ 62) (hA : Modest 65535 pA n) (hB : Modest 65535 pB n)
    (hb : cfgC.bufferM4 = true → ∃ ms l k, pA = .op (S := appSig) (.write ms l) k)
    {ca cb : List AppCall} {a : α} {b : β} {ia ib : Nat}
    (hr : AppNet.Logged (AppNet.start pA pB) ca cb ⟨.ret a, .ret b, [], [], [], [], ia, ib⟩)
    (clk : Nat → Nat) (i : Nat) (s : MitmSt) :
    ∃ rc rs la lb, Agreed L cc cs cfgC cfgS kc ks a b rc rs ∧
      Net.Logged (Net.start (party L cc (clientSession cfgC pA) 0) (party L cs (serverSession cfgS pB) 0)) la lb
        ⟨.ret rc, .ret rs, [], []⟩ ∧
      Net.Logged (Net.start (quiet clk (countedClient L cc cfgC pA s) i) (party L cs (serverSession cfgS pB) 0)) la lb
        ⟨.ret (rc, (s.counterRead + 158, s.counterWrite + if cfgC.bufferM4 then 42 else 162),
          (s.counterRead + 158 + wireBytes cb, s.counterWrite + 162 + wireBytes ca)), .ret rs, [], []⟩ := by
  have hst : Net.Stuck (AppNet.net (⟨.ret a, .ret b, [], [], [], [], ia, ib⟩ : AppNet α β)) := stuck_rets _ _ _ _
  obtain ⟨m, hm⟩ := hr.net.run
  obtain ⟨rc, rs, e1, ag⟩ := session_returns S hn hA hB hb (m := m) (a := a) (b := b) hm
  obtain ⟨la, lb, Y, l1, l2, -, -, tr, r, hr2⟩ := session_log S pA pB hn hA hB hb hr hst
  obtain ⟨zA, zB⟩ := C111_bytes S tr
  have hY : Y = ⟨.ret rc, .ret rs, [], []⟩ := by
    obtain ⟨k, hk⟩ := l1.run
    obtain ⟨-, k', -, h⟩ := e1
    exact (h _ _ hk).2 l2
  subst hY
  have l0 := l1
  obtain ⟨sC, dC, pC⟩ := client_perfN S
  have hm1 : (HS.m1 kc (sessTimes cc cs cfgS.bufferM2)).length = 42 := by
    rw [HS.m1, m1_size, S.honest.dh.aPub]
  have hm2 : (HS.m2 ks (sessTimes cc cs cfgS.bufferM2)).length = 38 := by
    rw [HS.m2, m2_size, S.honest.dh.bPub]
  have hc3 : (Spec.encrypted false (HS.c3 L kc ks cfgS.sigKp (sessTimes cc cs cfgS.bufferM2))).length = 120 := by
    have h := (HS.hc3 (sessTimes cc cs cfgS.bufferM2) S.honest).1
    obtain ⟨c, h1, h2⟩ := S.honest.box.total (HS.m3 L kc ks cfgS.sigKp (sessTimes cc cs cfgS.bufferM2)) (Spec.nonce 2) _
      (nonce_length _) (HS.hk S.honest).1
    rw [h] at h1
    cases h1
    have h64 := (HS.hsm3 (sessTimes cc cs cfgS.bufferM2) S.honest).1
    simp only [Spec.encrypted, List.length_append, List.length_cons, List.length_nil, h2, HS.m3, m3_size, S.honest.sigS.pub,
      List.length_take]
    omega
  have hc4 : (Spec.encrypted false (HS.c4 L kc ks cfgC.sigKp (sessTimes cc cs cfgS.bufferM2))).length = 120 := by
    have h := (HS.hc4 (sessTimes cc cs cfgS.bufferM2) S.honest).1
    obtain ⟨c, h1, h2⟩ := S.honest.box.total (HS.m4 L kc ks cfgC.sigKp (sessTimes cc cs cfgS.bufferM2)) (Spec.nonce 1) _
      (nonce_length _) (HS.hk S.honest).1
    rw [h] at h1
    cases h1
    have h64 := (HS.hsm4 (sessTimes cc cs cfgS.bufferM2) S.honest).1
    simp only [Spec.encrypted, List.length_append, List.length_cons, List.length_nil, h2, HS.m4, m4_size, S.honest.sigC.pub,
      List.length_take]
    omega
  -- the handshake and the rest
  obtain ⟨v, la1, lb1, la2, lb2, z, rfl, rfl, q1, q2, q3⟩ := l1.split (p := partyN L cc (Client.handshake cfgC Client.init) 0)
    (g := fun p => party L cc (clientAfter pA p.1) p.2) (party_bind L cc _ _ 0) rfl
  obtain ⟨za, zb, zab, zba⟩ := z
  simp only at q2 q3
  subst q2
  rw [messages_append] at hr2
  simp only [messages_append, size_append] at zA zB
  have hmv : ∃ out, Moves ([⟨AppOp.write [HS.m1 kc (sessTimes cc cs cfgS.bufferM2)] false, .ok ()⟩,
        ⟨AppOp.read, .ok (HS.m2 ks (sessTimes cc cs cfgS.bufferM2))⟩,
        ⟨AppOp.read, .ok (Spec.encrypted false (HS.c3 L kc ks cfgS.sigKp (sessTimes cc cs cfgS.bufferM2)))⟩] ++
       if cfgC.bufferM4 then [] else
        [⟨AppOp.write [Spec.encrypted false (HS.c4 L kc ks cfgC.sigKp (sessTimes cc cs cfgS.bufferM2))] false, .ok ()⟩])
      [HS.m2 ks (sessTimes cc cs cfgS.bufferM2),
        Spec.encrypted false (HS.c3 L kc ks cfgS.sigKp (sessTimes cc cs cfgS.bufferM2))] out [] ∧
      size out = if cfgC.bufferM4 then 42 else 162 := by
    cases cfgC.bufferM4 with
    | true =>
      refine ⟨_, .write _ _ (.read _ (.read _ (.nil _))), ?_⟩
      simp only [List.append_nil, size_cons, hm1, if_true]
      rfl
    | false =>
      refine ⟨_, .write _ _ (.read _ (.read _ (.write _ _ (.nil _)))), ?_⟩
      simp only [List.append_nil, List.cons_append, List.nil_append, size_cons, hm1, hc4, Bool.false_eq_true, if_false]
      rfl
  obtain ⟨out, hmv, zo⟩ := hmv
  obtain ⟨rfl, ho, hrest⟩ := q1.moves pC hmv (more := messages lb2) (rest := r) (by rw [← hr2]; rfl) rfl
  obtain ⟨s1, j, w1, w2, w3⟩ := q1.mitm clk s i (fun x => (Mitm.run (party L cc (clientAfter pA x.1.1) x.1.2) x.2).bind fun y =>
      .ret (y.1, (x.2.counterRead, x.2.counterWrite), (y.2.counterRead, y.2.counterWrite)))
  obtain ⟨s2, j', v1, v2, v3⟩ := q3.mitm clk s1 j (fun y => .ret (y.1, (s1.counterRead, s1.counterWrite),
    (y.2.counterRead, y.2.counterWrite)))
  have hz := congrArg size hr2
  rw [hrest] at hz
  simp only [size_append, size_cons, hm2, hc3] at hz
  rw [ho, zo] at w2
  rw [ho, zo] at zA
  simp only [Net.start, size, List.map_nil, List.sum_nil] at w3 v3 hz zA zB v2 w2
  have e : s1.counterRead = s.counterRead + 158 ∧ s2.counterRead = s.counterRead + 158 + wireBytes cb ∧
      s2.counterWrite = s.counterWrite + 162 + wireBytes ca := by
    split at w2 <;> rename_i h4 <;> simp only [h4, if_true, if_false, Bool.false_eq_true] at zA <;> omega
  obtain ⟨e1, e2, e3⟩ := e
  refine ⟨rc, rs, _, _, ag, l0, ?_⟩
  rw [← e2, ← e3, ← e1, ← w2]
  exact w1.trans v1

/-- **C112.** The client counts with a `MitmChannel` around its channel.  After the handshake it has read 158
bytes and written 162, but only 42 if M4 is buffered; in the end it has also read and written the bytes of the calls of the
programs, and M4. -/
theorem C112_counters (S : Setup L cc cs cfgC cfgS kc ks) (pA : IT appSig α) (pB : IT appSig β) {n : Nat}
    (hn : n ≤ 2 ^ 62) (hA : Modest 65535 pA n) (hB : Modest 65535 pB n)
    (hb : cfgC.bufferM4 = true → ∃ ms l k, pA = .op (S := appSig) (.write ms l) k)
    {ca cb : List AppCall} {a : α} {b : β} {ia ib : Nat}
    (hr : AppNet.Logged (AppNet.start pA pB) ca cb ⟨.ret a, .ret b, [], [], [], [], ia, ib⟩)
    (clk : Nat → Nat) (i : Nat) (s : MitmSt) :
    ∃ rc rs, Agreed L cc cs cfgC cfgS kc ks a b rc rs ∧
      EndsIn (Net.start (quiet clk (countedClient L cc cfgC pA s) i) (party L cs (serverSession cfgS pB) 0))
        ⟨.ret (rc, (s.counterRead + 158, s.counterWrite + if cfgC.bufferM4 then 42 else 162),
          (s.counterRead + 158 + wireBytes cb, s.counterWrite + 162 + wireBytes ca)), .ret rs, [], []⟩ := by
  obtain ⟨rc, rs, la, lb, ag, -, h⟩ := counters_log S pA pB hn hA hB hb hr clk i s
  obtain ⟨N, hN⟩ := h.run
  exact ⟨rc, rs, ag, hN.endsIn (stuck_rets _ _ _ _)⟩

/-- C112 as intended: the numbers that the examples print as handshake bytes are those of the bytes of M2 and M3 and of M1 and
M4, and the total bytes are those and the ones of the packets of the application. -/
def C112_claim (b4 : Bool) : Prop := ∀ (L : Lib) (cc cs : Clock) (cfgC : ClientCfg) (cfgS : ServerCfg) (kc ks : KeyPair),
  Setup L cc cs cfgC cfgS kc ks → cfgC.bufferM4 = b4 →
  ∀ (pA : IT appSig (Except Err Bytes × Unit)) (pB : IT appSig (Except Err Unit × Unit)) (n : Nat), n ≤ 2 ^ 62 →
  Modest 65535 pA n → Modest 65535 pB n → (b4 = true → ∃ ms l k, pA = .op (S := appSig) (.write ms l) k) →
  ∀ ca cb a b ia ib, AppNet.Logged (AppNet.start pA pB) ca cb ⟨.ret a, .ret b, [], [], [], [], ia, ib⟩ →
  ∀ (clk : Nat → Nat) (i : Nat) (s : MitmSt),
  ∃ rc rs, Agreed L cc cs cfgC cfgS kc ks a b rc rs ∧
    EndsIn (Net.start (quiet clk (countedClient L cc cfgC pA s) i) (party L cs (serverSession cfgS pB) 0))
      ⟨.ret (rc, (s.counterRead + 158, s.counterWrite + 162),
        (s.counterRead + 158 + wireBytes cb, s.counterWrite + 162 + wireBytes ca)), .ret rs, [], []⟩

/-- **C112, without buffering of M4.** Missing: sessions in which M4 is buffered, as in dev/example_session1.py; there the number
of handshake bytes is wrong, see `C112_counters` and `C112_violated`. -/
theorem C112_counters_partial : C112_claim false := by
  intro L cc cs cfgC cfgS kc ks S h4 pA pB n hn hA hB hb ca cb a b ia ib hr clk i s
  have h := C112_counters S pA pB hn hA hB (by rw [h4]; exact hb) hr clk i s
  rw [h4] at h
  exact h

/-! ### The example sessions -/

theorem example1_calls (req : Bytes) : AppNet.Logged (AppNet.start (Example1.client req ()) (Example1.server ()))
    [⟨4, true, [req]⟩] [⟨5, false, [req]⟩] ⟨.ret (.ok req, ()), .ret (.ok (), ()), [], [], [], [], 6, 6⟩ :=
  .aWrite [req] true _ (.bPacket req _ (.bWrite [req] false _ (.aPacket req _ (.refl _))))

theorem example3_calls (r1 r21 r22 : Bytes) (h1 : r21.length ≤ 65535) (h2 : r22.length ≤ 65535) :
    AppNet.Logged (AppNet.start (Example3.client r1 r21 r22 ()) (Example3.server ()))
      [⟨4, false, [r1]⟩, ⟨6, false, [r21, r22]⟩] [⟨5, false, [r1]⟩, ⟨7, true, [r21, r22]⟩]
      ⟨.ret (.ok (), ()), .ret (.ok (), ()), [], [], [], [], 8, 8⟩ := by
  have hg : groups [r21, r22] = [[r21, r22]] := by
    unfold groups
    rw [if_pos ⟨by simp, by simp [h1, h2]⟩]
  refine .aWrite [r1] false _ (.bPacket r1 _ (.bWrite [r1] false _ (.aPacket r1 _ (.aWrite [r21, r22] false _ ?_))))
  rw [hg]
  refine .bPacket r21 _ (.bRead r22 _ (.bWrite [r21, r22] true _ ?_))
  rw [hg]
  refine .aPacket r21 _ (.aRead r22 _ ?_)
  show AppNet.Logged ⟨(if r1 ≠ r1 then Py.raise .assertionError
    else if r21 ≠ r21 then Py.raise .assertionError
    else if r22 ≠ r22 then Py.raise .assertionError
    else pure () : Py appSig Unit Unit) (), _, _, _, _, _, _, _⟩ _ _ _
  rw [if_neg (by simp), if_neg (by simp), if_neg (by simp)]
  exact .refl _

/-- **C112, example session 1.** With the request of the example, the counters of the client are 158 bytes read and 42 written
after the handshake, because M4 is buffered, and 188 and 192 in the end: the program prints 200 "HANDSHAKE BYTES", not 320,
and 380 "TOTAL BYTES". -/
theorem C112_example1 (S : Setup L cc cs cfgC cfgS kc ks) (hb : cfgC.bufferM4 = true) (clk : Nat → Nat) (i : Nat) :
    ∃ rc rs, Agreed L cc cs cfgC cfgS kc ks (.ok Example1.request, ()) (.ok (), ()) rc rs ∧
      EndsIn (Net.start (quiet clk (countedClient L cc cfgC (Example1.client Example1.request ()) { log := true }) i)
          (party L cs (serverSession cfgS (Example1.server ())) 0))
        ⟨.ret (rc, (158, 42), (188, 192)), .ret rs, [], []⟩ := by
  have h := C112_counters S _ _ (n := 1) (by decide) (example1_modest Example1.request).1 (example1_modest Example1.request).2
    (fun _ => ⟨_, _, _, rfl⟩) (example1_calls Example1.request) clk i { log := true }
  rw [hb] at h
  exact h

/-- The same without buffering, as in dev/example_session1_a.py: 320 "HANDSHAKE BYTES" and 380 "TOTAL BYTES". -/
theorem C112_example1_unbuffered (S : Setup L cc cs cfgC cfgS kc ks) (hb : cfgC.bufferM4 = false) (clk : Nat → Nat) (i : Nat) :
    ∃ rc rs, Agreed L cc cs cfgC cfgS kc ks (.ok Example1.request, ()) (.ok (), ()) rc rs ∧
      EndsIn (Net.start (quiet clk (countedClient L cc cfgC (Example1.client Example1.request ()) { log := true }) i)
          (party L cs (serverSession cfgS (Example1.server ())) 0))
        ⟨.ret (rc, (158, 162), (188, 192)), .ret rs, [], []⟩ := by
  have h := C112_counters S _ _ (n := 1) (by decide) (example1_modest Example1.request).1 (example1_modest Example1.request).2
    (fun _ => ⟨_, _, _, rfl⟩) (example1_calls Example1.request) clk i { log := true }
  rw [hb] at h
  exact h

/-- **C112, example session 3.** 320 "HANDSHAKE BYTES" and 458 "TOTAL BYTES". -/
theorem C112_example3 (S : Setup L cc cs cfgC cfgS kc ks) (hb : cfgC.bufferM4 = false) (clk : Nat → Nat) (i : Nat) :
    ∃ rc rs, Agreed L cc cs cfgC cfgS kc ks (.ok (), ()) (.ok (), ()) rc rs ∧
      EndsIn (Net.start (quiet clk (countedClient L cc cfgC (Example3.client Example3.requests.1 Example3.requests.2.1
          Example3.requests.2.2 ()) { log := true }) i)
          (party L cs (serverSession cfgS (Example3.server ())) 0))
        ⟨.ret (rc, (158, 162), (227, 231)), .ret rs, [], []⟩ := by
  have h := C112_counters S _ _ (n := 3) (by decide) (example3_modest Example3.requests.1 Example3.requests.2.1
    Example3.requests.2.2).1 (example3_modest Example3.requests.1 Example3.requests.2.1 Example3.requests.2.2).2
    (fun _ => ⟨_, _, _, rfl⟩) (example3_calls Example3.requests.1 Example3.requests.2.1 Example3.requests.2.2
      (by decide) (by decide)) clk i { log := true }
  rw [hb] at h
  exact h

/-- The handshake bytes that dev/example_session1.py prints are not those of its handshake. -/
theorem C112_violated : ¬ C112_claim true := by
  intro h
  obtain ⟨rc, rs, -, e⟩ := h _ _ _ _ _ _ _ (exSetup true true) rfl _ _ 1 (by decide) (example1_modest Example1.request).1
    (example1_modest Example1.request).2 (fun _ => ⟨_, _, _, rfl⟩) _ _ _ _ _ _ (example1_calls Example1.request) id 0 { log := true }
  obtain ⟨rc', rs', -, e'⟩ := C112_example1 (exSetup true true) rfl id 0
  obtain ⟨h1, n, h2, -⟩ := e
  obtain ⟨-, m, -, h3⟩ := e'
  have := (h3 _ _ h2).2 h1
  simp only [Net.mk.injEq, IT.ret.injEq, Prod.mk.injEq] at this
  omega

/-- **C111, example session 3, times.** Both sides use a `OneTwoThreeTimeKeeper`.  Whatever the schedule, the session writes
exactly these packets: the times are 1 in M1 and M2, 2 in M3 and M4, 3 in the app packets and 4 in the multi app packets, as the
program prints, and the last flag is set only in the last packet, which is one of the server's. -/
theorem C111_example3_times (S : Setup L cc cs cfgC cfgS kc ks) (hb2 : cfgS.bufferM2 = false) (hb4 : cfgC.bufferM4 = false)
    (hc : Counts cc 0 [(0, .first), (3, .now), (4, .now), (6, .now)])
    (hs : Counts cs 0 [(1, .first), (2, .now), (5, .now), (7, .now)]) (r1 r21 r22 : Bytes) (l21 : r21.length ≤ 65535)
    (l22 : r22.length ≤ 65535) :
    ∃ key h1 h2 s3 s4 la lb rawA rawB, KeysOf L cc cs false kc ks key h1 h2 ∧
      L.sign ([0x53, 0x43, 0x2d, 0x53, 0x49, 0x47, 0x30, 0x31] ++ h1 ++ h2) cfgS.sigKp.sec = .ok s3 ∧
      L.sign ([0x53, 0x43, 0x2d, 0x53, 0x49, 0x47, 0x30, 0x32] ++ h1 ++ h2) cfgC.sigKp.sec = .ok s4 ∧
      messages la = Spec.m1 1 kc.pub none :: rawA ∧ messages lb = Spec.m2 false false 1 ks.pub :: rawB ∧
      SealedAll L key 2 [(false, Spec.m3 2 cfgS.sigKp.pub (s3.take 64)), (false, Spec.app 3 r1),
        (true, Spec.multiApp 4 [r21, r22])] rawB ∧
      SealedAll L key 1 [(false, Spec.m4 2 cfgC.sigKp.pub (s4.take 64)), (false, Spec.app 3 r1),
        (false, Spec.multiApp 4 [r21, r22])] rawA ∧
      ∀ la' lb' Z, Net.Logged (Net.start (party L cc (clientSession cfgC (Example3.client r1 r21 r22 ())) 0)
          (party L cs (serverSession cfgS (Example3.server ())) 0)) la' lb' Z →
        la' <+: la ∧ lb' <+: lb ∧ (Net.Stuck Z → la' = la ∧ lb' = lb) := by
  obtain ⟨c0, c3, c4, c6, -⟩ := hc
  obtain ⟨s1, s2, s5, s7, -⟩ := hs
  obtain ⟨la, lb, ⟨key, h1, h2, s3, s4, rawA, rawB, t1, t2, t3, t4, t5, t6, t7⟩, h⟩ :=
    (C111_transcript S _ _ (n := 3) (by decide) (example3_modest r1 r21 r22).1 (example3_modest r1 r21 r22).2
      (fun _ => ⟨_, _, _, rfl⟩)).2 (example3_calls r1 r21 r22 l21 l22) (stuck_rets _ _ _ _)
  have p1 : ∀ t, appPackets t [r1] = [Spec.app t r1] := fun t => rfl
  have p2 : ∀ t, appPackets t [r21, r22] = [Spec.multiApp t [r21, r22]] := fun t => by
    unfold appPackets
    rw [if_pos ⟨by simp, by simp [l21, l22]⟩]
  simp only [hb2, hb4, Bool.false_eq_true, if_false, packetsOf, List.flatMap_cons, List.flatMap_nil, p1, p2, flagged, c0, c3, c4, c6,
    s1, s2, s5, s7, oneTwoThree, List.isEmpty_nil, Bool.and_true, Bool.false_and, List.append_nil, List.cons_append,
    List.nil_append] at t1 t4 t5 t6 t7
  exact ⟨key, h1, h2, s3, s4, la, lb, rawA, rawB, t1, t2, t3, t4, t6, t7, t5, h⟩

/-! ### Examples -/

/-- The hypotheses of the theorems about the examples hold for some sessions, with and without buffering. -/
example (b b' : Bool) : ∃ rc rs, EndsIn (Net.start (quiet id (countedClient toyLib exClock (exCfgC b)
      (Example1.client Example1.request ()) { log := true }) 0)
      (party toyLib exClock (serverSession (exCfgS b') (Example1.server ())) 0))
    ⟨.ret (rc, (158, if b then 42 else 162), (188, 192)), .ret rs, [], []⟩ := by
  cases b
  · obtain ⟨rc, rs, -, h⟩ := C112_example1_unbuffered (exSetup false b') rfl id 0
    exact ⟨rc, rs, h⟩
  · obtain ⟨rc, rs, -, h⟩ := C112_example1 (exSetup true b') rfl id 0
    exact ⟨rc, rs, h⟩

/-- The clocks of the client and of the server in example session 3. -/
def keeperC : Clock := ⟨fun _ => 1, fun i => if i ≤ 3 then 2 else if i ≤ 4 then 3 else 4, fun _ _ => .ok (), fun _ _ => .ok ()⟩
def keeperS : Clock := ⟨fun _ => 1, fun i => if i ≤ 2 then 2 else if i ≤ 5 then 3 else 4, fun _ _ => .ok (), fun _ _ => .ok ()⟩

example : Counts keeperC 0 [(0, .first), (3, .now), (4, .now), (6, .now)] ∧
    Counts keeperS 0 [(1, .first), (2, .now), (5, .now), (7, .now)] ∧
    Setup toyLib keeperC keeperS (exCfgC false) (exCfgS false) exKc exKs :=
  ⟨⟨rfl, rfl, rfl, rfl, trivial⟩, ⟨rfl, rfl, rfl, rfl, trivial⟩, ⟨(exSetup false false).honest, rfl, rfl,
    ⟨fun _ _ => rfl, fun _ _ => rfl, fun _ _ => rfl⟩, ⟨fun _ _ => rfl, fun _ _ => rfl, fun _ _ => rfl⟩⟩⟩

end Salt.Props
