import Verif.Lemmas.BufSession
import Verif.Props.ClientServer
import Verif.Props.Dev2

/-!
# Finite socket buffers

C119: `SocketChannel.write` hands everything to `sendall`, which waits while the buffers of the connection are full, and
nobody reads in the meantime.  Programs that take turns do not notice this, however small the buffers; others can come
to a stop although they would end with unlimited buffers.
-/

set_option linter.unusedSimpArgs false

namespace Salt.Props

open Salt Salt.Spec

variable {α β : Type}

/-- What one would like to have: two programs, each on a `SocketChannel`, writing messages shorter than `2^31` bytes, end
as if they were connected by message links, whatever the schedule, the segmentation and the size of the buffers.  It is
false: `C119_violated`. -/
def C119_claim : Prop := ∀ {α β : Type} (cap : Nat) (pA : IT appSig α) (pB : IT appSig β) (y : Net α β), 0 < cap →
  Net.Calls Fits (Net.start pA pB) → EndsIn (Net.start pA pB) y → y.ab = [] → y.ba = [] →
  EndsLikeB cap y (SockNet.start (onSocket pA) (onSocket pB))

/-- **C119, the part that holds.** Programs that take turns, and read everything written to them, end as if they were
connected by message links, whatever the schedule, the segmentation and the size of the buffers. -/
theorem C119_turns_partial {cap : Nat} (hcap : 0 < cap) (pA : IT appSig α) (pB : IT appSig β) {y : Net α β}
    (hc : Net.Calls Fits (Net.start pA pB)) (hd : Net.HalfDuplex (Net.start pA pB)) (hy : EndsIn (Net.start pA pB) y)
    (h1 : y.ab = []) (h2 : y.ba = []) : EndsLikeB cap y (SockNet.start (onSocket pA) (onSocket pB)) :=
  buf_ends hcap pA pB hc hd hy h1 h2

/-- **C119, what always holds.** Whether the programs take turns or not: a side that has returned has returned what it
returns with message links, and if all stops with neither side in a `sendall`, it stops as with message links. -/
theorem C119_safe_partial {cap : Nat} (pA : IT appSig α) (pB : IT appSig β) {y : Net α β}
    (hc : Net.Calls Fits (Net.start pA pB)) (hy : EndsIn (Net.start pA pB) y) {Y : SockNet α β}
    (hr : SockNet.ReachB cap (SockNet.start (onSocket pA) (onSocket pB)) Y) :
    (∀ r, Y.a = .ret r → y.a = .ret r) ∧ (∀ r, Y.b = .ret r → y.b = .ret r) ∧
    (SockNet.StuckB cap Y → ¬ Sending Y.a → ¬ Sending Y.b → SockEnd y.a Y.a ∧ SockEnd y.b Y.b) :=
  buf_safe pA pB hc hy hr

/-- **C119 for sessions, the part that holds.** A client and a server, each on one end of a connection, with programs
that take turns and read everything: whatever the schedule, the segmentation and the size of the buffers, each side
returns what its program returns when the two programs are directly connected, or waits if it waits there. -/
theorem C119_sessions_partial {L : Lib} {cc cs : Clock} {cfgC : ClientCfg} {cfgS : ServerCfg} {kc ks : KeyPair}
    (S : Setup L cc cs cfgC cfgS kc ks) (hL : BoxSize L) (pA : IT appSig α) (pB : IT appSig β) {n : Nat}
    (hn : n ≤ 2 ^ 62) (hA : Modest 65535 pA n) (hB : Modest 65535 pB n) (hc : Net.Calls CallFits (Net.start pA pB))
    (hb4 : cfgC.bufferM4 = true → ∃ ms l k, pA = .op (S := appSig) (.write ms l) k)
    (hd : Net.HalfDuplex (Net.start pA pB)) {y : Net α β} (hy : EndsIn (Net.start pA pB) y) (h1 : y.ab = []) (h2 : y.ba = [])
    {cap : Nat} (hcap : 0 < cap) :
    ∃ key ha hb, KeysOf L cc cs cfgS.bufferM2 kc ks key ha hb ∧
      ∃ Z, SameEnd (ClientEnd key ha hb cfgS.sigKp.pub) y.a Z.a ∧ SameEnd (ServerEnd key ha hb cfgC.sigKp.pub) y.b Z.b ∧
        EndsLikeB cap Z (SockNet.start (onSocket (party L cc (clientSession cfgC pA) 0))
          (onSocket (party L cs (serverSession cfgS pB) 0))) := by
  obtain ⟨key, ha, hb, hk, ⟨y', Y, e1, e2, e3, e4, e5, e6⟩, e7⟩ := session_short hL S pA pB hn hA hB hb4 hc
  obtain ⟨s, m, hm, -⟩ := hy
  obtain rfl : y = y' := by
    obtain ⟨-, _, -, h⟩ := e1
    exact (h _ _ hm).2 s
  exact ⟨key, ha, hb, hk, Y, e3, e4, buf_ends hcap _ _ e7
    (session_eager S pA pB hn hA hB hb4 hd (hm.endsIn s) h1 h2) e2 (e5 h1) (e6 h2)⟩

/-- Both sides return in the end, with results satisfying `Q`, whatever the schedule and the segmentation. -/
def BothReturnB (cap : Nat) (X : SockNet α β) (Q : α → β → Prop) : Prop :=
  SockNet.TerminatesB cap X ∧ (∃ Y, SockNet.ReachB cap X Y ∧ SockNet.StuckB cap Y) ∧
  ∀ Y, SockNet.ReachB cap X Y → SockNet.StuckB cap Y → ∃ a b, Y.a = .ret a ∧ Y.b = .ret b ∧ Q a b

theorem session_buffers {L : Lib} {cc cs : Clock} {cfgC : ClientCfg} {cfgS : ServerCfg} {kc ks : KeyPair}
    (S : Setup L cc cs cfgC cfgS kc ks) (hL : BoxSize L) {pA : IT appSig α} {pB : IT appSig β} {n : Nat}
    (hn : n ≤ 2 ^ 62) (hA : Modest 65535 pA n) (hB : Modest 65535 pB n) {m : Nat} {a : α} {b : β}
    (hb4 : cfgC.bufferM4 = true → ∃ ms l k, pA = .op (S := appSig) (.write ms l) k)
    (hc : Net.RunC CallFits m (Net.start pA pB) ⟨.ret a, .ret b, [], []⟩)
    (hd : Net.RunE (Net.start pA pB) ⟨.ret a, .ret b, [], []⟩) {cap : Nat} (hcap : 0 < cap) :
    BothReturnB cap (SockNet.start (onSocket (party L cc (clientSession cfgC pA) 0))
      (onSocket (party L cs (serverSession cfgS pB) 0))) fun rc rs => Agreed L cc cs cfgC cfgS kc ks a b rc rs := by
  obtain ⟨key, ha, hb, hk, Z, e1, e2, t1, t2, t3⟩ := C119_sessions_partial S hL pA pB hn hA hB (hc.calls (stuck_rets _ _ _ _)) hb4
    (hd.halfDuplex (stuck_rets _ _ _ _)) (hc.run.endsIn (stuck_rets _ _ _ _)) rfl rfl hcap
  refine ⟨t1, t2, fun Y hY hs => ?_⟩
  obtain ⟨h1, h2⟩ := t3 Y hY hs
  generalize Z.a = A at e1 h1
  generalize Z.b = B at e2 h2
  cases e1 with
  | ret q1 =>
    cases e2 with
    | ret q2 =>
      generalize hA' : Y.a = A' at h1
      generalize hB' : Y.b = B' at h2
      cases h1
      cases h2
      exact ⟨_, _, rfl, rfl, key, ha, hb, hk, q1, q2⟩

theorem example1_runE (request : Bytes) :
    Net.RunE (Net.start (Example1.client request ()) (Example1.server ())) ⟨.ret (.ok request, ()), .ret (.ok (), ()), [], []⟩ :=
  .step (.aWrite [request] true _ (not_writing_read _)) (.step (.bRead request _)
    (.step (.bWrite [request] false _ (not_writing_read _)) (.step (.aRead request _) (.refl _))))

theorem example3_runE (r1 r21 r22 : Bytes) :
    Net.RunE (Net.start (Example3.client r1 r21 r22 ()) (Example3.server ())) ⟨.ret (.ok (), ()), .ret (.ok (), ()), [], []⟩ := by
  refine .step (.aWrite [r1] false _ (not_writing_read _)) (.step (.bRead r1 _)
    (.step (.bWrite [r1] false _ (not_writing_read _)) (.step (.aRead r1 _)
    (.step (.aWrite [r21, r22] false _ (not_writing_read _)) (.step (.bRead r21 _) (.step (.bRead r22 _)
    (.step (.bWrite [r21, r22] true _ (not_writing_read _)) (.step (.aRead r21 _) (.step (.aRead r22 _) ?_)))))))))
  show Net.RunE ⟨(if r1 ≠ r1 then Py.raise .assertionError
    else if r21 ≠ r21 then Py.raise .assertionError
    else if r22 ≠ r22 then Py.raise .assertionError
    else pure () : Py appSig Unit Unit) (), _, _, _⟩ _
  rw [if_neg (by simp), if_neg (by simp), if_neg (by simp)]
  exact .refl _

/-- **C119, example session 1.** However small the buffers, the client gets its request back. -/
theorem C119_example1 {L : Lib} {cc cs : Clock} {cfgC : ClientCfg} {cfgS : ServerCfg} {kc ks : KeyPair}
    (S : Setup L cc cs cfgC cfgS kc ks) (hL : BoxSize L) (request : Bytes) (hr : CallFits [request]) {cap : Nat} (hcap : 0 < cap) :
    BothReturnB cap (SockNet.start (onSocket (party L cc (clientSession cfgC (Example1.client request ())) 0))
      (onSocket (party L cs (serverSession cfgS (Example1.server ())) 0)))
      fun rc rs => Agreed L cc cs cfgC cfgS kc ks (.ok request, ()) (.ok (), ()) rc rs := by
  exact session_buffers S hL (n := 1) (by decide) (example1_modest request).1 (example1_modest request).2
    (fun _ => ⟨_, _, _, rfl⟩) (example1_run request hr) (example1_runE request) hcap

/-- **C119, example session 3.** However small the buffers, both sides end normally. -/
theorem C119_example3 {L : Lib} {cc cs : Clock} {cfgC : ClientCfg} {cfgS : ServerCfg} {kc ks : KeyPair}
    (S : Setup L cc cs cfgC cfgS kc ks) (hL : BoxSize L) (r1 r21 r22 : Bytes) (h1 : CallFits [r1]) (h2 : CallFits [r21, r22])
    {cap : Nat} (hcap : 0 < cap) :
    BothReturnB cap (SockNet.start (onSocket (party L cc (clientSession cfgC (Example3.client r1 r21 r22 ())) 0))
      (onSocket (party L cs (serverSession cfgS (Example3.server ())) 0)))
      fun rc rs => Agreed L cc cs cfgC cfgS kc ks (.ok (), ()) (.ok (), ()) rc rs := by
  exact session_buffers S hL (n := 3) (by decide) (example3_modest r1 r21 r22).1 (example3_modest r1 r21 r22).2
    (fun _ => ⟨_, _, _, rfl⟩) (example3_run r1 r21 r22 h1 h2) (example3_runE r1 r21 r22) hcap

theorem echo_runE {a a' : IT appSig α} {b b' : IT appSig β} (data : Bytes) (n : Nat)
    (ha : Perf a (echoCalls data n) a') (hb : Perf b (echoAnswers data n) b') :
    Net.RunE ⟨a, b, [], []⟩ ⟨a', b', [], []⟩ := by
  induction n generalizing a b with
  | zero => cases ha; cases hb; exact .refl _
  | succ n ih =>
    cases ha with
    | cons e k r ha =>
      generalize hx : k (.ok ()) = x at ha
      cases ha with
      | cons e' k' r' ha =>
        cases hb with
        | cons e'' k'' r'' hb =>
          generalize hy : k'' (.ok data) = y at hb
          cases hb with
          | cons e3 k3 r3 hb =>
            refine .step (.aWrite [data] false _ (not_writing_read _)) ?_
            rw [hx]
            refine .step (.bRead data _) ?_
            rw [hy]
            exact .step (.bWrite [data] false _ (not_writing_read _)) (.step (.aRead data _) (ih ha hb))

theorem ask_runE {a a' : IT appSig α} {b b' : IT appSig β} {m m' : Bytes} {l l' : Bool}
    (ha : Perf a [⟨AppOp.write [m] l, .ok ()⟩, ⟨AppOp.read, .ok m'⟩] a')
    (hb : Perf b [⟨AppOp.read, .ok m⟩, ⟨AppOp.write [m'] l', .ok ()⟩] b') :
    Net.RunE ⟨a, b, [], []⟩ ⟨a', b', [], []⟩ := by
  cases ha with
  | cons e k r ha =>
    generalize hx : k (.ok ()) = x at ha
    cases ha with
    | cons e' k' r' ha =>
      cases hb with
      | cons e'' k'' r'' hb =>
        generalize hy : k'' (.ok m) = y at hb
        cases hb with
        | cons e3 k3 r3 hb =>
          refine .step (.aWrite [m] _ _ (not_writing_read _)) ?_
          rw [hx]
          refine .step (.bRead m _) ?_
          rw [hy]
          refine .step (.bWrite [m'] _ _ (not_writing_read _)) (.step (.aRead m' _) ?_)
          generalize hx' : k' (.ok m') = x at ha ⊢
          generalize hy' : k3 (.ok ()) = y at hb ⊢
          cases ha
          cases hb
          exact .refl _

/-- **C119, asking for the protocols.** However small the buffers, an A1 client and a server come to an end, and the
client holds the A2 of the server. -/
theorem C119_a1 (uw : Nat → Bool) (L : Lib) (cs : Clock) {cfg : ServerCfg} {kp : KeyPair}
    (hkp : cfg.encKp = some kp) {s : A1ClientSt} {addr : Option Bytes} (ha : IsA1 s.a1.toBytes addr)
    {nss : Bool} {prots : List (Bytes × Bytes)} (h2 : a1Answer cfg = a2 nss true prots)
    (hn : prots.length ≤ 127) (hnss : nss = true → prots = [])
    (hp : ∀ q ∈ prots, q.1.length = 10 ∧ q.2.length = 10 ∧ (∀ b ∈ q.1, NameByte b) ∧ ∀ b ∈ q.2, NameByte b)
    {cap : Nat} (hcap : 0 < cap) :
    BothReturnB cap (SockNet.start (onSocket (A1Client.doA1A2 uw s)) (onSocket (party L cs (Server.handshake cfg Server.init) 0)))
      fun rc rs => rs = (.ok (), { Server.init with isDone := true }) ∧ ∃ p, rc = (.ok (), { s with a2 := some p }) ∧
        A2.noSuchServer p = nss.toNat ∧ A2.count p = prots.length ∧
        A2.entries prots.length p.optBytes = prots.map (fun q => q.1 ++ q.2) := by
  obtain ⟨p, hc, hpf, -, -, -⟩ := a1_perf uw L cs hkp ha h2 hn hnss hp
  obtain ⟨p', m, h, h'⟩ := a1_run uw L cs hkp ha h2 hn hnss hp
  obtain ⟨t1, t2, t3⟩ := buf_ends hcap _ _ (h.calls (stuck_rets _ _ _ _)) ((ask_runE hc hpf).halfDuplex (stuck_rets _ _ _ _))
    (h.run.endsIn (stuck_rets _ _ _ _)) rfl rfl
  refine ⟨t1, t2, fun Y hY hs => ?_⟩
  obtain ⟨e1, e2⟩ := t3 Y hY hs
  generalize hA' : Y.a = A' at e1
  generalize hB' : Y.b = B' at e2
  cases e1
  cases e2
  exact ⟨_, _, rfl, rfl, rfl, p', rfl, h'⟩

/-- **C119, the simple echo session.** However small the buffers, the client gets its data back in every round. -/
theorem C119_simple_echo (n fuel : Nat) (d : Bytes) (hd : d ≠ [] ∧ d.length < 2 ^ 31) {cap : Nat} (hcap : 0 < cap) :
    ∃ k, EndsLikeB cap (⟨.ret (.ok (List.replicate n d), ()), .op (S := appSig) .read k, [], []⟩ : Net _ _)
      (SockNet.start (onSocket (SimpleEcho.client d n ())) (onSocket (SimpleEcho.server (n + fuel + 1) ()))) := by
  obtain ⟨k, hk⟩ := echo_server d hd.1 n fuel
  have hr := echo_runC (P := Fits) d (by simpa [Fits] using hd.2) n (echo_client d n) hk
  have hE := echo_runE d n (echo_client d n) hk
  have hst : Net.Stuck (⟨.ret (.ok (List.replicate n d), ()), .op (S := appSig) .read k, [], []⟩ :
      Net (Except Err (List Bytes) × Unit) (Except Err Unit × Unit)) :=
    (Net.stuck_iff _).2 ⟨.inl ⟨_, rfl⟩, .inr ⟨⟨k, rfl⟩, rfl⟩⟩
  exact ⟨k, buf_ends hcap _ _ (hr.calls hst) (hE.halfDuplex hst) (hr.run.endsIn hst) rfl rfl⟩

/-! ### Where it fails -/

/-- Write, then read. -/
def exWriteRead (m : Bytes) : IT appSig (Except Err Bytes) :=
  .op (S := appSig) (.write [m] false) fun _ => .op (S := appSig) .read fun r => .ret r

theorem exWriteRead_run (m m' : Bytes) {P : List Bytes → Prop} (h : P [m]) (h' : P [m']) :
    Net.RunC P 4 (Net.start (exWriteRead m) (exWriteRead m')) ⟨.ret (.ok m'), .ret (.ok m), [], []⟩ :=
  .step (.aWrite [m] false _ h) (.step (.bWrite [m'] false _ h') (.step (.aRead m' _) (.step (.bRead m _) (.refl _))))

/-- **C119, both write first.** Both sides write a message and then read: with message links both get the message of the
other one, but if the messages are at least as long as the buffers the two block each other in `sendall`, whatever the
schedule. -/
theorem C119_both_write {cap : Nat} (hcap : 0 < cap) (m m' : Bytes) (h : cap ≤ m.length) (h' : cap ≤ m'.length)
    (hm : m.length < 2 ^ 31) (hm' : m'.length < 2 ^ 31) :
    EndsIn (Net.start (exWriteRead m) (exWriteRead m')) ⟨.ret (.ok m'), .ret (.ok m), [], []⟩ ∧
    (∃ Y, SockNet.ReachB cap (SockNet.start (onSocket (exWriteRead m)) (onSocket (exWriteRead m'))) Y ∧
      SockNet.StuckB cap Y) ∧
    ∀ Y, SockNet.ReachB cap (SockNet.start (onSocket (exWriteRead m)) (onSocket (exWriteRead m'))) Y →
      Sending Y.a ∧ Sending Y.b := by
  have hr := exWriteRead_run m m' (P := Fits) (by simpa [Fits] using hm) (by simpa [Fits] using hm')
  have hl := frames_long (p := m)
  have hl' := frames_long (p := m')
  obtain ⟨Z, z1, z2, -⟩ := both_write hcap (.refl (Net.start (exWriteRead m) (exWriteRead m')))
    (hr.calls (stuck_rets _ _ _ _)) (by omega) (by omega)
  refine ⟨hr.run.endsIn (stuck_rets _ _ _ _), ⟨Z, z1, z2⟩, fun Y hY => ?_⟩
  obtain ⟨k, e1, -⟩ := onSocket_write [m] false (fun _ => (.op (S := appSig) .read fun r => .ret r : IT appSig (Except Err Bytes)))
    (by simpa [Fits] using hm)
  obtain ⟨k', e1', -⟩ := onSocket_write [m'] false (fun _ => (.op (S := appSig) .read fun r => .ret r : IT appSig (Except Err Bytes)))
    (by simpa [Fits] using hm')
  unfold exWriteRead at hY
  rw [e1, e1'] at hY
  suffices h : ∃ d d', Y.a = .op (S := sock) (.sendall d) k ∧ Y.b = .op (S := sock) (.sendall d') k' ∧
      Y.ab.length + d.length = (frames [m]).length ∧ Y.ab.length ≤ cap ∧
      Y.ba.length + d'.length = (frames [m']).length ∧ Y.ba.length ≤ cap by
    obtain ⟨d, d', h1, h2, -⟩ := h
    exact ⟨⟨d, k, h1⟩, d', k', h2⟩
  induction hY with
  | refl => exact ⟨_, _, rfl, rfl, by simp [SockNet.start], by simp [SockNet.start], by simp [SockNet.start], by simp [SockNet.start]⟩
  | step _ hs ih =>
    obtain ⟨d, d', h1, h2, h3, h4, h5, h6⟩ := ih
    cases hs with
    | aPut c d'' kk hne hc =>
      injection h1 with h1 hk
      injection h1 with h1
      subst hk h1
      exact ⟨d'', d', rfl, h2, by simp at h3 ⊢; omega, by simpa using hc, h5, h6⟩
    | aDone kk =>
      injection h1 with h1 hk
      injection h1 with h1
      subst h1
      simp at h3 h4
      omega
    | aRecv n c kk _ _ => cases h1
    | bPut c d'' kk hne hc =>
      injection h2 with h2 hk
      injection h2 with h2
      subst hk h2
      exact ⟨d, d'', h1, rfl, h3, h4, by simp at h5 ⊢; omega, by simpa using hc⟩
    | bDone kk =>
      injection h2 with h2 hk
      injection h2 with h2
      subst h2
      simp at h5 h6
      omega
    | bRecv n c kk _ _ => cases h2

theorem SockEnd.not_sending {p : IT appSig α} {q : IT sock α} (h : SockEnd p q) : ¬ Sending q := by
  rintro ⟨d, k, e⟩
  cases h <;> cases e

/-- The claim at the beginning is false. -/
theorem C119_violated : ¬ C119_claim := by
  intro hc
  obtain ⟨h1, ⟨Y, h2, h3⟩, h4⟩ := C119_both_write (cap := 1) (by decide) [1] [2] (by decide) (by decide) (by decide) (by decide)
  have hr := exWriteRead_run [1] [2] (P := Fits) (by simp [Fits]) (by simp [Fits])
  obtain ⟨-, -, h⟩ := hc 1 (exWriteRead [1]) (exWriteRead [2]) _ (by decide) (hr.calls (stuck_rets _ _ _ _)) h1 rfl rfl
  exact SockEnd.not_sending (h Y h2 h3).1 (h4 Y h2).1

/-- **C119, both write first, in a session.** The same after the handshake: if both programs begin by writing a message at
least as long as the buffers, client and server can block each other for ever. -/
theorem C119_session_violated {L : Lib} {cc cs : Clock} {cfgC : ClientCfg} {cfgS : ServerCfg} {kc ks : KeyPair}
    (S : Setup L cc cs cfgC cfgS kc ks) (hL : BoxSize L) (hb : cfgC.bufferM4 = false) {cap : Nat} (hcap : 0 < cap)
    (m m' : Bytes) (h : cap ≤ m.length) (h' : cap ≤ m'.length) (hm : CallFits [m]) (hm' : CallFits [m']) :
    (∃ rc rs, EndsIn (Net.start (party L cc (clientSession cfgC (exWriteRead m)) 0)
        (party L cs (serverSession cfgS (exWriteRead m')) 0)) ⟨.ret rc, .ret rs, [], []⟩ ∧
      Agreed L cc cs cfgC cfgS kc ks (.ok m') (.ok m) rc rs) ∧
    ∃ Y, SockNet.ReachB cap (SockNet.start (onSocket (party L cc (clientSession cfgC (exWriteRead m)) 0))
        (onSocket (party L cs (serverSession cfgS (exWriteRead m')) 0))) Y ∧
      SockNet.StuckB cap Y ∧ Sending Y.a ∧ Sending Y.b := by
  have hM : ∀ m, Modest 65535 (exWriteRead m) 1 := fun m => ⟨by simp, by simp, by simp, fun _ _ => trivial⟩
  have hr := exWriteRead_run m m' (P := CallFits) hm hm'
  exact ⟨session_returns S (n := 1) (by decide) (hM m) (hM m') (by simp [hb]) hr.run,
    session_deadlock hL S hb (n := 1) (by decide) (hM m) (hM m') (hr.calls (stuck_rets _ _ _ _)) hcap h h'⟩

/-- **C119, nobody reads.** Writing to a side that returns without reading: with message links the writer returns, but
with a message at least as long as the buffers it stays in `sendall`. -/
theorem C119_unread {cap : Nat} (m : Bytes) (h : cap ≤ m.length) (hm : m.length < 2 ^ 31) :
    EndsIn (Net.start (.op (S := appSig) (.write [m] false) fun r => .ret r) (.ret ())) ⟨.ret (.ok ()), .ret (), [m], []⟩ ∧
    ∀ Y, SockNet.ReachB cap (SockNet.start (onSocket (.op (S := appSig) (.write [m] false) fun r => .ret r))
      (onSocket (.ret ()))) Y → Sending Y.a := by
  have hr : Net.RunC Fits 1 (Net.start (.op (S := appSig) (.write [m] false) fun r => .ret r) (.ret ()))
      ⟨.ret (.ok ()), .ret (), [m], []⟩ := .step (.aWrite [m] false _ (by simpa [Fits] using hm)) (.refl _)
  refine ⟨hr.run.endsIn (stuck_rets _ _ _ _), ?_⟩
  obtain ⟨k, e1, -⟩ := onSocket_write [m] false (fun r => (.ret r : IT appSig (Except Err Unit))) (by simpa [Fits] using hm)
  rw [e1]
  have hl := frames_long (p := m)
  intro Y hY
  suffices h : ∃ d, Y.a = .op (S := sock) (.sendall d) k ∧ Y.b = .ret () ∧ Y.ab.length + d.length = (frames [m]).length ∧
      Y.ab.length ≤ cap by
    obtain ⟨d, h, -⟩ := h
    exact ⟨d, k, h⟩
  induction hY with
  | refl => exact ⟨_, rfl, rfl, by simp [SockNet.start], by simp [SockNet.start]⟩
  | step _ hs ih =>
    obtain ⟨d, h1, h2, h3, h4⟩ := ih
    cases hs with
    | aPut c d' k' hne hc =>
      injection h1 with h1 hk
      injection h1 with h1
      subst hk h1
      exact ⟨d', rfl, h2, by simp at h3 ⊢; omega, by simpa using hc⟩
    | aDone k' =>
      injection h1 with h1 hk
      injection h1 with h1
      subst h1
      simp at h3 h4
      omega
    | aRecv n c k' _ _ => cases h1
    | bPut c d' k' _ _ => cases h2
    | bDone k' => cases h2
    | bRecv n c k' _ _ => cases h2

/-! ### Examples -/

/-- Programs that take turns, reading twice and answering twice. -/
theorem ex_turns : Net.HalfDuplex (Net.start exAsk exEcho) :=
  Net.RunE.halfDuplex (y := ⟨.ret [.ok [2, 3], .ok [1]], .ret (), [], []⟩)
    (.step (.aWrite _ _ _ (not_writing_read _)) <| .step (.bRead _ _) <| .step (.bRead _ _) <|
      .step (.bWrite _ _ _ (not_writing_read _)) <| .step (.aRead _ _) <| .step (.bWrite _ _ _ (not_writing_read _)) <|
      .step (.aRead _ _) <| .refl _) (stuck_rets _ _ _ _)

/-- The whole stack on the toy library with buffers of one byte. -/
example (b b' : Bool) : ∃ s s', ∀ Y, SockNet.ReachB 1 (SockNet.start
      (onSocket (party toyLib exClock (clientSession (exCfgC b) exAsk) 0))
      (onSocket (party toyLib exClock (serverSession (exCfgS b') exEcho) 0))) Y → SockNet.StuckB 1 Y →
    Y.a = .ret (.ok [.ok [2, 3], .ok [1]], s) ∧ Y.b = .ret (.ok (), s') := by
  obtain ⟨key, h1, h2, -, Z, e1, e2, -, -, e3⟩ := C119_sessions_partial (exSetup b b') toy_size
    exAsk exEcho (n := 2) (by decide) ex_modest.1
    (fun _ _ => ⟨by simp, by simp, by simp, fun _ => ⟨by simp, by simp, by simp, fun _ => trivial⟩⟩)
    (Net.calls_within ⟨by simp, fun _ _ _ => trivial⟩
      (fun _ _ => ⟨by simp; omega, fun _ => ⟨by simp; omega, fun _ => trivial⟩⟩)) (fun _ => ⟨_, _, _, rfl⟩)
    ex_turns (ex_echo.endsIn (stuck_rets _ _ _ _)) rfl rfl (cap := 1) (by decide)
  generalize Z.a = A at e1 e3
  generalize Z.b = B at e2 e3
  cases e1 with
  | @ret _ p hq =>
    cases e2 with
    | @ret _ p' hq' =>
      obtain ⟨r, s⟩ := p
      obtain ⟨r', s'⟩ := p'
      obtain ⟨rfl, -⟩ := hq
      obtain ⟨rfl, -⟩ := hq'
      refine ⟨s, s', fun Y hr hs => ?_⟩
      obtain ⟨h3, h4⟩ := e3 Y hr hs
      generalize Y.a = A at h3
      generalize Y.b = B at h4
      cases h3
      cases h4
      exact ⟨rfl, rfl⟩

/-- The hypotheses of `C119_session_violated` are met on the toy library, for instance with 64 KiB of buffers. -/
example (b' : Bool) : ∃ Y, SockNet.ReachB 65536 (SockNet.start
      (onSocket (party toyLib exClock (clientSession (exCfgC false) (exWriteRead (zeros 65536))) 0))
      (onSocket (party toyLib exClock (serverSession (exCfgS b') (exWriteRead (zeros 65536))) 0))) Y ∧
    SockNet.StuckB 65536 Y ∧ Sending Y.a ∧ Sending Y.b := by
  have hl : (zeros 65536).length = 65536 := List.length_replicate
  generalize zeros 65536 = m at hl
  exact (C119_session_violated (exSetup false b') toy_size rfl (by decide) m m (by omega) (by omega)
    (by simp [CallFits]; omega) (by simp [CallFits]; omega)).2

/-- Example session 1 on the toy library, with buffers of one byte. -/
example (b b' : Bool) := C119_example1 (exSetup b b') toy_size [1, 2, 3] (by simp [CallFits]) (cap := 1) (by decide)

/-- Ten rounds of the simple echo session with buffers of five bytes, less than a frame. -/
example := C119_simple_echo 10 0 [1, 2, 3, 4, 5, 6] (by decide) (cap := 5) (by decide)

/-- `C119_safe_partial` on programs that do not take turns. -/
example (Y : SockNet (Except Err Bytes) (Except Err Bytes))
    (hr : SockNet.ReachB 7 (SockNet.start (onSocket (exWriteRead [1])) (onSocket (exWriteRead [2]))) Y) (r : Except Err Bytes)
    (h : Y.a = .ret r) : r = .ok [2] := by
  have h1 := exWriteRead_run [1] [2] (P := Fits) (by simp [Fits]) (by simp [Fits])
  have := (C119_safe_partial _ _ (h1.calls (stuck_rets _ _ _ _)) (h1.run.endsIn (stuck_rets _ _ _ _)) hr).1 r h
  injection this with this
  exact this.symm

end Salt.Props
