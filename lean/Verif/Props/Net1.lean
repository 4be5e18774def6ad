import Verif.Lemmas.NetSession
import Verif.Props.Session5

/-!
# Two parties over reliable links

C21 (a pair of encrypted channels is a pair of message queues), C27 (the same for application channels),
C33 (honest handshakes complete and agree), C47 (whole sessions), C60 (buffering M4).

The parties run arbitrary programs, that is, any sequence of `read` and `write` calls in which each call may
depend on the results of the earlier ones; the schedule is arbitrary.  The network that serves as the
specification has the same two programs directly connected by first-in first-out links.
-/

set_option linter.unusedSimpArgs false

namespace Salt.Props

open Salt Salt.Spec

variable {α β : Type}

/-- The result of a program on a channel object is that of the program on the ideal network. -/
def SameResult {σ : Type} (a : α) (p : α × σ) : Prop := p.1 = a

/-- **C21.** Two encrypted channels with the same key, one in each role: whatever programs use them (writing at
most `2^62` messages each) and whatever the schedule, all ends as if the programs were directly connected. -/
theorem C21_enc_fifo {L : Lib} (hb : BoxLaw L) (ca cb : Clock) {key : Bytes} {sA sB : EncSt}
    (hA : Enc.init key .client = .ok sA) (hB : Enc.init key .server = .ok sB) (pA : IT appSig α) (pB : IT appSig β)
    {n : Nat} (hn : n ≤ 2 ^ 62) (hmA : Modest n pA n) (hmB : Modest n pB n) :
    SameOutcome SameResult SameResult (Net.start pA pB)
      (Net.start (party L ca (runOn encOps pA sA) 0) (party L cb (runOn encOps pB sB) 0)) := by
  unfold Enc.init at hA hB
  split at hA
  · cases hA
  rename_i hk
  rw [if_neg hk] at hB
  have hk : key.length = 32 := by simpa [boxSecretKeyBytes] using hk
  cases hA
  cases hB
  obtain ⟨ny, y, hy, hst⟩ := Net.exists_final (Net.start pA pB)
  have sim : Sim L encOps (EncDir L) n ca cb (fun x => .ret x) (fun x => .ret x) (Net.start pA pB)
      (Net.start (party L ca (runOn encOps pA ⟨key, zeros 8, 2, 1, [], false⟩) 0)
        (party L cb (runOn encOps pB ⟨key, zeros 8, 1, 2, [], false⟩) 0)) := by
    refine ⟨⟨key, zeros 8, 2, 1, [], false⟩, ⟨key, zeros 8, 1, 2, [], false⟩, 0, 0, n, n, ?_, ?_, ?_, ?_, hmA, hmB⟩
    · rw [IT.bind_ret]; rfl
    · rw [IT.bind_ret]; rfl
    · exact ⟨rfl, rfl, rfl, rfl, hk, .nil _, by simp only; omega⟩
    · exact ⟨rfl, rfl, rfl, rfl, hk, .nil _, by simp only; omega⟩
  obtain ⟨M, Y, r1, r2, r3, r4⟩ := sim.final (enc_chan hb n) hy hst (Qa := SameResult) (Qb := SameResult)
    (fun a c => ⟨_, rfl, rfl⟩) (fun a c => ⟨_, rfl, rfl⟩)
  exact ⟨y, Y, hy.endsIn hst, r1.endsIn r2, r3, r4⟩

/-- **C27.** The same for a pair of application channels, which moreover transmit times (accepted by the other
side) and pack the messages of a call (at most 65535) into one packet when possible. -/
theorem C27_app_network {L : Lib} (hb : BoxLaw L) {ca cb : Clock} (hca : Spec.Accepts ca cb) (hcb : Spec.Accepts cb ca)
    {key : Bytes} {sA sB : EncSt}
    (hA : Enc.init key .client = .ok sA) (hB : Enc.init key .server = .ok sB) (pA : IT appSig α) (pB : IT appSig β)
    {n : Nat} (hn : n ≤ 2 ^ 62) (hmA : Modest 65535 pA n) (hmB : Modest 65535 pB n) :
    SameOutcome SameResult SameResult (Net.start pA pB)
      (Net.start (party L ca (runOn appOps pA (App.init sA)) 0) (party L cb (runOn appOps pB (App.init sB)) 0)) := by
  unfold Enc.init at hA hB
  split at hA
  · cases hA
  rename_i hk
  rw [if_neg hk] at hB
  have hk : key.length = 32 := by simpa [boxSecretKeyBytes] using hk
  cases hA
  cases hB
  have he : appOps = App.handle := by funext e; cases e <;> rfl
  rw [he]
  obtain ⟨ny, y, hy, hst⟩ := Net.exists_final (Net.start pA pB)
  have sim : Sim L App.handle (AppDir L) 65535 ca cb (fun x => .ret x) (fun x => .ret x) (Net.start pA pB)
      (Net.start (party L ca (runOn App.handle pA (App.init ⟨key, zeros 8, 2, 1, [], false⟩)) 0)
        (party L cb (runOn App.handle pB (App.init ⟨key, zeros 8, 1, 2, [], false⟩)) 0)) := by
    refine ⟨App.init ⟨key, zeros 8, 2, 1, [], false⟩, App.init ⟨key, zeros 8, 1, 2, [], false⟩, 0, 0, n, n, ?_, ?_, ?_, ?_, hmA, hmB⟩
    · rw [IT.bind_ret]; rfl
    · rw [IT.bind_ret]; rfl
    · exact ⟨rfl, rfl, rfl, rfl, hk, rfl, ⟨[], [], .nil _, .nil, rfl⟩, by simp only [App.init]; omega, hcb⟩
    · exact ⟨rfl, rfl, rfl, rfl, hk, rfl, ⟨[], [], .nil _, .nil, rfl⟩, by simp only [App.init]; omega, hca⟩
  obtain ⟨M, Y, r1, r2, r3, r4⟩ := sim.final (app_chan hb) hy hst (Qa := SameResult) (Qb := SameResult)
    (fun a c => ⟨_, rfl, rfl⟩) (fun a c => ⟨_, rfl, rfl⟩)
  exact ⟨y, Y, hy.endsIn hst, r1.endsIn r2, r3, r4⟩

/-- **C47.** A client session and a server session with correct keys and clocks that accept each other's times,
each followed by an arbitrary program on the session's channel.  Whatever the schedule, all ends as if the two
programs were directly connected; both sides derive the same key, the one that the library makes from the encryption
keys, hash the same M1 and M2, those that were sent, and know each other's signing key.  If the client buffers M4 its program has to begin with a write (see C60). -/
theorem C47_end_to_end {L : Lib} {cc cs : Clock} {cfgC : ClientCfg} {cfgS : ServerCfg} {kc ks : KeyPair}
    (S : Setup L cc cs cfgC cfgS kc ks) (pA : IT appSig α) (pB : IT appSig β) {n : Nat}
    (hn : n ≤ 2 ^ 62) (hA : Modest 65535 pA n) (hB : Modest 65535 pB n)
    (hb : cfgC.bufferM4 = true → ∃ ms l k, pA = .op (S := appSig) (.write ms l) k) :
    ∃ key h1 h2, KeysOf L cc cs cfgS.bufferM2 kc ks key h1 h2 ∧ SameOutcome
      (ClientEnd key h1 h2 cfgS.sigKp.pub) (ServerEnd key h1 h2 cfgC.sigKp.pub)
      (Net.start pA pB)
      (Net.start (party L cc (clientSession cfgC pA) 0) (party L cs (serverSession cfgS pB) 0)) := by
  obtain ⟨key, h1, h2, h3, h4, -⟩ := session_main (P := fun _ => True) (p := fun _ => True) S pA pB hn hA hB hb
    ⟨trivial, trivial, trivial, trivial, fun _ _ _ _ _ _ _ _ _ _ _ _ _ _ _ _ _ => trivial⟩
    (fun _ _ _ _ _ _ _ _ _ _ _ _ _ _ => trivial) fun _ _ _ => ⟨fun _ _ _ _ => trivial, fun _ _ _ _ => trivial⟩
  exact ⟨key, h1, h2, h3, h4⟩

/-- C33 as intended: handshakes complete on both sides, whatever the buffering, and agree. -/
def C33_claim : Prop := ∀ (L : Lib) (cc cs : Clock) (cfgC : ClientCfg) (cfgS : ServerCfg) (kc ks : KeyPair),
  Setup L cc cs cfgC cfgS kc ks →
  ∃ Y, EndsIn (Net.start (party L cc (clientSession cfgC (.ret ())) 0) (party L cs (serverSession cfgS (.ret ())) 0)) Y ∧
    ∃ rc rs key h1 h2, Y.a = .ret rc ∧ Y.b = .ret rs ∧ key.length = 32 ∧
      ClientEnd key h1 h2 cfgS.sigKp.pub () rc ∧ ServerEnd key h1 h2 cfgC.sigKp.pub () rs

/-- **C33, without buffering of M4.** Missing: the client buffers M4; then the server's handshake ends only after the
client's first write (C47), and C33 is false, see `C33_violated`. -/
theorem C33_handshake_partial {L : Lib} {cc cs : Clock} {cfgC : ClientCfg} {cfgS : ServerCfg} {kc ks : KeyPair}
    (S : Setup L cc cs cfgC cfgS kc ks) (hb : cfgC.bufferM4 = false) :
    ∃ Y, EndsIn (Net.start (party L cc (clientSession cfgC (.ret ())) 0) (party L cs (serverSession cfgS (.ret ())) 0)) Y ∧
      ∃ rc rs key h1 h2, Y.a = .ret rc ∧ Y.b = .ret rs ∧ KeysOf L cc cs cfgS.bufferM2 kc ks key h1 h2 ∧
        ClientEnd key h1 h2 cfgS.sigKp.pub () rc ∧ ServerEnd key h1 h2 cfgC.sigKp.pub () rs := by
  obtain ⟨key, h1, h2, hk, y, Y, e1, e2, e3, e4, -⟩ := C47_end_to_end (α := Unit) (β := Unit) S (.ret ()) (.ret ())
    (n := 0) (Nat.zero_le _) trivial trivial (by simp [hb])
  have hst : Net.Stuck (Net.start (.ret () : IT appSig Unit) (.ret () : IT appSig Unit)) := fun y h => by cases h
  have hy : y = Net.start (.ret ()) (.ret ()) := by
    obtain ⟨h1, n, h2, h3⟩ := e1
    exact ((h3 0 _ (.refl _)).2 hst).symm
  subst hy
  obtain ⟨a, b, ab, ba⟩ := Y
  cases e3 with
  | @ret _ rc hc =>
    cases e4 with
    | @ret _ rs hs => exact ⟨_, e2, rc, rs, key, h1, h2, rfl, rfl, hk, hc, hs⟩

/-- A clock that always shows 1 and accepts everything. -/
def exClock : Clock := ⟨fun _ => 1, fun _ => 1, fun _ _ => .ok (), fun _ _ => .ok ()⟩

def exKc : KeyPair := ⟨List.replicate 32 1, List.replicate 32 1⟩
def exKs : KeyPair := ⟨List.replicate 32 2, List.replicate 32 2⟩
def netSigC : KeyPair := ⟨List.replicate 64 3, (List.replicate 64 3).drop 32⟩
def netSigS : KeyPair := ⟨List.replicate 64 4, (List.replicate 64 4).drop 32⟩
def exCfgC (b : Bool) : ClientCfg := { sigKp := netSigC, encKp := some exKc, bufferM4 := b, wantedServerSigKey := [] }
def exCfgS (b : Bool) : ServerCfg := { sigKp := netSigS, encKp := some exKs, bufferM2 := b, a2 := none }

theorem exSetup (b b' : Bool) : Setup toyLib exClock exClock (exCfgC b) (exCfgS b') exKc exKs where
  honest := ⟨toy_box, toy_hash, toy_dh _ _ rfl rfl, toy_sig _ rfl, toy_sig _ rfl⟩
  encC := rfl
  encS := rfl
  acceptsC := ⟨fun _ _ => rfl, fun _ _ => rfl, fun _ _ => rfl⟩
  acceptsS := ⟨fun _ _ => rfl, fun _ _ => rfl, fun _ _ => rfl⟩

/-- With M4 buffered the server's handshake does not end. -/
theorem C33_violated : ¬ C33_claim := by
  intro h
  obtain ⟨Y, e, rc, rs, key, h1, h2, -, hb, -⟩ := h _ _ _ _ _ _ _ (exSetup true false)
  obtain ⟨Y', e', ⟨k, hb'⟩, -⟩ := session_waits (exSetup true false) rfl (.ret () : IT appSig Unit) (.ret () : IT appSig Unit)
    (.inl ⟨_, rfl⟩)
  obtain ⟨hs, n, hr, hu⟩ := e
  obtain ⟨hs', n', hr', hu'⟩ := e'
  have := (hu _ _ hr').2 hs'
  subst this
  rw [hb] at hb'
  cases hb'

/-- C60 as intended: whether the client buffers M4 makes no difference for the outcome of a session. -/
def C60_claim : Prop := ∀ (L : Lib) (cc cs : Clock) (cfgC : ClientCfg) (cfgS : ServerCfg) (kc ks : KeyPair),
  Setup L cc cs cfgC cfgS kc ks → ∀ (pA : IT appSig Unit) (pB : IT appSig Unit) (n : Nat), n ≤ 2 ^ 62 →
  Modest 65535 pA n → Modest 65535 pB n →
  ∃ key h1 h2, SameOutcome (ClientEnd key h1 h2 cfgS.sigKp.pub) (ServerEnd key h1 h2 cfgC.sigKp.pub)
    (Net.start pA pB)
    (Net.start (party L cc (clientSession cfgC pA) 0) (party L cs (serverSession cfgS pB) 0))

/-- **C60, for programs beginning with a write.** Missing: client programs that begin with a read, see `C60_violated`. -/
theorem C60_buffer_m4_partial {L : Lib} {cc cs : Clock} {cfgC : ClientCfg} {cfgS : ServerCfg} {kc ks : KeyPair}
    (S : Setup L cc cs cfgC cfgS kc ks) (ms : List Bytes) (l : Bool) (k : Except Err Unit → IT appSig α)
    (pB : IT appSig β) {n : Nat} (hn : n ≤ 2 ^ 62) (hA : Modest 65535 (.op (S := appSig) (.write ms l) k) n)
    (hB : Modest 65535 pB n) :
    ∃ key h1 h2, SameOutcome (ClientEnd key h1 h2 cfgS.sigKp.pub) (ServerEnd key h1 h2 cfgC.sigKp.pub)
      (Net.start (.op (S := appSig) (.write ms l) k) pB)
      (Net.start (party L cc (clientSession cfgC (.op (S := appSig) (.write ms l) k)) 0)
        (party L cs (serverSession cfgS pB) 0)) := by
  obtain ⟨key, h1, h2, -, h⟩ := C47_end_to_end S _ pB hn hA hB (fun _ => ⟨ms, l, k, rfl⟩)
  exact ⟨key, h1, h2, h⟩

/-- With M4 buffered, a client that first reads (the server writes first) and the server wait for each other for ever. -/
theorem C60_deadlock {L : Lib} {cc cs : Clock} {cfgC : ClientCfg} {cfgS : ServerCfg} {kc ks : KeyPair}
    (S : Setup L cc cs cfgC cfgS kc ks) (hb4 : cfgC.bufferM4 = true) (k : Except Err Bytes → IT appSig α)
    (pB : IT appSig β) :
    ∃ Y, EndsIn (Net.start (party L cc (clientSession cfgC (.op (S := appSig) .read k)) 0)
        (party L cs (serverSession cfgS pB) 0)) Y ∧
      (∃ k, Y.a = .op (S := appSig) .read k) ∧ ∃ k, Y.b = .op (S := appSig) .read k := by
  obtain ⟨Y, h1, h2, h3, -⟩ := session_waits S hb4 (.op (S := appSig) .read k) pB (.inr ⟨k, rfl⟩)
  exact ⟨Y, h1, h3 ⟨k, rfl⟩, h2⟩

/-- The server greets, the client waits for the greeting. -/
theorem C60_violated : ¬ C60_claim := by
  intro h
  obtain ⟨key, h1, h2, y, Y, e1, e2, e3, -⟩ := h _ _ _ _ _ _ _ (exSetup true false)
    (.op (S := appSig) .read fun _ => .ret ()) (.op (S := appSig) (.write [[7]] false) fun _ => .ret ()) 1 (by decide)
    (fun _ => trivial) ⟨by simp, by simp, by simp, fun _ => trivial⟩
  obtain ⟨Y', e', ⟨k, hk⟩, -⟩ := C60_deadlock (exSetup true false) rfl (fun _ => (.ret () : IT appSig Unit))
    (.op (S := appSig) (.write [[7]] false) fun _ => (.ret () : IT appSig Unit))
  obtain ⟨hs, n, hr, hu⟩ := e2
  obtain ⟨hs', n', hr', hu'⟩ := e'
  have := (hu _ _ hr').2 hs'
  subst this
  obtain ⟨hsy, ny, hry, huy⟩ := e1
  have r : Net.Run 2 (Net.start (.op (S := appSig) .read fun _ => (.ret () : IT appSig Unit))
      (.op (S := appSig) (.write [[7]] false) fun _ => (.ret () : IT appSig Unit))) ⟨.ret (), .ret (), [], []⟩ :=
    .step (.bWrite _ _ _) (.step (.aRead _ _) (.refl _))
  have := (huy _ _ r).2 (fun y h => by cases h)
  subst this
  rw [hk] at e3
  cases e3

/-! ### Examples -/

/-- The client asks twice in one call, the server answers both questions. -/
def exAsk : IT appSig (List (Except Err Bytes)) :=
  .op (S := appSig) (.write [[1], [2, 3]] false) fun _ =>
    .op (S := appSig) .read fun x => .op (S := appSig) .read fun y => .ret [x, y]

def exAnswer : IT appSig Unit :=
  .op (S := appSig) .read fun x => .op (S := appSig) .read fun y =>
    .op (S := appSig) (.write [val y] false) fun _ => .op (S := appSig) (.write [val x] true) fun _ => .ret ()

/-- The ideal network with these programs: the client ends with the answers `[2, 3]` and `[1]`. -/
theorem ex_ideal : Net.Run 7 (Net.start exAsk exAnswer) ⟨.ret [.ok [2, 3], .ok [1]], .ret (), [], []⟩ :=
  .step (.aWrite _ _ _) <| .step (.bRead _ _) <| .step (.bRead _ _) <| .step (.bWrite _ _ _) <|
    .step (.bWrite _ _ _) <| .step (.aRead _ _) <| .step (.aRead _ _) <| .refl _

/-- If the ideal network ends in `y`, so does the other one. -/
theorem _root_.Salt.Spec.SameOutcome.final {α β α' β' : Type} {Qa : α → α' → Prop} {Qb : β → β' → Prop} {x y : Net α β}
    {X : Net α' β'} (h : SameOutcome Qa Qb x X) {n : Nat} (hr : Net.Run n x y) (hy : Net.Stuck y) :
    ∃ Y, EndsIn X Y ∧ SameEnd Qa y.a Y.a ∧ SameEnd Qb y.b Y.b ∧ (y.ab = [] → Y.ab = []) ∧ (y.ba = [] → Y.ba = []) := by
  obtain ⟨y', Y, ⟨h1, m, h2, h3⟩, e2, e3, e4⟩ := h
  have := (h3 _ _ hr).2 hy
  subst this
  exact ⟨Y, e2, e3, e4⟩

theorem ex_modest : Modest 65535 exAsk 2 ∧ Modest 65535 exAnswer 2 :=
  ⟨⟨by simp, by simp, by simp, fun _ _ _ => trivial⟩,
    fun _ _ => ⟨by simp, by simp, by simp, fun _ => ⟨by simp, by simp, by simp, fun _ => trivial⟩⟩⟩

/-- C47 with M4 and M2 buffered or not: every schedule ends with the client holding both answers. -/
example (b b' : Bool) : ∃ Y s, EndsIn (Net.start (party toyLib exClock (clientSession (exCfgC b) exAsk) 0)
      (party toyLib exClock (serverSession (exCfgS b') exAnswer) 0)) Y ∧
    Y.a = .ret (.ok [.ok [2, 3], .ok [1]], s) := by
  obtain ⟨key, h1, h2, -, h⟩ := C47_end_to_end (exSetup b b') exAsk exAnswer (n := 2) (by decide) ex_modest.1 ex_modest.2
    (fun _ => ⟨_, _, _, rfl⟩)
  obtain ⟨Y, e1, e2, -⟩ := h.final ex_ideal (fun y h => by cases h)
  generalize hY : Y.a = A at e2
  cases e2 with
  | @ret _ p hq =>
    obtain ⟨r, s⟩ := p
    obtain ⟨rfl, -⟩ := hq
    exact ⟨Y, s, e1, hY⟩

/-- C21 and C27 on the same programs. -/
example (key : Bytes) (hk : key.length = 32) : ∃ sA sB Y s, Enc.init key .client = .ok sA ∧ Enc.init key .server = .ok sB ∧
    EndsIn (Net.start (party toyLib exClock (runOn encOps exAsk sA) 0) (party toyLib exClock (runOn encOps exAnswer sB) 0)) Y ∧
    Y.a = .ret ([.ok [2, 3], .ok [1]], s) := by
  have h : ∀ r, ∃ s, Enc.init key r = .ok s := fun r => ⟨_, if_neg (by simp [hk, boxSecretKeyBytes])⟩
  obtain ⟨sA, hA⟩ := h .client
  obtain ⟨sB, hB⟩ := h .server
  obtain ⟨Y, e1, e2, -⟩ := (C21_enc_fifo toy_box exClock exClock hA hB exAsk exAnswer (n := 2) (by decide)
    ⟨by simp, by simp, by simp, fun _ _ _ => trivial⟩
    (fun _ _ => ⟨by simp, by simp, by simp, fun _ => ⟨by simp, by simp, by simp, fun _ => trivial⟩⟩)).final ex_ideal
    (fun y h => by cases h)
  generalize hY : Y.a = A at e2
  cases e2 with
  | @ret _ p hq =>
    obtain ⟨r, s⟩ := p
    cases hq
    exact ⟨sA, sB, Y, s, hA, hB, e1, hY⟩

example (key : Bytes) (hk : key.length = 32) : ∃ sA sB Y s, Enc.init key .client = .ok sA ∧ Enc.init key .server = .ok sB ∧
    EndsIn (Net.start (party toyLib exClock (runOn appOps exAsk (App.init sA)) 0)
      (party toyLib exClock (runOn appOps exAnswer (App.init sB)) 0)) Y ∧
    Y.a = .ret ([.ok [2, 3], .ok [1]], s) := by
  have h : ∀ r, ∃ s, Enc.init key r = .ok s := fun r => ⟨_, if_neg (by simp [hk, boxSecretKeyBytes])⟩
  obtain ⟨sA, hA⟩ := h .client
  obtain ⟨sB, hB⟩ := h .server
  have ha := (exSetup false false).acceptsC
  obtain ⟨Y, e1, e2, -⟩ := (C27_app_network toy_box ha ha hA hB exAsk exAnswer (n := 2) (by decide)
    ex_modest.1 ex_modest.2).final ex_ideal (fun y h => by cases h)
  generalize hY : Y.a = A at e2
  cases e2 with
  | @ret _ p hq =>
    obtain ⟨r, s⟩ := p
    cases hq
    exact ⟨sA, sB, Y, s, hA, hB, e1, hY⟩

end Salt.Props
