import Verif.Model.Examples
import Verif.Model.Meta
import Verif.Props.Net2
import Verif.Props.Session4
import Verif.Props.Packets3

/-!
# The A1 client, the default time objects and the example sessions (C69 - C74)
-/

set_option linter.unusedSimpArgs false

namespace Salt.Props

open Salt Salt.Spec

/-! ### C69: the A1 client on any channel -/

/-- What `do_a1a2` makes of a reply: the A2 object, or an exception.  An empty reply gives the object that
`A2Packet()` builds. -/
inductive A2Reply (uw : Nat → Bool) : Bytes → Packet → Prop
  | a2 {flags : UInt8} {prots : List (Bytes × Bytes)} {tail : Bytes} (hn : prots.length ≤ 127)
      (hl : 128 ≤ flags.toNat) (hs : flags.toNat % 2 = 1 → prots = []) (ht : tail.length < 20)
      (hp : ∀ q ∈ prots, q.1.length = 10 ∧ q.2.length = 10 ∧ NameField uw q.1 ∧ NameField uw q.2) :
      A2Reply uw ([9, flags, UInt8.ofNat prots.length] ++ (prots.map fun p => p.1 ++ p.2).flatten ++ tail)
        { data := [9, flags, UInt8.ofNat prots.length], opt := some (prots.map fun p => p.1 ++ p.2).flatten }
  | empty : A2Reply uw [] { data := [9, 128, 0], opt := none }

theorem A2_reply (uw : Nat → Bool) (raw : Bytes) (p : Packet) : A2.ctor uw raw = .ok p ↔ A2Reply uw raw p := by
  by_cases h : raw = []
  · subst h
    constructor
    · intro h
      have : p = A2.fresh := by simpa [A2.ctor] using h.symm
      subst this
      exact .empty
    · intro h
      generalize hr : ([] : Bytes) = raw at h
      cases h with
      | a2 => simp at hr
      | empty => rfl
  · rw [C09_a2_accept uw raw h]
    constructor
    · rintro ⟨f, ps, tl, rfl, h1, h2, h3, h4, h5, rfl⟩
      exact .a2 h1 h2 h3 h4 h5
    · intro h
      cases h with
      | a2 h1 h2 h3 h4 h5 => exact ⟨_, _, _, rfl, h1, h2, h3, h4, h5, rfl⟩
      | empty => exact absurd rfl h

theorem A2_reply_errors (uw : Nat → Bool) (raw : Bytes) (e : Err) (h : A2.ctor uw raw = .error e) :
    e = .badPeer ∨ e = .valueError ∨ e = .unicodeDecodeError := by
  by_cases hl : 3 ≤ raw.length
  · rcases C09_a2_reject uw raw hl e h with h | h
    · exact .inl h
    · exact .inr (.inr h.1)
  · by_cases hr : raw = []
    · subst hr; cases h
    · have : A2.ctor uw raw = .error .valueError := by
        simp [A2.ctor, A2.fromBytes, hr, show raw.length < 3 by omega]
      rw [this] at h
      cases h
      exact .inr (.inl rfl)

theorem a1_store (x : Except Err Packet) (s : A1ClientSt) :
    ((do
      let p ← Py.lift x
      Py.modifySt fun s => { s with a2 := some p }) : Py appSig A1ClientSt Unit) s =
    match x with
    | .ok p => .ret (.ok (), { s with a2 := some p })
    | .error e => .ret (.error e, s) := by
  cases x <;> rfl

/-- **C69.** `do_a1a2` on any channel: it writes the A1 in one call, not marked as last, then reads once; it
returns normally exactly if the reply is an A2 (or empty), which it stores; otherwise it raises (what the channel
raises, or one of three exceptions) and stores nothing. -/
theorem C69_a1_client (uw : Nat → Bool) (s s' : A1ClientSt) (tr : List (Ev appSig)) (r : Except Err Unit)
    (h : Call (A1Client.doA1A2 uw) s tr r s') :
    (∃ e, tr = [⟨.write [s.a1.toBytes] false, .error e⟩] ∧ r = .error e ∧ s' = s) ∨
    (∃ e, tr = [⟨.write [s.a1.toBytes] false, .ok ()⟩, ⟨.read, .error e⟩] ∧ r = .error e ∧ s' = s) ∨
    ∃ raw, tr = [⟨.write [s.a1.toBytes] false, .ok ()⟩, ⟨.read, .ok raw⟩] ∧
      ((∃ p, A2Reply uw raw p ∧ r = .ok () ∧ s' = { s with a2 := some p }) ∨
      (¬ ∃ p, A2Reply uw raw p) ∧ s' = s ∧
        (r = .error .badPeer ∨ r = .error .valueError ∨ r = .error .unicodeDecodeError)) := by
  unfold Call at h
  cases h with
  | op e k r1 tr1 b h1 =>
    cases r1 with
    | error e => cases h1; exact .inl ⟨e, rfl, rfl, rfl⟩
    | ok u =>
      cases h1 with
      | op e k r2 tr2 b h2 =>
        cases r2 with
        | error e => cases h2; exact .inr (.inl ⟨e, rfl, rfl, rfl⟩)
        | ok raw =>
          refine .inr (.inr ⟨raw, ?_⟩)
          have h3 : Exec (match A2.ctor uw raw with
            | .ok p => .ret (.ok (), { s with a2 := some p })
            | .error e => .ret (.error e, s)) tr2 (r, s') := by
            rw [← a1_store]
            exact h2
          cases hc : A2.ctor uw raw with
          | ok p =>
            rw [hc] at h3
            cases h3
            exact ⟨rfl, .inl ⟨p, (A2_reply uw raw p).1 hc, rfl, rfl⟩⟩
          | error e =>
            rw [hc] at h3
            cases h3
            refine ⟨rfl, .inr ⟨?_, rfl, ?_⟩⟩
            · rintro ⟨p, hp⟩
              rw [(A2_reply uw raw p).2 hp] at hc
              cases hc
            · rcases A2_reply_errors uw raw e hc with rfl | rfl | rfl
              · exact .inl rfl
              · exact .inr (.inl rfl)
              · exact .inr (.inr rfl)

/-- **C69.** A new client has no A2, and its A1 names no address. -/
theorem C69_new : A1Client.init.a2 = none ∧ A1Client.init.a1.toBytes = a1 0 [] := ⟨rfl, by decide⟩

theorem a1Client_ok (uw : Nat → Bool) (s : A1ClientSt) {raw : Bytes} {p : Packet} (h : A2.ctor uw raw = .ok p) :
    Call (A1Client.doA1A2 uw) s [⟨.write [s.a1.toBytes] false, .ok ()⟩, ⟨.read, .ok raw⟩] (.ok ())
      { s with a2 := some p } := by
  refine .op _ _ _ _ _ (.op _ _ _ _ _ ?_)
  have e := a1_store (A2.ctor uw raw) s
  rw [h] at e
  show Exec (((do
      let p ← Py.lift (A2.ctor uw raw)
      Py.modifySt fun s => { s with a2 := some p }) : Py appSig A1ClientSt Unit) s) [] _
  rw [h, e]
  exact .ret _

/-- The default A2 as the reply. -/
example (uw : Nat → Bool) : ∃ s', Call (A1Client.doA1A2 uw) A1Client.init
    [⟨.write [[8, 0, 0, 0, 0]] false, .ok ()⟩, ⟨.read, .ok (A2.ofCase .default).toBytes⟩] (.ok ()) s' :=
  ⟨_, a1Client_ok uw A1Client.init
    ((C09_a2_roundtrip uw false [(A2.sc2ProtString, A2.unspecifiedProtString)] (by decide) (by decide) (by decide)).choose_spec.1)⟩

/-- C70 as intended: `do_a1a2` returns normally only if the reply was a complete A2. -/
def C70_claim : Prop := ∀ (uw : Nat → Bool) (s s' : A1ClientSt) (raw : Bytes) (tr : List (Ev appSig)),
  Call (A1Client.doA1A2 uw) s tr (.ok ()) s' → (⟨.read, .ok raw⟩ : Ev appSig) ∈ tr →
  ∃ nss prots tail, raw = a2 nss true prots ++ tail

/-- What holds of C70: a non-empty reply that is accepted has the type, the flag and the names of an A2. -/
theorem C70_reply_partial (uw : Nat → Bool) (s s' : A1ClientSt) (raw : Bytes) (tr : List (Ev appSig))
    (h : Call (A1Client.doA1A2 uw) s tr (.ok ()) s') (hr : (⟨.read, .ok raw⟩ : Ev appSig) ∈ tr) (hne : raw ≠ []) :
    ∃ (flags : UInt8) (prots : List (Bytes × Bytes)) (tail : Bytes), 128 ≤ flags.toNat ∧
      raw = [9, flags, UInt8.ofNat prots.length] ++ (prots.map fun p => p.1 ++ p.2).flatten ++ tail ∧
      (∀ q ∈ prots, q.1.length = 10 ∧ q.2.length = 10 ∧ NameField uw q.1 ∧ NameField uw q.2) := by
  rcases C69_a1_client uw s s' tr _ h with ⟨e, -, h2, -⟩ | ⟨e, -, h2, -⟩ | ⟨raw', rfl, ⟨p, hp, -⟩ | ⟨-, -, h2 | h2 | h2⟩⟩
  · cases h2
  · cases h2
  · have : raw' = raw := by
      rcases List.mem_cons.1 hr with h | h
      · cases h
      · rcases List.mem_cons.1 h with h | h
        · cases h; rfl
        · cases h
    subst this
    cases hp with
    | a2 h1 h2 h3 h4 h5 => exact ⟨_, _, _, h2, rfl, h5⟩
    | empty => exact absurd rfl hne
  · cases h2
  · cases h2
  · cases h2

/-- An empty message is taken for an A2. -/
theorem C70_violated : ¬ C70_claim := by
  intro h
  obtain ⟨nss, prots, tail, h⟩ := h (fun _ => false) A1Client.init _ [] _
    (a1Client_ok (fun _ => false) A1Client.init (raw := []) (p := A2.fresh) rfl) (by simp)
  simp [a2] at h

/-! ### C71: an A1 client and a server over reliable links -/

theorem Exec.perf {S : Sig} {α : Type} {t : IT S α} {tr : List (Ev S)} {b : α} (h : Exec t tr b) :
    Perf t tr (.ret b) := by
  induction h with
  | ret b => exact .nil _
  | op e k r tr b _ ih => exact .cons e k r ih

theorem stuck_rets {α β : Type} (a : α) (b : β) (x y : List Bytes) : Net.Stuck ⟨.ret a, .ret b, x, y⟩ :=
  fun y h => by cases h

theorem entries_length {prots : List (Bytes × Bytes)} (hp : ∀ q ∈ prots, q.1.length = 10 ∧ q.2.length = 10) :
    ((prots.map fun p => p.1 ++ p.2).flatten).length = 20 * prots.length := by
  induction prots with
  | nil => rfl
  | cons q ps ih =>
    have h1 := ih fun q hq => hp q (by simp [hq])
    have h2 := hp q (by simp)
    simp only [List.map_cons, List.flatten_cons, List.length_append, List.length_cons, h1, h2.1, h2.2]
    omega

/-- What an A1 client and a server session do: one message each, and these are short. -/
theorem a1_perf (uw : Nat → Bool) (L : Lib) (c : Clock) {cfg : ServerCfg} {kp : KeyPair}
    (hkp : cfg.encKp = some kp) {s : A1ClientSt} {addr : Option Bytes} (ha : IsA1 s.a1.toBytes addr)
    {nss : Bool} {prots : List (Bytes × Bytes)} (h2 : a1Answer cfg = a2 nss true prots)
    (hn : prots.length ≤ 127) (hnss : nss = true → prots = [])
    (hp : ∀ q ∈ prots, q.1.length = 10 ∧ q.2.length = 10 ∧ (∀ b ∈ q.1, NameByte b) ∧ ∀ b ∈ q.2, NameByte b) :
    ∃ p, Perf (A1Client.doA1A2 uw s) [⟨AppOp.write [s.a1.toBytes] false, .ok ()⟩, ⟨AppOp.read, .ok (a2 nss true prots)⟩]
        (.ret (.ok (), { s with a2 := some p })) ∧
      Perf (party L c (Server.handshake cfg Server.init) 0)
        [⟨AppOp.read, .ok s.a1.toBytes⟩, ⟨AppOp.write [a2 nss true prots] true, .ok ()⟩]
        (.ret (.ok (), { Server.init with isDone := true })) ∧
      s.a1.toBytes.length < 2 ^ 31 ∧ (a2 nss true prots).length < 2 ^ 31 ∧
      A2.noSuchServer p = nss.toNat ∧ A2.count p = prots.length ∧
      A2.entries prots.length p.optBytes = prots.map (fun q => q.1 ++ q.2) := by
  obtain ⟨p, h3, h4, h5, h6, h7, h8⟩ := C09_a2_roundtrip uw nss prots hn hnss hp
  have hs := server_a1_runs hkp Server.init ha
  rw [h2] at hs
  have hpf := party_perf (L := L) (c := c) (i := 0) (.read _ (.write _ _ _ (.nil 0))) hs
    (fun x => .ret x)
  rw [IT.bind_ret] at hpf
  refine ⟨p, Exec.perf (a1Client_ok uw s h3), hpf, ?_, ?_, h4, h6, h7⟩
  · generalize s.a1.toBytes = m at ha
    cases ha with
    | any x => simp
    | key x k hk => simp [hk]
  · have := entries_length (fun q hq => ⟨(hp q hq).1, (hp q hq).2.1⟩)
    simp only [a2, List.length_append, List.length_cons, List.length_nil, this]
    omega

/-- The run of an A1 client and a server session; all messages are short. -/
theorem a1_run (uw : Nat → Bool) (L : Lib) (c : Clock) {cfg : ServerCfg} {kp : KeyPair}
    (hkp : cfg.encKp = some kp) {s : A1ClientSt} {addr : Option Bytes} (ha : IsA1 s.a1.toBytes addr)
    {nss : Bool} {prots : List (Bytes × Bytes)} (h2 : a1Answer cfg = a2 nss true prots)
    (hn : prots.length ≤ 127) (hnss : nss = true → prots = [])
    (hp : ∀ q ∈ prots, q.1.length = 10 ∧ q.2.length = 10 ∧ (∀ b ∈ q.1, NameByte b) ∧ ∀ b ∈ q.2, NameByte b) :
    ∃ p m, Net.RunC Fits m (Net.start (A1Client.doA1A2 uw s) (party L c (Server.handshake cfg Server.init) 0))
      ⟨.ret (.ok (), { s with a2 := some p }), .ret (.ok (), { Server.init with isDone := true }), [], []⟩ ∧
      A2.noSuchServer p = nss.toNat ∧ A2.count p = prots.length ∧
      A2.entries prots.length p.optBytes = prots.map (fun q => q.1 ++ q.2) := by
  obtain ⟨p, hc, hpf, l1, l2, h⟩ := a1_perf uw L c hkp ha h2 hn hnss hp
  obtain ⟨u, hc1, hc2⟩ := Perf.split (tr1 := [_]) (tr2 := [_]) hc
  have r1 := Net.runC_a (p := fun m => m.length < 2 ^ 31) (q := []) hc1 (.write [s.a1.toBytes] false (.nil []))
    (by simpa using l1) (party L c (Server.handshake cfg Server.init) 0) []
  have r2 := Net.runC_b (p := fun m => m.length < 2 ^ 31) (q := [s.a1.toBytes]) hpf (.read _ (.write _ _ (.nil [])))
    (by simpa using l2) u []
  have r3 := Net.runC_a (p := fun m => m.length < 2 ^ 31) (q := [a2 nss true prots]) hc2 (.read _ (.nil []))
    (by simp) (.ret (Except.ok (ε := Err) (), { Server.init with isDone := true })) []
  exact ⟨p, _, (r1.trans r2).trans r3, h⟩

/-- **C71.** An A1 client with any A1 and a server session, over reliable links: whatever the schedule, both end
normally, the server is done, and the client holds the A2 of the server: the injected one, or the default one. -/
theorem C71_a1_session (uw : Nat → Bool) (L : Lib) (c : Clock) {cfg : ServerCfg} {kp : KeyPair}
    (hkp : cfg.encKp = some kp) {s : A1ClientSt} {addr : Option Bytes} (ha : IsA1 s.a1.toBytes addr)
    {nss : Bool} {prots : List (Bytes × Bytes)} (h2 : a1Answer cfg = a2 nss true prots)
    (hn : prots.length ≤ 127) (hnss : nss = true → prots = [])
    (hp : ∀ q ∈ prots, q.1.length = 10 ∧ q.2.length = 10 ∧ (∀ b ∈ q.1, NameByte b) ∧ ∀ b ∈ q.2, NameByte b) :
    ∃ p, EndsIn (Net.start (A1Client.doA1A2 uw s) (party L c (Server.handshake cfg Server.init) 0))
      ⟨.ret (.ok (), { s with a2 := some p }), .ret (.ok (), { Server.init with isDone := true }), [], []⟩ ∧
      A2.noSuchServer p = nss.toNat ∧ A2.count p = prots.length ∧
      A2.entries prots.length p.optBytes = prots.map (fun q => q.1 ++ q.2) := by
  obtain ⟨p, m, h, h'⟩ := a1_run uw L c hkp ha h2 hn hnss hp
  exact ⟨p, h.run.endsIn (stuck_rets _ _ _ _), h'⟩

/-- **C71 over sockets.** The same over byte streams, whatever the segmentation. -/
theorem C71_over_sockets (uw : Nat → Bool) (L : Lib) (c : Clock) {cfg : ServerCfg} {kp : KeyPair}
    (hkp : cfg.encKp = some kp) {s : A1ClientSt} {addr : Option Bytes} (ha : IsA1 s.a1.toBytes addr)
    {nss : Bool} {prots : List (Bytes × Bytes)} (h2 : a1Answer cfg = a2 nss true prots)
    (hn : prots.length ≤ 127) (hnss : nss = true → prots = [])
    (hp : ∀ q ∈ prots, q.1.length = 10 ∧ q.2.length = 10 ∧ (∀ b ∈ q.1, NameByte b) ∧ ∀ b ∈ q.2, NameByte b) :
    ∃ p, EndsLike ⟨.ret (.ok (), { s with a2 := some p }), .ret (.ok (), { Server.init with isDone := true }), [], []⟩
        (SockNet.start (onSocket (A1Client.doA1A2 uw s)) (onSocket (party L c (Server.handshake cfg Server.init) 0))) ∧
      A2.noSuchServer p = nss.toNat ∧ A2.count p = prots.length ∧
      A2.entries prots.length p.optBytes = prots.map (fun q => q.1 ++ q.2) := by
  obtain ⟨p, m, h, h'⟩ := a1_run uw L c hkp ha h2 hn hnss hp
  exact ⟨p, sock_ends _ _ (h.calls (stuck_rets _ _ _ _)) (h.run.endsIn (stuck_rets _ _ _ _)), h'⟩

/-- Example session 2: the client asks for the server with the key 0x08 .. 0x08, and gets the names SCv2 and
ECHO, whoever the server is. -/
theorem C71_example2 (uw : Nat → Bool) (L : Lib) (c : Clock) (sig enc : KeyPair) :
    ∃ p, EndsIn (Net.start (A1Client.doA1A2 uw { A1Client.init with a1 := Example2.a1 })
        (party L c (Server.handshake { sigKp := sig, encKp := some enc, a2 := some Example2.a2, bufferM2 := false } Server.init) 0))
      ⟨.ret (.ok (), ⟨Example2.a1, some p⟩), .ret (.ok (), { Server.init with isDone := true }), [], []⟩ ∧
      A2.entries 1 p.optBytes = [A2.sc2ProtString ++ ascii ['E', 'C', 'H', 'O', '-', '-', '-', '-', '-', '-']] := by
  obtain ⟨p, h1, -, -, h4⟩ := C71_a1_session uw L c
    (cfg := { sigKp := sig, encKp := some enc, a2 := some Example2.a2, bufferM2 := false }) (kp := enc) rfl
    (s := { A1Client.init with a1 := Example2.a1 }) (addr := some (List.replicate 32 8))
    (.key 0 (List.replicate 32 8) (by decide)) (nss := false)
    (prots := [(A2.sc2ProtString, ascii ['E', 'C', 'H', 'O', '-', '-', '-', '-', '-', '-'])])
    rfl (by decide) (by decide) (by decide)
  exact ⟨p, h1, h4⟩

/-! ### C72: the default time objects -/

/-- The time objects a session has by default, `NullTimeKeeper` and `NullTimeChecker`. -/
def nullClock : Clock :=
  ⟨fun _ => nullTime, fun _ => nullTime, fun _ t => nullReport t, fun _ t => nullCheck t⟩

/-- **C72.** The default time checker accepts the times of every keeper whose first time is 0 or 1; the default
keeper tells such times. -/
theorem C72_default_times : (∀ c : Clock, (∀ i, c.first i = 0 ∨ c.first i = 1) → Spec.Accepts nullClock c) ∧
    (∀ i, nullClock.first i = 0) ∧ (∀ i, nullClock.now i = 0) ∧ Spec.Accepts nullClock nullClock := by
  have h : ∀ c : Clock, (∀ i, c.first i = 0 ∨ c.first i = 1) → Spec.Accepts nullClock c := by
    intro c h
    refine ⟨fun i j => ?_, fun _ _ => rfl, fun _ _ => rfl⟩
    rcases h j with h | h <;> rw [h] <;> rfl
  exact ⟨h, fun _ => rfl, fun _ => rfl, h _ fun _ => .inl rfl⟩

/-! ### C73: the example sessions -/

variable {α β : Type}

/-- If two programs return when directly connected, so they do on the channels of sessions. -/
theorem session_returns {L : Lib} {cc cs : Clock} {cfgC : ClientCfg} {cfgS : ServerCfg} {kc ks : KeyPair}
    (S : Setup L cc cs cfgC cfgS kc ks) {pA : IT appSig α} {pB : IT appSig β} {n : Nat}
    (hn : n ≤ 2 ^ 62) (hA : Modest 65535 pA n) (hB : Modest 65535 pB n)
    (hb : cfgC.bufferM4 = true → ∃ ms l k, pA = .op (S := appSig) (.write ms l) k)
    {a : α} {b : β} {m : Nat} (hr : Net.Run m (Net.start pA pB) ⟨.ret a, .ret b, [], []⟩) :
    ∃ rc rs, EndsIn (Net.start (party L cc (clientSession cfgC pA) 0) (party L cs (serverSession cfgS pB) 0))
        ⟨.ret rc, .ret rs, [], []⟩ ∧ Agreed L cc cs cfgC cfgS kc ks a b rc rs := by
  obtain ⟨key, h1, h2, hk, z, Y, e1, e2, e3, e4, e5, e6⟩ := C47_end_to_end S pA pB hn hA hB hb
  have hz : z = ⟨.ret a, .ret b, [], []⟩ := by
    obtain ⟨-, n, -, h3⟩ := e1
    exact ((h3 _ _ hr).2 (stuck_rets _ _ _ _)).symm
  subst hz
  obtain ⟨Ya, Yb, ab, ba⟩ := Y
  simp only at e3 e4
  obtain rfl := e5 rfl
  obtain rfl := e6 rfl
  cases e3 with
  | @ret _ rc hc =>
    cases e4 with
    | @ret _ rs hs => exact ⟨rc, rs, e2, key, h1, h2, hk, hc, hs⟩

theorem example1_run (req : Bytes) {P : List Bytes → Prop} (h : P [req]) :
    Net.RunC P 4 (Net.start (Example1.client req ()) (Example1.server ()))
      ⟨.ret (.ok req, ()), .ret (.ok (), ()), [], []⟩ :=
  .step (.aWrite [req] true _ h) (.step (.bRead req _) (.step (.bWrite [req] false _ h) (.step (.aRead req _) (.refl _))))

theorem example3_run (r1 r21 r22 : Bytes) {P : List Bytes → Prop} (h1 : P [r1]) (h2 : P [r21, r22]) :
    Net.RunC P 10 (Net.start (Example3.client r1 r21 r22 ()) (Example3.server ()))
      ⟨.ret (.ok (), ()), .ret (.ok (), ()), [], []⟩ := by
  refine .step (.aWrite [r1] false _ h1) (.step (.bRead r1 _) (.step (.bWrite [r1] false _ h1) (.step (.aRead r1 _)
    (.step (.aWrite [r21, r22] false _ h2) (.step (.bRead r21 _) (.step (.bRead r22 _) (.step (.bWrite [r21, r22] true _ h2)
    (.step (.aRead r21 _) (.step (.aRead r22 _) ?_)))))))))
  show Net.RunC P 0 ⟨(if r1 ≠ r1 then Py.raise .assertionError
    else if r21 ≠ r21 then Py.raise .assertionError
    else if r22 ≠ r22 then Py.raise .assertionError
    else pure () : Py appSig Unit Unit) (), _, _, _⟩ _
  rw [if_neg (by simp), if_neg (by simp), if_neg (by simp)]
  exact .refl _

theorem example1_modest (req : Bytes) : Modest 65535 (Example1.client req ()) 1 ∧ Modest 65535 (Example1.server ()) 1 := by
  constructor
  · refine ⟨by simp, by simp, by simp, fun r => ?_⟩
    cases r with
    | error e => exact trivial
    | ok u => intro r; cases r <;> exact trivial
  · intro r
    cases r with
    | error e => exact trivial
    | ok m =>
      refine ⟨by simp, by simp, by simp, fun r => ?_⟩
      cases r <;> exact trivial

theorem example3_modest (r1 r21 r22 : Bytes) :
    Modest 65535 (Example3.client r1 r21 r22 ()) 3 ∧ Modest 65535 (Example3.server ()) 3 := by
  constructor
  · refine ⟨by simp, by simp, by simp, fun r => ?_⟩
    cases r with
    | error e => exact trivial
    | ok u =>
      intro r
      cases r with
      | error e => exact trivial
      | ok a1 =>
        refine ⟨by simp, by simp, by simp, fun r => ?_⟩
        cases r with
        | error e => exact trivial
        | ok u =>
          intro r
          cases r with
          | error e => exact trivial
          | ok a2 =>
            intro r
            cases r with
            | error e => exact trivial
            | ok a3 =>
              show Modest 65535 ((if a1 ≠ r1 then Py.raise .assertionError
                else if r21 ≠ a2 then Py.raise .assertionError
                else if r22 ≠ a3 then Py.raise .assertionError
                else pure () : Py appSig Unit Unit) ()) _
              split
              · exact trivial
              split
              · exact trivial
              split <;> exact trivial
  · intro r
    cases r with
    | error e => exact trivial
    | ok m =>
      refine ⟨by simp, by simp, by simp, fun r => ?_⟩
      cases r with
      | error e => exact trivial
      | ok u =>
        intro r
        cases r with
        | error e => exact trivial
        | ok m1 =>
          intro r
          cases r with
          | error e => exact trivial
          | ok m2 =>
            refine ⟨by simp, by simp, by simp, fun r => ?_⟩
            cases r <;> exact trivial

/-- **C73.** Example session 1, with any keys, any request and any buffering: whatever the schedule both sides
end normally and the response is the request. -/
theorem C73_example1 {L : Lib} {cc cs : Clock} {cfgC : ClientCfg} {cfgS : ServerCfg} {kc ks : KeyPair}
    (S : Setup L cc cs cfgC cfgS kc ks) (request : Bytes) :
    ∃ rc rs, EndsIn (Net.start (party L cc (clientSession cfgC (Example1.client request ())) 0)
        (party L cs (serverSession cfgS (Example1.server ())) 0)) ⟨.ret rc, .ret rs, [], []⟩ ∧
      Agreed L cc cs cfgC cfgS kc ks (.ok request, ()) (.ok (), ()) rc rs :=
  session_returns S (n := 1) (by decide) (example1_modest request).1 (example1_modest request).2 (fun _ => ⟨_, _, _, rfl⟩)
    (example1_run request (P := fun _ => True) trivial).run

/-- **C73.** Example session 3, with any keys, requests and buffering: whatever the schedule both sides end
normally; in particular none of the comparisons at the end fails. -/
theorem C73_example3 {L : Lib} {cc cs : Clock} {cfgC : ClientCfg} {cfgS : ServerCfg} {kc ks : KeyPair}
    (S : Setup L cc cs cfgC cfgS kc ks) (r1 r21 r22 : Bytes) :
    ∃ rc rs, EndsIn (Net.start (party L cc (clientSession cfgC (Example3.client r1 r21 r22 ())) 0)
        (party L cs (serverSession cfgS (Example3.server ())) 0)) ⟨.ret rc, .ret rs, [], []⟩ ∧
      Agreed L cc cs cfgC cfgS kc ks (.ok (), ()) (.ok (), ()) rc rs :=
  session_returns S (n := 3) (by decide) (example3_modest r1 r21 r22).1 (example3_modest r1 r21 r22).2
    (fun _ => ⟨_, _, _, rfl⟩) (example3_run r1 r21 r22 (P := fun _ => True) trivial trivial).run

/-- The sessions as they are in the examples: default times in example 1, buffering on both sides. -/
example : ∃ cfgC cfgS kc ks, Setup toyLib nullClock nullClock cfgC cfgS kc ks ∧ cfgC.bufferM4 = true ∧
    cfgS.bufferM2 = true :=
  ⟨_, _, _, _, ⟨(exSetup true true).honest, (exSetup true true).encC, (exSetup true true).encS, C72_default_times.2.2.2,
    C72_default_times.2.2.2⟩, rfl, rfl⟩

/-! ### C74: the simple echo session -/

/-- The calls of the client in `n` rounds. -/
def echoCalls (data : Bytes) : Nat → List (Ev appSig)
  | 0 => []
  | n + 1 => ⟨.write [data] false, .ok ()⟩ :: ⟨.read, .ok data⟩ :: echoCalls data n

/-- The calls of the server in `n` rounds. -/
def echoAnswers (data : Bytes) : Nat → List (Ev appSig)
  | 0 => []
  | n + 1 => ⟨.read, .ok data⟩ :: ⟨.write [data] false, .ok ()⟩ :: echoAnswers data n

theorem Perf.bind {S : Sig} {t u : IT S α} {tr : List (Ev S)} (h : Perf t tr u) (f : α → IT S β) :
    Perf (t.bind f) tr (u.bind f) := by
  induction h with
  | nil => exact .nil _
  | cons e k r _ ih => exact .cons _ _ _ ih

theorem Perf.trans {S : Sig} {t u v : IT S α} {tr tr' : List (Ev S)} (h : Perf t tr u) (h' : Perf u tr' v) :
    Perf t (tr ++ tr') v := by
  induction h with
  | nil => exact h'
  | cons e k r _ ih => exact .cons _ _ _ (ih h')

theorem echo_client (data : Bytes) (n : Nat) :
    Perf (SimpleEcho.client data n ()) (echoCalls data n) (.ret (.ok (List.replicate n data), ())) := by
  induction n with
  | zero => exact .nil _
  | succ n ih =>
    refine .cons (S := appSig) _ _ _ (.cons (S := appSig) _ _ _ ?_)
    exact Perf.bind ih _

/-- What follows the body of a `try` statement. -/
def afterTry {S : Sig} {σ : Type} (h : Err → Py S σ α) : Except Err α × σ → IT S (Except Err α × σ)
  | (.ok a, s') => .ret (.ok a, s')
  | (.error e, s') => h e s'

theorem onError_eq {S : Sig} {σ : Type} (m : Py S σ α) (h : Err → Py S σ α) (s : σ) :
    Py.onError m h s = (m s).bind (afterTry h) := by
  unfold Py.onError
  congr 1
  funext ⟨r, u⟩
  cases r <;> rfl

theorem echo_server (data : Bytes) (hd : data ≠ []) (n fuel : Nat) :
    ∃ k, Perf (SimpleEcho.server (n + fuel + 1) ()) (echoAnswers data n) (.op (S := appSig) .read k) := by
  induction n with
  | zero => exact ⟨_, .nil _⟩
  | succ n ih =>
    obtain ⟨k, ih⟩ := ih
    rw [show n + 1 + fuel + 1 = (n + fuel + 1) + 1 by omega]
    unfold SimpleEcho.server
    rw [onError_eq]
    generalize hh : afterTry _ = h
    generalize SimpleEcho.server (n + fuel + 1) = p at ih
    refine ⟨fun r => (k r).bind h, Perf.bind (u := .op (S := appSig) .read k) ?_ h⟩
    refine .cons (S := appSig) _ _ _ ?_
    show Perf ((if data = [] then return () else (do
        exWrite [data] false
        p) : Py appSig Unit Unit) ()) _ _
    rw [if_neg hd]
    exact .cons (S := appSig) _ _ _ ih

theorem echo_run {a a' : IT appSig α} {b b' : IT appSig β} (data : Bytes) (n : Nat)
    (ha : Perf a (echoCalls data n) a') (hb : Perf b (echoAnswers data n) b') :
    Net.Run (4 * n) ⟨a, b, [], []⟩ ⟨a', b', [], []⟩ := by
  induction n generalizing a b with
  | zero => cases ha; cases hb; exact .refl _
  | succ n ih =>
    cases ha with
    | cons e k r ha =>
      generalize hx : k (.ok ()) = x at ha
      cases ha with
      | cons e' k' r' ha =>
        cases hb with
        | cons e'' k'' r'' hb =>
          generalize hy : k'' (.ok data) = y at hb
          cases hb with
          | cons e3 k3 r3 hb =>
            refine .step (.aWrite [data] false _) ?_
            rw [hx]
            refine .step (.bRead data _) ?_
            rw [hy]
            exact .step (.bWrite [data] false _) (.step (.aRead data _) (ih ha hb))

/-- **C74.** The simple echo session with any non-empty data and any number of rounds, over reliable
links: whatever the schedule the client ends with a response equal to the data for each request, and the server
waits for the next message. -/
theorem C74_simple_echo (data : Bytes) (hd : data ≠ []) (n fuel : Nat) :
    ∃ k, EndsIn (Net.start (SimpleEcho.client data n ()) (SimpleEcho.server (n + fuel + 1) ()))
      ⟨.ret (.ok (List.replicate n data), ()), .op (S := appSig) .read k, [], []⟩ := by
  obtain ⟨k, hk⟩ := echo_server data hd n fuel
  exact ⟨k, (echo_run data n (echo_client data n) hk).endsIn ((Net.stuck_iff _).2 ⟨.inl ⟨_, rfl⟩, .inr ⟨⟨k, rfl⟩, rfl⟩⟩)⟩

/-- C74: with empty data the server takes the first request for the end, and the client waits for ever. -/
theorem C74_empty (n fuel : Nat) :
    ∃ k, EndsIn (Net.start (SimpleEcho.client [] (n + 1) ()) (SimpleEcho.server (fuel + 1) ()))
      ⟨.op (S := appSig) .read k, .ret (.ok (), ()), [], []⟩ := by
  have r : Net.Run 2 (Net.start (SimpleEcho.client [] (n + 1) ()) (SimpleEcho.server (fuel + 1) ()))
      ⟨.op (S := appSig) .read _, .ret (.ok (), ()), [], []⟩ :=
    .step (.aWrite [[]] false _) (.step (.bRead [] _) (.refl _))
  exact ⟨_, r.endsIn ((Net.stuck_iff _).2 ⟨.inr ⟨⟨_, rfl⟩, rfl⟩, .inl ⟨_, rfl⟩⟩)⟩

/-- The calls of the server answering the messages `ms`. -/
def echoed : List Bytes → List (Ev appSig)
  | [] => []
  | m :: ms => ⟨.read, .ok m⟩ :: ⟨.write [m] false, .ok ()⟩ :: echoed ms

/-- How an exception ends the server: ComException and its subclasses BadPeer, TimeException and
NoSuchServerException are taken as the end of the connection. -/
def echoEnd (e : Err) : Except Err Unit := if e.isCom then .ok () else .error e

/-- `echoEnd`, exception by exception. -/
theorem echoEnd_eq (e : Err) :
    echoEnd e = if e = .comException ∨ e = .badPeer ∨ e = .timeException ∨ e = .noSuchServer then .ok () else .error e := by
  cases e <;> rfl

/-- What the `try` statement around the loop makes of a result. -/
def echoTry : Except Err Unit → Except Err Unit
  | .ok a => .ok a
  | .error e => echoEnd e

theorem echoTry_end (e : Err) : echoTry (echoEnd e) = echoEnd e := by
  unfold echoEnd
  by_cases he : e.isCom = true
  · rw [if_pos he]; rfl
  · rw [if_neg he]; exact if_neg he

/-- **C74.** Every execution of the echo server on any channel: it answers messages `ms`, each with itself and before
reading the next one, until it gets an empty message or the channel raises; ComException
(or a subclass: `echoEnd_eq`) ends it normally, any other exception is passed on.  (The last case is that of the rounds left out of the model.) -/
theorem C74_server (fuel : Nat) (tr : List (Ev appSig)) (r : Except Err Unit) (s' : Unit)
    (h : Call (SimpleEcho.server fuel) () tr r s') :
    ∃ ms : List Bytes, (∀ m ∈ ms, m ≠ []) ∧
      ((tr = echoed ms ++ [⟨.read, .ok []⟩] ∧ r = .ok ()) ∨
       (∃ e, tr = echoed ms ++ [⟨.read, .error e⟩] ∧ r = echoEnd e) ∨
       (∃ m e, m ≠ [] ∧ tr = echoed ms ++ [⟨.read, .ok m⟩, ⟨.write [m] false, .error e⟩] ∧ r = echoEnd e) ∨
       (tr = echoed ms ∧ ms.length = fuel ∧ r = .ok ())) := by
  induction fuel generalizing tr r s' with
  | zero =>
    cases h
    exact ⟨[], by simp, .inr (.inr (.inr ⟨rfl, rfl, rfl⟩))⟩
  | succ fuel ih =>
    unfold Call SimpleEcho.server at h
    rw [onError_eq] at h
    rw [Exec_bind] at h
    obtain ⟨t1, ⟨r1, u⟩, t2, rfl, h1, h2⟩ := h
    have hr : t2 = [] ∧ r = echoTry r1 := by
      cases r1 with
      | ok a => cases h2; exact ⟨rfl, rfl⟩
      | error e =>
        unfold afterTry at h2
        unfold echoTry echoEnd
        simp only at h2 ⊢
        by_cases he : e.isCom = true
        · rw [if_pos he] at h2 ⊢; cases h2; exact ⟨rfl, rfl⟩
        · rw [if_neg he] at h2 ⊢; cases h2; exact ⟨rfl, rfl⟩
    obtain ⟨rfl, rfl⟩ := hr
    rw [List.append_nil]
    cases h1 with
    | op _ _ x tr1 _ h1 =>
      cases x with
      | error e => cases h1; exact ⟨[], by simp, .inr (.inl ⟨e, rfl, rfl⟩)⟩
      | ok m =>
        change Exec ((if m = [] then return () else (do
          exWrite [m] false
          SimpleEcho.server fuel) : Py appSig Unit Unit) ()) tr1 (r1, u) at h1
        by_cases hm : m = []
        · subst hm
          rw [if_pos rfl] at h1
          cases h1
          exact ⟨[], by simp, .inl ⟨rfl, rfl⟩⟩
        · rw [if_neg hm] at h1
          cases h1 with
          | op _ _ y tr2 _ h1 =>
            cases y with
            | error e => cases h1; exact ⟨[], by simp, .inr (.inr (.inl ⟨m, e, hm, rfl, rfl⟩))⟩
            | ok w =>
              obtain ⟨ms, hms, h⟩ := ih tr2 r1 u h1
              refine ⟨m :: ms, by simpa [hm] using hms, ?_⟩
              rcases h with ⟨rfl, rfl⟩ | ⟨e, rfl, hr⟩ | ⟨m', e, hm', rfl, hr⟩ | ⟨rfl, hl, rfl⟩
              · exact .inl ⟨rfl, rfl⟩
              · exact .inr (.inl ⟨e, rfl, by rw [hr, echoTry_end]⟩)
              · exact .inr (.inr (.inl ⟨m', e, hm', rfl, by rw [hr, echoTry_end]⟩))
              · exact .inr (.inr (.inr ⟨rfl, by simp [hl], rfl⟩))

/-- A server that answers one message and then finds the connection closed. -/
example : Call (SimpleEcho.server 5) () (echoed [[7]] ++ [⟨.read, .error .comException⟩]) (.ok ()) () :=
  .op _ _ _ _ _ (.op _ _ _ _ _ (.op _ _ _ _ _ (.ret _)))

end Salt.Props
