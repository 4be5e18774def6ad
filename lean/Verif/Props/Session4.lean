import Verif.Props.Session3

/-!
# C41-C46, C49, C59
-/

set_option linter.unusedSimpArgs false

namespace Salt.Props

open Salt Spec

/-! ### C41, C42 -/

theorem _root_.Salt.Spec.IsA1.not_likeM1 {raw : Bytes} {a : Option Bytes} (h : IsA1 raw a) : ¬ LikeM1 raw := by
  have : ∀ t : Bytes, ¬ LikeM1 (8 :: t) := by
    intro t h
    unfold LikeM1 at h
    have := congrArg List.head? h
    simp [ascii] at this
  cases h <;> exact this _

theorem A1_ctor_iff {raw : Bytes} (hm : ¬ LikeM1 raw) : (∃ p, A1.ctor raw = .ok p) ↔ ∃ a, IsA1 raw a := by
  by_cases hl : 5 ≤ raw.length
  · rw [(C08_a1_accept raw hl).1]
    constructor
    · rintro (⟨x, rfl⟩ | ⟨x, k, rfl, hk⟩)
      · exact ⟨_, .any x⟩
      · exact ⟨_, .key x k hk⟩
    · rintro ⟨a, h⟩
      cases h with
      | any x => exact .inl ⟨x, rfl⟩
      | key x k hk => exact .inr ⟨x, k, rfl, hk⟩
  · constructor
    · rintro ⟨p, hp⟩
      unfold A1.ctor at hp
      split at hp
      · rename_i h0
        rw [List.isEmpty_iff] at h0
        exact absurd (by rw [h0]; decide) hm
      · simp only [A1.fromBytes] at hp
        rw [if_pos (by omega)] at hp
        simp at hp
    · rintro ⟨a, h⟩
      cases h <;> simp at hl

/-- The answer of a server to an A1: the one given by the application, or the default one, which lists the
protocol pair `SCv2------`, `----------`. -/
def a1Answer (cfg : ServerCfg) : Bytes :=
  match cfg.a2 with
  | some p => p.toBytes
  | none => Spec.a2 false true [(ascii ['S', 'C', 'v', '2', '-', '-', '-', '-', '-', '-'],
      ascii ['-', '-', '-', '-', '-', '-', '-', '-', '-', '-'])]

theorem a1Answer_eq (cfg : ServerCfg) : (cfg.a2.getD (A2.ofCase .default)).toBytes = a1Answer cfg := by
  unfold a1Answer
  cases cfg.a2 with
  | some p => rfl
  | none => decide

theorem server_not_m1 {cfg : ServerCfg} {kp : KeyPair} (hkp : cfg.encKp = some kp) {s s' : ServerSt}
    {raw : Bytes} (hm : ¬ LikeM1 raw) {tr : List (Ev env)} {r : Except Err Unit} :
    Call (Server.handshake cfg) s (⟨.read, .ok raw⟩ :: tr) r s' ↔
    match A1.ctor raw with
    | .error e => tr = [] ∧ r = .error e ∧ s' = { s with m1 := none }
    | .ok _ => tr = [⟨.write [a1Answer cfg] true, r⟩] ∧
        s' = { s with
          m1 := none
          isDone := if r = .ok () then true else s.isDone } := by
  have hm' := ctor_of_not_likeM1 hm
  unfold Call Server.handshake Server.validate
  rw [hkp]
  simp only [Py.bind_run, Py.pure_run, IT.ret_bind, s_doM1_run, IT.op_bind, Exec_op_cons, hm', s_doA2_run,
    a1Answer_eq]
  cases A1.ctor raw with
  | error e =>
    simp only [IT.ret_bind, Exec_ret, Prod.mk.injEq, true_and]
    exact and_congr_right fun _ => and_congr eq_comm eq_comm
  | ok a =>
    simp only [IT.op_bind]
    rw [a1Answer_eq]
    constructor
    · intro h
      rw [Exec_op] at h
      obtain ⟨r1, tr, rfl, h⟩ := h
      cases r1 with
      | error e =>
        simp only [IT.ret_bind, Exec_ret, Prod.mk.injEq] at h
        obtain ⟨rfl, rfl, rfl⟩ := h
        exact ⟨rfl, by simp⟩
      | ok u =>
        simp only [IT.ret_bind, Py.modifySt_run, Exec_ret, Prod.mk.injEq] at h
        obtain ⟨rfl, rfl, rfl⟩ := h
        exact ⟨rfl, by simp⟩
    · rintro ⟨rfl, rfl⟩
      refine .op _ _ _ _ _ ?_
      cases r with
      | error e => simp
      | ok u => simp

/-- C41: if the first message is an A1, the server answers with exactly one A2 marked last and does nothing
else, in particular no handshake; if the answer could be sent, the handshake returns and the session is done, and
only then.  If the first message is neither an A1 nor starts as an M1, nothing is written and an exception is raised.
In both cases no channel is set up. -/
theorem C41_a1 {cfg : ServerCfg} {kp : KeyPair} (hkp : cfg.encKp = some kp) {s s' : ServerSt}
    {raw : Bytes} {tr : List (Ev env)} {r : Except Err Unit}
    (h : Call (Server.handshake cfg) s (⟨.read, .ok raw⟩ :: tr) r s') :
    (∀ a, IsA1 raw a → tr = [⟨.write [a1Answer cfg] true, r⟩] ∧ (r = .ok () → s'.isDone = true) ∧
      (r ≠ .ok () → s'.isDone = s.isDone) ∧ s'.chan = s.chan) ∧
    ((¬ ∃ a, IsA1 raw a) → ¬ LikeM1 raw → tr = [] ∧ (r = .error .badPeer ∨ r = .error .valueError) ∧
      s'.isDone = s.isDone ∧ s'.chan = s.chan) := by
  constructor
  · intro a ha
    obtain ⟨p, hp⟩ := (A1_ctor_iff ha.not_likeM1).2 ⟨a, ha⟩
    rw [server_not_m1 hkp ha.not_likeM1, hp] at h
    obtain ⟨h1, rfl⟩ := h
    exact ⟨h1, fun hr => by simp [hr], fun hr => by simp [hr], rfl⟩
  · intro hna hm
    rw [server_not_m1 hkp hm] at h
    cases hp : A1.ctor raw with
    | ok p => exact absurd ((A1_ctor_iff hm).1 ⟨p, hp⟩) hna
    | error e =>
      rw [hp] at h
      obtain ⟨h1, rfl, rfl⟩ := h
      refine ⟨h1, ?_, rfl, rfl⟩
      rcases (C12_exceptions (fun _ => false) raw e).2.2.2.2.2.2.2.1 hp with rfl | ⟨rfl, -⟩
      · exact .inl rfl
      · exact .inr rfl

/-- A run in which the server answers an A1. -/
theorem server_a1_runs {cfg : ServerCfg} {kp : KeyPair} (hkp : cfg.encKp = some kp) (s : ServerSt) {raw : Bytes}
    {a : Option Bytes} (ha : IsA1 raw a) :
    Call (Server.handshake cfg) s [⟨.read, .ok raw⟩, ⟨.write [a1Answer cfg] true, .ok ()⟩] (.ok ())
      { s with
        m1 := none
        isDone := true } := by
  obtain ⟨p, hp⟩ := (A1_ctor_iff ha.not_likeM1).2 ⟨_, ha⟩
  rw [server_not_m1 hkp ha.not_likeM1, hp]
  exact ⟨rfl, rfl⟩

/-- Both kinds of A1 and a message of another kind. -/
example : IsA1 [8, 0, 0, 0, 0] none ∧ IsA1 ([8, 0, 1, 32, 0] ++ List.replicate 32 3) (some (List.replicate 32 3)) ∧
    (¬ ∃ a, IsA1 [2, 0] a) ∧ ¬ LikeM1 [2, 0] ∧
    (∃ tr r s', Call (Server.handshake (exServer false)) Server.init
      (⟨.read, .ok ([8, 0, 1, 32, 0] ++ List.replicate 32 3)⟩ :: tr) r s') ∧
    ∃ tr r s', Call (Server.handshake (exServer false)) Server.init (⟨.read, .ok [2, 0]⟩ :: tr) r s' := by
  have h1 : IsA1 ([8, 0, 1, 32, 0] ++ List.replicate 32 3) (some (List.replicate 32 3)) := .key 0 _ (by decide)
  refine ⟨.any 0, h1, ?_, by decide, ?_, ?_⟩
  · rintro ⟨a, h⟩; cases h
  · exact ⟨_, _, _, server_a1_runs (kp := exEnc) rfl _ h1⟩
  · exact ⟨[], .error .valueError, { Server.init with m1 := none },
      (server_not_m1 (kp := exEnc) rfl (by decide)).2 ⟨rfl, rfl, rfl⟩⟩

/-- C42 as one would want it: an A1 addressed to another key than the server's is answered with
NoSuchServer. -/
def C42_claim : Prop := ∀ (cfg : ServerCfg) (kp : KeyPair) (s s' : ServerSt) (raw k : Bytes) (tr : List (Ev env))
    (r : Except Err Unit), cfg.encKp = some kp → IsA1 raw (some k) → k ≠ cfg.sigKp.pub →
    Call (Server.handshake cfg) s (⟨.read, .ok raw⟩ :: tr) r s' → writesOf tr = [([Spec.a2 true true []], true)]

/-- What the code does: every A1 is answered in the same way, whatever its address. -/
theorem C42_address_ignored_partial {cfg : ServerCfg} {kp : KeyPair} (hkp : cfg.encKp = some kp) {s s' : ServerSt}
    {raw : Bytes} {a : Option Bytes} (ha : IsA1 raw a) {tr : List (Ev env)} {r : Except Err Unit}
    (h : Call (Server.handshake cfg) s (⟨.read, .ok raw⟩ :: tr) r s') :
    writesOf tr = [([a1Answer cfg], true)] := by
  rw [((C41_a1 hkp h).1 a ha).1]
  rfl

/-- For no configuration without an own A2 and for no foreign address is the answer the wanted one. -/
theorem C42_never_refused {cfg : ServerCfg} {kp : KeyPair} (hkp : cfg.encKp = some kp) (h2 : cfg.a2 = none)
    {s s' : ServerSt} {raw : Bytes} {a : Option Bytes} (ha : IsA1 raw a) {tr : List (Ev env)} {r : Except Err Unit}
    (h : Call (Server.handshake cfg) s (⟨.read, .ok raw⟩ :: tr) r s') :
    writesOf tr ≠ [([Spec.a2 true true []], true)] := by
  rw [C42_address_ignored_partial hkp ha h]
  unfold a1Answer
  rw [h2]
  decide

theorem C42_violated : ¬ C42_claim := by
  intro hc
  have h1 : IsA1 ([8, 0, 1, 32, 0] ++ List.replicate 32 3) (some (List.replicate 32 3)) := .key 0 _ (by decide)
  have h := server_a1_runs (cfg := exServer false) (kp := exEnc) rfl Server.init h1
  exact C42_never_refused (kp := exEnc) rfl rfl h1 h (hc _ exEnc _ _ _ _ _ _ rfl h1 (by decide) h)

/-! ### C43 -/

/-- C43: without an encryption key pair both handshakes raise ValueError without doing anything. -/
theorem C43_needs_keypair :
    (∀ (cfg : ClientCfg) (s s' : ClientSt) (tr : List (Ev env)) (r : Except Err Unit), cfg.encKp = none →
      (Call (Client.handshake cfg) s tr r s' ↔ tr = [] ∧ r = .error .valueError ∧ s' = s)) ∧
    (∀ (cfg : ServerCfg) (s s' : ServerSt) (tr : List (Ev env)) (r : Except Err Unit), cfg.encKp = none →
      (Call (Server.handshake cfg) s tr r s' ↔ tr = [] ∧ r = .error .valueError ∧ s' = s)) := by
  constructor
  · intro cfg s s' tr r h
    simp only [Call, Client.handshake, Py.bind_run, Client.validate, h, Py.raise_run, IT.ret_bind, Exec_ret,
      Prod.mk.injEq]
    exact and_congr_right fun _ => and_congr eq_comm eq_comm
  · intro cfg s s' tr r h
    simp only [Call, Server.handshake, Py.bind_run, Server.validate, h, Py.raise_run, IT.ret_bind, Exec_ret,
      Prod.mk.injEq]
    exact and_congr_right fun _ => and_congr eq_comm eq_comm

example : ∃ cfg : ClientCfg, cfg.encKp = none := ⟨⟨exSigC, none, true, []⟩, rfl⟩
example : ∃ cfg : ServerCfg, cfg.encKp = none := ⟨⟨exSigS, none, true, none⟩, rfl⟩

/-! ### C44 -/

/-- C44: a client handshake that does not raise leaves a channel whose key is the 32-byte session key,
derived from the own secret key and the key in the M2 received, with M3 read and with M4 sent or buffered:
the next nonces are 4 for reading and 3, or 1 if M4 waits, for writing. -/
theorem C44_channel_or_exception {cfg : ClientCfg} {s s' : ClientSt} {tr : List (Ev env)}
    {r : Except Err Unit} (h : Call (Client.handshake cfg) s tr r s') :
    (∃ e, r = .error e) ∨
    ∃ c kp m2, r = .ok () ∧ s'.chan = some c ∧ c.enc.key = s'.sessionKey ∧ s'.sessionKey.length = 32 ∧
      cfg.encKp = some kp ∧ (readsOf tr).head? = some m2 ∧
      ⟨.beforenm (field m2 6 32) kp.sec, .ok s'.sessionKey⟩ ∈ tr ∧
      c.enc.readNonce = 4 ∧ c.enc.writeNonce = (if cfg.bufferM4 then 1 else 3) ∧
      c.bufferedM4.isSome = cfg.bufferM4 ∧ c.enc.pushback = [] ∧ c.enc.sessionNonce = zeros 8 := by
  cases r with
  | error e => exact .inl ⟨e, rfl⟩
  | ok u =>
    refine .inr ?_
    obtain ⟨kp, t1, h1, raw2, m2, h2, k, p3, m3, m3p, x, t4, sm, tail, hkp, -, -, -, -, hkl, -, -, -, -,
      -, -, rfl, hk, -, -, -, -, -, -, hend⟩ := (client_ok h).ex
    rcases hend with ⟨hb, -, hc⟩ | ⟨hb, hc, -⟩
    · exact ⟨_, kp, raw2, rfl, hc, by rw [hk]; rfl, by rw [hk]; exact hkl, hkp, rfl, by rw [hk]; simp, rfl,
        by rw [hb]; rfl, by rw [hb]; rfl, rfl, rfl⟩
    · exact ⟨_, kp, raw2, rfl, hc, by rw [hk]; rfl, by rw [hk]; exact hkl, hkp, rfl, by rw [hk]; simp, rfl,
        by rw [hb]; rfl, by rw [hb]; rfl, rfl, rfl⟩

example (b : Bool) : ∃ tr s', Call (Client.handshake (exClient b)) Client.init tr (.ok ()) s' :=
  exClient_call b _

/-! ### C45 -/

/-- C45 as documented: a client that wants a certain server completes only with this server, that is the
key reported in the M3 it accepted is the wanted one. -/
def C45_claim : Prop := ∀ (cfg : ClientCfg) (s s' : ClientSt) (tr : List (Ev env)) (p : Packet),
    cfg.wantedServerSigKey ≠ [] → Call (Client.handshake cfg) s tr (.ok ()) s' → s'.m3 = some p →
    M34.sigKey p = cfg.wantedServerSigKey

/-- What the code does: the wanted key has no influence whatsoever; and whoever the server is, it has
signed (C34). -/
theorem C45_wanted_ignored_partial (cfg : ClientCfg) (w : Bytes) (s s' : ClientSt) (tr : List (Ev env))
    (r : Except Err Unit) :
    Call (Client.handshake { cfg with wantedServerSigKey := w }) s tr r s' ↔
      Call (Client.handshake cfg) s tr r s' := Iff.rfl

theorem C45_violated : ¬ C45_claim := by
  intro hc
  have g : CGood ⟨exSigC, some exEnc, false, List.replicate 32 99⟩ exEnc exCP :=
    { exClient_good false with enc := rfl, sig := by decide }
  obtain ⟨s', h⟩ := client_runs g Client.init
  obtain ⟨kp, t1, h1, raw2, m2, h2, k, p3, m3, m3p, x, t4, sm, tail, -, -, -, -, -, -, -, -, -, hm3p,
      -, -, htr, hk, -, -, -, -, hm3, -, hend⟩ := (client_ok h).ex
  have h1 := hc _ _ _ _ _ (by decide) h hm3
  obtain ⟨-, -, hkey, -⟩ := m34_fields 3 rfl hm3p
  rw [hkey] at h1
  have hm : m3 = exCP.m3 := by
    have := congrArg (fun l => (opens l).map Sealed.msg) htr
    have h2 : ∀ tail : List (Ev env), opens tail = [] →
      (opens (clientPre exEnc exCP ++ tail)).map Sealed.msg = [exCP.m3] := by
      intro tail ht
      simp only [clientPre, List.cons_append, List.nil_append, opens, ht, List.map]
    simp only [Bool.false_eq_true, if_false] at this
    rw [h2 _ rfl] at this
    have h3 : opens tail = [] := by
      rcases hend with ⟨-, rfl, -⟩ | ⟨-, -, c4, rfl⟩ <;> rfl
    simp only [List.cons_append, List.nil_append, opens, h3, List.map] at this
    exact (List.cons.inj this).1.symm
  rw [hm] at h1
  revert h1
  decide

/-! ### C46 -/

/-- The default time checker is in use. -/
def DefaultChecker (tr : List (Ev env)) : Prop := ∀ t r, ⟨EnvOp.report t, r⟩ ∈ tr → r = nullReport t

theorem nullReport_bad {t : Nat} (h : t ≠ 0 ∧ t ≠ 1) : nullReport t = .error .typeError := by
  unfold nullReport
  rw [if_neg (by omega)]

/-- C46, server: with the default time checker, an M1 whose time is neither 0 nor 1 makes the handshake raise
TypeError at once; nothing is written. -/
theorem C46_server {cfg : ServerCfg} {kp : KeyPair} (hkp : cfg.encKp = some kp) {s s' : ServerSt}
    {raw : Bytes} (hm : LikeM1 raw) (ht : leNat (field raw 6 4) ≠ 0 ∧ leNat (field raw 6 4) ≠ 1)
    {tr : List (Ev env)} {r : Except Err Unit} (hd : DefaultChecker tr)
    (h : Call (Server.handshake cfg) s (⟨.read, .ok raw⟩ :: tr) r s') :
    r = .error .typeError ∧ tr = [⟨.report (leNat (field raw 6 4)), .error .typeError⟩] ∧ writesOf tr = [] := by
  obtain ⟨m, hm⟩ := ctor_of_likeM1 hm
  unfold Call Server.handshake Server.validate at h
  rw [hkp] at h
  simp only [Py.bind_run, Py.pure_run, IT.ret_bind, s_doM1_run, IT.op_bind, Exec_op_cons, hm] at h
  rw [Exec_op] at h
  obtain ⟨r1, tr, rfl, h⟩ := h
  have := hd _ r1 List.mem_cons_self
  rw [nullReport_bad ht] at this
  subst this
  simp only [IT.ret_bind, Exec_ret, Prod.mk.injEq] at h
  obtain ⟨rfl, rfl, -⟩ := h
  exact ⟨rfl, rfl, rfl⟩

/-- C46, client: with the default time checker, an M2 whose time is neither 0 nor 1 makes the handshake raise
TypeError; only M1 has been written. -/
theorem C46_client {cfg : ClientCfg} {kp : KeyPair} (hkp : cfg.encKp = some kp) {s s' : ClientSt}
    {raw : Bytes} {rest : List Bytes} (hm : raw.head? = some 2)
    (ht : leNat (field raw 2 4) ≠ 0 ∧ leNat (field raw 2 4) ≠ 1)
    {tr : List (Ev env)} {r : Except Err Unit} (hd : DefaultChecker tr)
    (h : Call (Client.handshake cfg) s tr r s') (hr : readsOf tr = raw :: rest) :
    r = .error .typeError ∧ rest = [] ∧ ∃ t, writesOf tr = [([Spec.m1 t kp.pub none], false)] := by
  obtain ⟨m, hm⟩ := m2_ctor_of (.inr hm)
  unfold Call Client.handshake Client.validate at h
  rw [hkp] at h
  simp only [Py.bind_run, Py.pure_run, IT.ret_bind, c_doM1_run, IT.op_bind] at h
  rw [Exec_op] at h
  obtain ⟨r1, tr, rfl, h⟩ := h
  rcases r1 with e | t1
  · simp only [IT.ret_bind, Exec_ret] at h
    rw [h.1] at hr
    simp [readsOf] at hr
  simp only [] at h
  split at h
  case isFalse =>
    simp only [IT.ret_bind, Exec_ret] at h
    rw [h.1] at hr
    simp [readsOf] at hr
  simp only [IT.op_bind] at h
  rw [Exec_op] at h
  obtain ⟨r1, tr, rfl, h⟩ := h
  rcases r1 with e | h1
  · simp only [IT.ret_bind, Exec_ret] at h
    rw [h.1] at hr
    simp [readsOf] at hr
  simp only [IT.op_bind] at h
  rw [Exec_op] at h
  obtain ⟨r1, tr, rfl, h⟩ := h
  rcases r1 with e | u
  · simp only [IT.ret_bind, Exec_ret] at h
    rw [h.1] at hr
    simp [readsOf] at hr
  simp only [IT.ret_bind, c_doM2_run, IT.op_bind] at h
  rw [Exec_op] at h
  obtain ⟨r1, tr, rfl, h⟩ := h
  rcases r1 with e | raw'
  · simp only [IT.ret_bind, Exec_ret] at h
    rw [h.1] at hr
    simp [readsOf] at hr
  simp only [readsOf, List.cons.injEq] at hr
  obtain ⟨rfl, hr⟩ := hr
  simp only [hm, IT.op_bind] at h
  rw [Exec_op] at h
  obtain ⟨r1, tr, rfl, h⟩ := h
  have := hd (leNat (field raw' 2 4)) r1 (by simp)
  rw [nullReport_bad ht] at this
  subst this
  simp only [IT.ret_bind, Exec_ret, Prod.mk.injEq] at h
  obtain ⟨rfl, rfl, -⟩ := h
  refine ⟨rfl, ?_, t1, rfl⟩
  rw [← hr]; rfl

/-- So with the default time checker a completed handshake has seen a first time of 0 or 1. -/
theorem C46_completed {cfg : ServerCfg} {kp : KeyPair} (hkp : cfg.encKp = some kp) {s s' : ServerSt}
    {raw : Bytes} (hm : LikeM1 raw) {tr : List (Ev env)} (hd : DefaultChecker tr)
    (h : Call (Server.handshake cfg) s (⟨.read, .ok raw⟩ :: tr) (.ok ()) s') :
    leNat (field raw 6 4) = 0 ∨ leNat (field raw 6 4) = 1 := by
  refine Decidable.byContradiction fun hn => ?_
  have := (C46_server hkp hm (by omega) hd h).1
  simp at this

/-- A server gets an M1 with time 7. -/
example : ∃ raw tr r s', LikeM1 raw ∧ leNat (field raw 6 4) = 7 ∧ DefaultChecker tr ∧
    Call (Server.handshake (exServer false)) Server.init (⟨.read, .ok raw⟩ :: tr) r s' := by
  obtain ⟨m, hm⟩ := ctor_of_likeM1 (raw := Spec.m1 7 (List.replicate 32 6) none) (by decide)
  refine ⟨Spec.m1 7 (List.replicate 32 6) none,
    [⟨.report (leNat (field (Spec.m1 7 (List.replicate 32 6) none) 6 4)), .error .typeError⟩], .error .typeError,
    { Server.init with m1 := some m }, by decide, by decide, ?_, ?_⟩
  · intro t r ht
    have h7 : nullReport (leNat (field (Spec.m1 7 (List.replicate 32 6) none) 6 4)) = .error .typeError := by decide
    generalize leNat (field (Spec.m1 7 (List.replicate 32 6) none) 6 4) = x at ht h7
    simp only [List.mem_singleton, Ev.mk.injEq, EnvOp.report.injEq] at ht
    obtain ⟨rfl, h⟩ := ht
    rw [h7]
    exact eq_of_heq h
  · unfold Call Server.handshake Server.validate
    rw [show (exServer false).encKp = some exEnc from rfl]
    simp only [Py.bind_run, Py.pure_run, IT.ret_bind, s_doM1_run, IT.op_bind, Exec_op_cons, hm, Exec_ret, true_and]

/-- A client gets an M2 with time 7. -/
example : ∃ raw rest tr r s', raw.head? = some 2 ∧ leNat (field raw 2 4) = 7 ∧ DefaultChecker tr ∧
    Call (Client.handshake (exClient false)) Client.init tr r s' ∧ readsOf tr = raw :: rest := by
  obtain ⟨m, hm⟩ := m2_ctor_of (raw := Spec.m2 false false 7 (List.replicate 32 6)) (.inr rfl)
  have h7 : leNat (field (Spec.m2 false false 7 (List.replicate 32 6)) 2 4) = 7 := by decide
  refine ⟨Spec.m2 false false 7 (List.replicate 32 6), [], [⟨.firstTime, .ok 1⟩,
    ⟨.hash (Spec.m1 1 exEnc.pub none), .ok []⟩,
    ⟨.write [Spec.m1 1 exEnc.pub none] false, .ok ()⟩, ⟨.read, .ok (Spec.m2 false false 7 (List.replicate 32 6))⟩,
    ⟨.report 7, .error .typeError⟩], .error .typeError,
    { Client.init with
      m1 := some ⟨Spec.m1 1 exEnc.pub none, some []⟩
      m1Hash := []
      m2 := some m }, rfl, h7, ?_, ?_, rfl⟩
  · intro t r ht
    simp only [List.mem_cons, Ev.mk.injEq, EnvOp.report.injEq, reduceCtorEq, false_and, false_or,
      List.not_mem_nil, or_false] at ht
    obtain ⟨rfl, h⟩ := ht
    exact eq_of_heq h
  · unfold Call Client.handshake Client.validate
    rw [show (exClient false).encKp = some exEnc from rfl]
    have hp : exEnc.pub.length = 32 := by decide
    simp only [Py.bind_run, Py.pure_run, IT.ret_bind, c_doM1_run, c_doM2_run, IT.op_bind, Exec_op_cons, hp,
      if_true, hm]
    rw [h7]
    simp only [Exec_op_cons, IT.ret_bind, Exec_ret, true_and]

/-! ### C49 -/

/-- A run in which the server refuses an M1. -/
theorem server_refuse_runs {cfg : ServerCfg} {kp : KeyPair} (hkp : cfg.encKp = some kp) (s : ServerSt)
    {raw k : Bytes} (hm : LikeM1 raw) (hn : namedServer raw = some k) (hk : k ≠ cfg.sigKp.pub) (h1 : Bytes) (t : Nat) :
    ∃ s', Call (Server.handshake cfg) s [⟨.read, .ok raw⟩, ⟨.report (leNat (field raw 6 4)), .ok ()⟩,
      ⟨.hash raw, .ok h1⟩, ⟨.firstTime, .ok t⟩, ⟨.write [Spec.m2 true true t (zeros 32)] true, .ok ()⟩]
      (.error .noSuchServer) s' := by
  obtain ⟨m, hm⟩ := ctor_of_likeM1 hm
  obtain ⟨hb, hf⟩ := namedServer_some hn
  have hc : leNat (field raw 5 1) % 2 = 1 ∧ field raw 42 32 ≠ cfg.sigKp.pub := ⟨hb, by rw [hf]; exact hk⟩
  refine ⟨{ s with
    m1 := some m
    m1Hash := h1 }, ?_⟩
  unfold Call Server.handshake Server.validate
  rw [hkp]
  simp only [Py.bind_run, Py.pure_run, IT.ret_bind, s_doM1_run, IT.op_bind, Exec_op_cons, hm, if_pos hc,
    Exec_ret, true_and]

/-- C49 as one would want it: a server does not send an M2 in answer to an empty message or a proper prefix
of an M1. -/
def C49_claim : Prop := ∀ (cfg : ServerCfg) (kp : KeyPair) (s s' : ServerSt) (t : Nat) (key : Bytes)
    (ks : Option Bytes) (n : Nat) (tr : List (Ev env)) (r : Except Err Unit), cfg.encKp = some kp →
    key.length = 32 → (∀ k, ks = some k → k.length = 32) → n < (Spec.m1 t key ks).length →
    Call (Server.handshake cfg) s (⟨.read, .ok ((Spec.m1 t key ks).take n)⟩ :: tr) r s' →
    ∀ w ∈ writesOf tr, ∀ m ∈ w.1, m.head? ≠ some 2

theorem likeM1_take (t : Nat) (key : Bytes) (ks : Option Bytes) (n : Nat) : LikeM1 ((Spec.m1 t key ks).take n) := by
  have h : ∃ rest, Spec.m1 t key ks = ascii ['S', 'C', 'v', '2'] ++ [1] ++ rest := by
    cases ks <;> exact ⟨_, rfl⟩
  obtain ⟨rest, h⟩ := h
  have h5 : (ascii ['S', 'C', 'v', '2'] ++ [1] : Bytes).length = 5 := by decide
  unfold LikeM1
  rw [h]
  generalize (ascii ['S', 'C', 'v', '2'] ++ [1] : Bytes) = a at h5 ⊢
  rw [List.take_take, List.length_take, List.length_append]
  by_cases hn : n ≤ 5
  · rw [Nat.min_eq_right hn, Nat.min_eq_left (by omega), List.take_append_of_le_length (by omega)]
  · rw [Nat.min_eq_left (by omega), List.take_append_of_le_length (by omega), List.take_of_length_le (by omega),
      List.take_of_length_le (by omega)]

/-- Every message that starts as an M1, in particular every prefix of every M1 and the empty message, is
answered with an M2 in some run: by every server with keys of the right length, at any time. -/
theorem C49_prefix_answered {cfg : ServerCfg} {kp : KeyPair} (hkp : cfg.encKp = some kp) (hp : kp.pub.length = 32)
    (hs : kp.sec.length = 32) (hg : cfg.sigKp.pub.length = 32) (s : ServerSt) {raw : Bytes} (hm : LikeM1 raw) :
    ∃ tr r s', Call (Server.handshake cfg) s (⟨.read, .ok raw⟩ :: tr) r s' ∧
      ∃ w ∈ writesOf tr, ∃ m ∈ w.1, m.head? = some 2 := by
  by_cases hc : ∃ k, namedServer raw = some k ∧ k ≠ cfg.sigKp.pub
  · obtain ⟨k, hn, hk⟩ := hc
    obtain ⟨s', h⟩ := server_refuse_runs hkp s hm hn hk [] 1
    exact ⟨_, _, s', h, ([Spec.m2 true true 1 (zeros 32)], true), by simp [writesOf], _, List.mem_singleton.2 rfl, rfl⟩
  · have hz : ¬ (leNat (field raw 5 1) % 2 = 1 ∧ field raw 42 32 ≠ cfg.sigKp.pub) := by
      rintro ⟨h1, h2⟩
      exact hc ⟨field raw 42 32, by unfold namedServer; rw [if_pos h1], h2⟩
    have g : SGood cfg kp { exSP with raw1 := raw } :=
      { enc := hkp
        pub := hp
        sec := hs
        sig := hg
        m1 := (likeM1_iff raw).1 hm
        key := hz
        k := (exServer_good true).k
        p4 := (exServer_good true).p4
        p4h := rfl
        m4 := .inr rfl
        sm := (exServer_good true).sm }
    obtain ⟨s', h⟩ := server_runs g s
    unfold serverFull serverHead at h
    cases hb : cfg.bufferM2 with
    | true =>
      rw [hb] at h
      exact ⟨_, _, s', h, ([Spec.m2 false false exSP.t2 kp.pub, Spec.encrypted false exSP.c3], false),
        by simp [writesOf, serverBuffered, serverTail], _, List.mem_cons_self, rfl⟩
    | false =>
      rw [hb] at h
      exact ⟨_, _, s', h, ([Spec.m2 false false exSP.t2 kp.pub], false),
        by simp [writesOf, serverPlain, serverTail], _, List.mem_cons_self, rfl⟩

theorem C49_violated : ¬ C49_claim := by
  intro hc
  obtain ⟨tr, r, s', h, w, hw, m, hm, h2⟩ := C49_prefix_answered (cfg := exServer false) (kp := exEnc) rfl
    (by decide) (by decide) (by decide) Server.init (likeM1_take 1 (List.replicate 32 6) none 0)
  exact hc _ exEnc _ _ _ _ _ _ _ _ rfl (by decide) (by simp) (by decide) h w hw m hm h2

/-- What remains true of C49: a message that does not start as an M1 is never answered with an M2, unless it
is an A1 for which the application supplied such an answer. -/
theorem C49_not_m1_partial {cfg : ServerCfg} {kp : KeyPair} (hkp : cfg.encKp = some kp) {s s' : ServerSt}
    {raw : Bytes} (hm : ¬ LikeM1 raw) (h2 : (a1Answer cfg).head? ≠ some 2) {tr : List (Ev env)} {r : Except Err Unit}
    (h : Call (Server.handshake cfg) s (⟨.read, .ok raw⟩ :: tr) r s') :
    ∀ w ∈ writesOf tr, ∀ m ∈ w.1, m.head? ≠ some 2 := by
  by_cases ha : ∃ a, IsA1 raw a
  · obtain ⟨a, ha⟩ := ha
    rw [((C41_a1 hkp h).1 a ha).1]
    simpa [writesOf] using h2
  · rw [((C41_a1 hkp h).2 ha hm).1]
    simp [writesOf]

/-- A truncated M1 of 20 bytes; and the hypotheses of the partial claim. -/
example : (Spec.m1 1 (List.replicate 32 6) none).take 20 ≠ Spec.m1 1 (List.replicate 32 6) none ∧
    LikeM1 ((Spec.m1 1 (List.replicate 32 6) none).take 20) ∧ ¬ LikeM1 [2, 0] ∧
    (a1Answer (exServer false)).head? ≠ some 2 := by
  refine ⟨by decide, by decide, by decide, by decide⟩

/-! ### C59 -/

/-- C59, client: apart from exceptions raised by the channel, the time objects or the crypto library, a
client handshake with keys of 32 bytes and a library whose shared keys have 32 and whose signatures at least 64
bytes raises only BadPeer, NoSuchServer (when told so by the first message), AssertionError (only if a message
not of the length of an M3 was decrypted) or AttributeError (only if an empty message was read). -/
theorem C59_client {cfg : ClientCfg} {kp : KeyPair} (hkp : cfg.encKp = some kp) (hp : kp.pub.length = 32)
    (hs : kp.sec.length = 32) (hg : cfg.sigKp.pub.length = 32) {s s' : ClientSt} {tr : List (Ev env)} {e : Err}
    (hk : ∀ pk sk k, ⟨EnvOp.beforenm pk sk, .ok k⟩ ∈ tr → k.length = 32)
    (hsm : ∀ m sk sm, ⟨EnvOp.sign m sk, .ok sm⟩ ∈ tr → 64 ≤ sm.length)
    (h : Call (Client.handshake cfg) s tr (.error e) s') :
    Raised tr e ∨ e = .badPeer ∨
    (e = .noSuchServer ∧ ∃ raw, readsOf tr = [raw] ∧ leNat (field raw 1 1) % 2 = 1) ∨
    (e = .assertionError ∧ ∃ x n k m, OpenedIn x n k m tr ∧ m.length ≠ 102) ∨
    (e = .attributeError ∧ [] ∈ readsOf tr) := by
  rcases client_raises hkp h with hr | hr | ⟨rfl, t1, h1, raw, m, h2, -, hb, rfl⟩
  · cases hr with
    | raised hw => exact .inl hw
    | badPeer => exact .inr (.inl rfl)
    | empty hw => exact .inr (.inr (.inr (.inr ⟨rfl, hw⟩)))
    | length hw =>
      rcases hw with hw | hw | ⟨a, b, k, hw, hl⟩ | ⟨m, sk, sm, hw, hl⟩
      · exact absurd hp hw
      · exact absurd hg hw
      · exact absurd (hk _ _ _ hw) hl
      · have := hsm _ _ _ hw; omega
    | secret hw => exact absurd hs hw
  · exact .inr (.inr (.inr (.inl hr)))
  · exact .inr (.inr (.inl ⟨rfl, raw, rfl, hb⟩))

/-- C59, server: likewise; here ValueError is raised for a first message of less than 5 bytes that does not
start as an M1. -/
theorem C59_server {cfg : ServerCfg} {kp : KeyPair} (hkp : cfg.encKp = some kp) (hp : kp.pub.length = 32)
    (hs : kp.sec.length = 32) (hg : cfg.sigKp.pub.length = 32) {s s' : ServerSt} {tr : List (Ev env)} {e : Err}
    (hk : ∀ pk sk k, ⟨EnvOp.beforenm pk sk, .ok k⟩ ∈ tr → k.length = 32)
    (hsm : ∀ m sk sm, ⟨EnvOp.sign m sk, .ok sm⟩ ∈ tr → 64 ≤ sm.length)
    (h : Call (Server.handshake cfg) s tr (.error e) s') :
    Raised tr e ∨ e = .badPeer ∨
    (e = .noSuchServer ∧ ∃ raw k, readsOf tr = [raw] ∧ namedServer raw = some k ∧ k ≠ cfg.sigKp.pub) ∨
    (e = .valueError ∧ ∃ raw, readsOf tr = [raw] ∧ ¬ LikeM1 raw ∧ raw.length < 5) ∨
    (e = .attributeError ∧ [] ∈ readsOf tr) := by
  rcases server_raises hkp h with hr | ⟨rfl, raw, m, h1, t, hm, hb, hne, rfl⟩ | ⟨rfl, raw, x, hm, hl, rfl⟩
  · cases hr with
    | raised hw => exact .inl hw
    | badPeer => exact .inr (.inl rfl)
    | empty hw => exact .inr (.inr (.inr (.inr ⟨rfl, hw⟩)))
    | length hw =>
      rcases hw with hw | hw | ⟨a, b, k, hw, hl⟩ | ⟨m, sk, sm, hw, hl⟩
      · exact absurd hp hw
      · exact absurd hg hw
      · exact absurd (hk _ _ _ hw) hl
      · have := hsm _ _ _ hw; omega
    | secret hw => exact absurd hs hw
  · exact .inr (.inr (.inl ⟨rfl, raw, _, rfl, by unfold namedServer; rw [if_pos hb], hne⟩))
  · refine .inr (.inr (.inr (.inl ⟨rfl, raw, rfl, ?_, hl⟩)))
    intro hlike
    obtain ⟨m, hm'⟩ := ctor_of_likeM1 hlike
    rw [hm] at hm'
    simp at hm'

/-- C59 as the session API suggests: the peer can make a handshake raise only the exceptions of the package
(BadPeer, NoSuchServer). -/
def C59_claim : Prop := ∀ (cfg : ClientCfg) (kp : KeyPair) (s s' : ClientSt) (tr : List (Ev env)) (e : Err),
    cfg.encKp = some kp → kp.pub.length = 32 → kp.sec.length = 32 → cfg.sigKp.pub.length = 32 → NoneRaised tr →
    (∀ pk sk k, ⟨EnvOp.beforenm pk sk, .ok k⟩ ∈ tr → k.length = 32) →
    Call (Client.handshake cfg) s tr (.error e) s' → e = .badPeer ∨ e = .noSuchServer

/-- An empty message in place of M3 makes the client raise AttributeError. -/
theorem client_empty_runs {cfg : ClientCfg} {p : CP} {kp : KeyPair} (g : CGood cfg kp p) (s : ClientSt) :
    ∃ s', Call (Client.handshake cfg) s ((clientPre kp p).take 7 ++ [⟨.read, .ok []⟩])
      (.error .attributeError) s' := by
  obtain ⟨t1, h1, raw2, h2, k, p3, m3, x, t4, sm, c4⟩ := p
  obtain ⟨hkp, hpub, hsec, hsig, hm2, hz, hk, hp3, hp3h, hm3, hm3h, hsm⟩ := g
  simp only at *
  obtain ⟨m2, hm2⟩ := m2_ctor_of hm2
  let s1 : ClientSt := { s with m1 := some ⟨Spec.m1 t1 kp.pub none, some []⟩, m1Hash := h1 }
  let s2 : ClientSt := { s1 with m2 := some m2, m2Hash := h2 }
  let s3 : ClientSt := { s2 with sessionKey := k, chan := some (App.init (encInit k .client)) }
  let s4 : ClientSt := { s3 with chan := some { App.init (encInit k .client) with
    enc := { encInit k .client with lastFlag := false } } }
  have hv : Exec (Client.validate cfg s) [] (.ok kp, s) := by
    unfold Client.validate; rw [hkp]; exact .ret _
  have d1 : Exec (Client.doM1 kp s) [⟨.firstTime, .ok t1⟩, ⟨.hash (Spec.m1 t1 kp.pub none), .ok h1⟩,
      ⟨.write [Spec.m1 t1 kp.pub none] false, .ok ()⟩] (.ok (), s1) := by
    rw [c_doM1_run]
    simp only [Exec_op_cons, hpub, if_true, Exec_ret, s1, and_self]
  have d2 : Exec (Client.doM2 s1) [⟨.read, .ok raw2⟩, ⟨.report (leNat (field raw2 2 4)), .ok ()⟩,
      ⟨.hash raw2, .ok h2⟩] (.ok true, s2) := by
    rw [c_doM2_run]
    simp only [Exec_op_cons, hm2, hz, if_true, Exec_ret, s2, and_self]
  have d3 : Exec (Client.createEncryptedChannel kp s2) [⟨.beforenm (field raw2 6 32) kp.sec, .ok k⟩]
      (.ok (), s3) := by
    rw [c_create_run kp s2 raw2 m2 hm2 rfl]
    simp only [hsec, if_true, Exec_op_cons, hk, Exec_ret, s3, and_self]
  have d4 : Exec (Client.doM3 s3) [⟨.read, .ok []⟩] (.error .attributeError, s4) := by
    rw [c_doM3_run s3 (App.init (encInit k .client)) rfl, Enc_read_run, if_neg (by simp [App.init, encInit])]
    simp only [IT.op_bind, Exec_op_cons, openPkt, if_true, IT.ret_bind, Exec_ret, true_and]
    rfl
  refine ⟨s4, ?_⟩
  unfold Call Client.handshake
  simp only [clientPre, List.take_succ_cons, List.take_zero, List.cons_append, List.nil_append]
  refine (Exec_py_bind_err ..).2 (.inr ⟨[], kp, s, _, rfl, hv, ?_⟩)
  refine (Exec_py_bind_err ..).2 (.inr ⟨[_, _, _], (), s1, [_, _, _, _, _], rfl, d1, ?_⟩)
  refine (Exec_py_bind_err ..).2 (.inr ⟨[_, _, _], true, s2, [_, _], rfl, d2, ?_⟩)
  simp only [not_true_eq_false, if_false]
  refine (Exec_py_bind_err ..).2 (.inr ⟨[_], (), s3, [_], rfl, d3, ?_⟩)
  exact (Exec_py_bind_err ..).2 (.inl d4)

theorem C59_violated : ¬ C59_claim := by
  intro hc
  have gen : ∀ p : CP, CGood (exClient false) exEnc p → False := by
    intro p g
    obtain ⟨s', h⟩ := client_empty_runs g Client.init
    have := hc _ exEnc _ _ _ _ rfl g.pub g.sec g.sig ?_ ?_ h
    · simp at this
    · intro ev hev
      simp only [clientPre, List.take_succ_cons, List.take_zero, List.cons_append, List.nil_append,
        List.mem_cons, List.not_mem_nil, or_false] at hev
      rcases hev with rfl | rfl | rfl | rfl | rfl | rfl | rfl | rfl <;> exact ⟨_, rfl⟩
    · intro pk sk k hk
      simp only [clientPre, List.take_succ_cons, List.take_zero, List.cons_append, List.nil_append,
        List.mem_cons, List.not_mem_nil, or_false, Ev.mk.injEq, reduceCtorEq, false_and, false_or,
        EnvOp.beforenm.injEq] at hk
      obtain ⟨⟨rfl, rfl⟩, hk⟩ := hk
      have := eq_of_heq hk
      simp only [Except.ok.injEq] at this
      rw [this]
      exact g.k
  exact gen exCP (exClient_good false)

end Salt.Props
