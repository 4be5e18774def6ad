import Verif.Lemmas.Raises
import Verif.Lemmas.SessionRun
import Verif.Model.Time
import Verif.Props.Session1

/-!
# C40-C46, C48, C49, C59: refusals, A1 requests and failures of the handshake
-/

set_option linter.unusedSimpArgs false

namespace Salt.Props

open Salt Spec

theorem likeM1_iff (raw : Bytes) : LikeM1 raw ↔ raw.take 5 = m1Start.take raw.length := by
  have : ascii ['S', 'C', 'v', '2'] ++ [1] = m1Start := by decide
  unfold LikeM1; rw [this]

theorem ctor_of_likeM1 {raw : Bytes} (h : LikeM1 raw) : ∃ m, M1.ctor raw = .ok m := by
  rw [likeM1_iff] at h
  rcases m1_accept raw with ⟨h', -⟩ | ⟨-, h'⟩
  · exact h'
  · exact absurd h h'

theorem ctor_of_not_likeM1 {raw : Bytes} (h : ¬ LikeM1 raw) : M1.ctor raw = .error .badPeer := by
  rw [likeM1_iff] at h
  rcases m1_accept raw with ⟨-, h'⟩ | ⟨h', -⟩
  · exact absurd h' h
  · exact h'

theorem likeM1_of_ctor {raw : Bytes} {m : Packet} (h : M1.ctor raw = .ok m) : LikeM1 raw := by
  refine Decidable.byContradiction fun hn => ?_
  rw [ctor_of_not_likeM1 hn] at h
  simp at h

theorem namedServer_some {raw k : Bytes} (h : namedServer raw = some k) :
    leNat (field raw 5 1) % 2 = 1 ∧ field raw 42 32 = k := by
  unfold namedServer at h
  split at h
  · rename_i hb; exact ⟨hb, by simpa using h⟩
  · simp at h

/-! ### C40 -/

/-- C40, server: if the first message starts as an M1 and names another server, the handshake raises, and
writes nothing but possibly one M2 with the flags NoSuchServer and LastFlag and a zero key; if no operation
of the environment raises, it writes this M2 and raises NoSuchServer. -/
theorem C40_server_refuses {cfg : ServerCfg} {kp : KeyPair} (hkp : cfg.encKp = some kp) {s s' : ServerSt}
    {raw k : Bytes} (hm : LikeM1 raw) (hn : namedServer raw = some k) (hk : k ≠ cfg.sigKp.pub)
    {tr : List (Ev env)} {r : Except Err Unit}
    (h : Call (Server.handshake cfg) s (⟨.read, .ok raw⟩ :: tr) r s') :
    (∃ e, r = .error e) ∧
    (writesOf tr = [] ∨ ∃ t, firstTimesOf tr = [t] ∧ writesOf tr = [([Spec.m2 true true t (zeros 32)], true)]) ∧
    (NoneRaised tr → r = .error .noSuchServer ∧
      ∃ t, firstTimesOf tr = [t] ∧ writesOf tr = [([Spec.m2 true true t (zeros 32)], true)]) := by
  obtain ⟨m, hm⟩ := ctor_of_likeM1 hm
  obtain ⟨hb, hf⟩ := namedServer_some hn
  have hc : leNat (field raw 5 1) % 2 = 1 ∧ field raw 42 32 ≠ cfg.sigKp.pub := ⟨hb, by rw [hf]; exact hk⟩
  unfold Call Server.handshake Server.validate at h
  rw [hkp] at h
  simp only [Py.bind_run, Py.pure_run, IT.ret_bind, s_doM1_run, IT.op_bind, Exec_op_cons, hm, if_pos hc] at h
  rw [Exec_op] at h
  obtain ⟨r1, tr, rfl, h⟩ := h
  rcases r1 with e | _
  · simp only [IT.ret_bind, Exec_ret, Prod.mk.injEq] at h
    obtain ⟨rfl, rfl, -⟩ := h
    refine ⟨⟨_, rfl⟩, .inl rfl, fun hno => ?_⟩
    obtain ⟨a, ha⟩ := hno _ (List.mem_cons_self)
    simp at ha
  simp only [IT.op_bind] at h
  rw [Exec_op] at h
  obtain ⟨r1, tr, rfl, h⟩ := h
  rcases r1 with e | h1
  · simp only [IT.ret_bind, Exec_ret, Prod.mk.injEq] at h
    obtain ⟨rfl, rfl, -⟩ := h
    refine ⟨⟨_, rfl⟩, .inl rfl, fun hno => ?_⟩
    obtain ⟨a, ha⟩ := hno ⟨.hash raw, .error e⟩ (by simp)
    simp at ha
  simp only [IT.op_bind] at h
  rw [Exec_op] at h
  obtain ⟨r1, tr, rfl, h⟩ := h
  rcases r1 with e | t
  · simp only [IT.ret_bind, Exec_ret, Prod.mk.injEq] at h
    obtain ⟨rfl, rfl, -⟩ := h
    refine ⟨⟨_, rfl⟩, .inl rfl, fun hno => ?_⟩
    obtain ⟨a, ha⟩ := hno ⟨.firstTime, .error e⟩ (by simp)
    simp at ha
  simp only [IT.op_bind] at h
  rw [Exec_op] at h
  obtain ⟨r1, tr, rfl, h⟩ := h
  rcases r1 with e | _
  · simp only [IT.ret_bind, Exec_ret, Prod.mk.injEq] at h
    obtain ⟨rfl, rfl, -⟩ := h
    refine ⟨⟨_, rfl⟩, .inr ⟨t, rfl, rfl⟩, fun hno => ?_⟩
    obtain ⟨a, ha⟩ := hno ⟨.write [Spec.m2 true true t (zeros 32)] true, .error e⟩ (by simp)
    simp at ha
  · simp only [IT.ret_bind, Exec_ret, Prod.mk.injEq] at h
    obtain ⟨rfl, rfl, -⟩ := h
    exact ⟨⟨_, rfl⟩, .inr ⟨t, rfl, rfl⟩, fun _ => ⟨rfl, t, rfl, rfl⟩⟩

/-- An M1 for another server arrives. -/
example : ∃ raw k, LikeM1 raw ∧ namedServer raw = some k ∧ k ≠ (exServer false).sigKp.pub ∧
    ∃ tr r s', Call (Server.handshake (exServer false)) Server.init (⟨.read, .ok raw⟩ :: tr) r s' ∧
      NoneRaised tr := by
  refine ⟨Spec.m1 1 (List.replicate 32 6) (some (List.replicate 32 11)), List.replicate 32 11,
    by decide, by decide, by decide, ?_⟩
  obtain ⟨m, hm⟩ := ctor_of_likeM1 (raw := Spec.m1 1 (List.replicate 32 6) (some (List.replicate 32 11)))
    (by decide)
  have hc : leNat (field (Spec.m1 1 (List.replicate 32 6) (some (List.replicate 32 11))) 5 1) % 2 = 1 ∧
    field (Spec.m1 1 (List.replicate 32 6) (some (List.replicate 32 11))) 42 32 ≠ (exServer false).sigKp.pub := by
    decide
  generalize Spec.m1 1 (List.replicate 32 6) (some (List.replicate 32 11)) = raw at hm hc
  refine ⟨[⟨.report (leNat (field raw 6 4)), .ok ()⟩, ⟨.hash raw, .ok []⟩, ⟨.firstTime, .ok 1⟩,
    ⟨.write [Spec.m2 true true 1 (zeros 32)] true, .ok ()⟩], .error .noSuchServer,
    { Server.init with
      m1 := some m
      m1Hash := [] }, ?_, ?_⟩
  · unfold Call Server.handshake Server.validate
    rw [show (exServer false).encKp = some exEnc from rfl]
    simp only [Py.bind_run, Py.pure_run, IT.ret_bind, s_doM1_run, IT.op_bind, Exec_op_cons, hm, if_pos hc,
      Exec_ret, true_and]
  · intro ev hev
    simp only [List.mem_cons, List.not_mem_nil, or_false] at hev
    rcases hev with rfl | rfl | rfl | rfl <;> exact ⟨_, rfl⟩

/-- What a client does with its first message read. -/
theorem c_doM2_raise' {s s' : ClientSt} {tr : List (Ev env)} {e : Err}
    (h : Exec (Client.doM2 s) tr (.error e, s')) : Raised tr e ∨
      (e = .badPeer ∧ ∃ raw, M2.ctor raw = .error e ∧ readsOf tr = [raw]) ∨
      (e = .noSuchServer ∧ ∃ raw m, M2.ctor raw = .ok m ∧ leNat (field raw 1 1) % 2 = 1 ∧ readsOf tr = [raw]) := by
  rw [c_doM2_run, Exec_op] at h
  obtain ⟨r, tr, rfl, h⟩ := h
  rcases r with e | raw
  · simp only [Exec_ret, Prod.mk.injEq, Except.error.injEq] at h
    obtain ⟨rfl, rfl, -⟩ := h
    exact .inl ⟨_, List.mem_cons_self, rfl⟩
  simp only [] at h
  cases hm : M2.ctor raw with
  | error e =>
    rw [hm] at h
    simp only [Exec_ret, Prod.mk.injEq, Except.error.injEq] at h
    obtain ⟨rfl, rfl, -⟩ := h
    exact .inr (.inl ⟨(Props.C12_exceptions (fun _ => false) raw e).2.1 hm, raw, hm, rfl⟩)
  | ok m =>
    rw [hm] at h
    simp only [Exec_op] at h
    obtain ⟨r, tr, rfl, h⟩ := h
    rcases r with e | _
    · simp only [Exec_ret, Prod.mk.injEq, Except.error.injEq] at h
      obtain ⟨rfl, rfl, -⟩ := h
      exact .inl ⟨_, List.mem_cons_of_mem _ List.mem_cons_self, rfl⟩
    simp only [Exec_op] at h
    obtain ⟨r, tr, rfl, h⟩ := h
    rcases r with e | h2
    · simp only [Exec_ret, Prod.mk.injEq, Except.error.injEq] at h
      obtain ⟨rfl, rfl, -⟩ := h
      exact .inl ⟨_, List.mem_cons_of_mem _ (List.mem_cons_of_mem _ List.mem_cons_self), rfl⟩
    simp only [] at h
    split at h
    · simp at h
    · rename_i hb
      simp only [Exec_ret, Prod.mk.injEq, Except.error.injEq] at h
      obtain ⟨rfl, rfl, -⟩ := h
      exact .inr (.inr ⟨rfl, raw, m, hm, by omega, rfl⟩)

/-- C40, client: if the first message read is an M2 with the flag NoSuchServer, the client handshake raises;
if no operation of the environment raised, it raises NoSuchServer; it has written nothing but its M1 and
read nothing else. -/
theorem C40_client_refused {cfg : ClientCfg} {kp : KeyPair} (hkp : cfg.encKp = some kp) {s s' : ClientSt}
    {raw : Bytes} {rest : List Bytes} (hm : raw.head? = some 2) (hn : leNat (field raw 1 1) % 2 = 1)
    {tr : List (Ev env)} {r : Except Err Unit} (h : Call (Client.handshake cfg) s tr r s')
    (hr : readsOf tr = raw :: rest) :
    (∃ e, r = .error e) ∧ rest = [] ∧ (∃ t, writesOf tr = [([Spec.m1 t kp.pub none], false)]) ∧
    (NoneRaised tr → r = .error .noSuchServer) := by
  obtain ⟨m, hm⟩ := m2_ctor_of (.inr hm)
  cases r with
  | ok u =>
    obtain ⟨kp, t1, h1, raw2, m2, h2, k, p3, m3, m3p, x, t4, sm, tail, -, -, -, -, hz, -, -, -, -, -,
      -, -, rfl, -⟩ := (client_ok h).ex
    simp only [List.cons_append, readsOf, List.cons.injEq] at hr
    rw [hr.1] at hz
    omega
  | error e =>
  unfold Call Client.handshake at h
  rw [Exec_py_bind_err] at h
  rcases h with h0 | ⟨tr0, kp0, s0, tr, rfl, h0, h⟩
  · unfold Client.validate at h0
    rw [hkp] at h0
    simp at h0
  unfold Client.validate at h0
  rw [hkp] at h0
  simp only [Py.pure_run, Exec_ret, Prod.mk.injEq, Except.ok.injEq] at h0
  obtain ⟨rfl, rfl, rfl⟩ := h0
  rw [Exec_py_bind_err] at h
  rcases h with h | ⟨tr1, _, s1, tr, rfl, h1, h⟩
  · exfalso
    obtain ⟨t1, h1, hc⟩ := c_doM1_err h
    rcases hc.cons_inv with rfl | ⟨e, rfl⟩ | ⟨tr, rfl, hc1⟩
    · simp [readsOf] at hr
    · simp [readsOf] at hr
    rcases hc1.cons_inv with rfl | ⟨e, rfl⟩ | ⟨tr, rfl, hc2⟩
    · simp [readsOf] at hr
    · simp [readsOf] at hr
    rcases hc2.cons_inv with rfl | ⟨e, rfl⟩ | ⟨tr, rfl, hc3⟩
    · simp [readsOf] at hr
    · simp [readsOf] at hr
    · rw [hc3.nil_inv] at hr; simp [readsOf] at hr
  obtain ⟨t1, hh1, hpub, rfl, rfl⟩ := c_doM1_ok h1
  rw [Exec_py_bind_err] at h
  rcases h with h | ⟨tr2, _, s1, tr, rfl, h2, h⟩
  · have hw : writesOf tr = [] ∧ (∃ x, readsOf tr = [x] ∨ readsOf tr = []) := by
      obtain ⟨raw', h2, hc⟩ := c_doM2_err h
      rcases hc.cons_inv with rfl | ⟨e, rfl⟩ | ⟨tr, rfl, hc1⟩
      · exact ⟨rfl, [], .inr rfl⟩
      · exact ⟨rfl, [], .inr rfl⟩
      rcases hc1.cons_inv with rfl | ⟨e, rfl⟩ | ⟨tr, rfl, hc2⟩
      · exact ⟨rfl, raw', .inl rfl⟩
      · exact ⟨rfl, raw', .inl rfl⟩
      rcases hc2.cons_inv with rfl | ⟨e, rfl⟩ | ⟨tr, rfl, hc3⟩
      · exact ⟨rfl, raw', .inl rfl⟩
      · exact ⟨rfl, raw', .inl rfl⟩
      · rw [hc3.nil_inv]; exact ⟨rfl, raw', .inl rfl⟩
    obtain ⟨hw, y, hy⟩ := hw
    simp only [List.nil_append, List.cons_append, readsOf] at hr
    refine ⟨⟨e, rfl⟩, ?_, ⟨t1, by simp only [List.nil_append, List.cons_append, writesOf, hw]⟩, fun hno => ?_⟩
    · rcases hy with hy | hy
      · rw [hy] at hr; simp at hr; exact hr.2
      · rw [hy] at hr; simp at hr
    · rcases c_doM2_raise' h with ⟨ev, h1, h2⟩ | ⟨rfl, raw', h1, h2⟩ | ⟨rfl, -⟩
      · obtain ⟨a, ha⟩ := hno ev (by simp [h1])
        rw [h2] at ha
        simp at ha
      · rw [hr] at h2
        simp only [List.cons.injEq] at h2
        rw [← h2.1, hm] at h1
        simp at h1
      · rfl
  · exfalso
    obtain ⟨raw2, m2, hh2, hm2, hz, rfl, rfl, rfl⟩ := c_doM2_ok h2
    simp only [List.nil_append, List.cons_append, readsOf, List.cons.injEq] at hr
    rw [hr.1] at hz
    omega

/-- The refusal of C40 arrives at a client. -/
example : ∃ raw rest tr r s', raw.head? = some 2 ∧ leNat (field raw 1 1) % 2 = 1 ∧
    Call (Client.handshake (exClient false)) Client.init tr r s' ∧ readsOf tr = raw :: rest ∧ NoneRaised tr := by
  obtain ⟨m, hm⟩ := m2_ctor_of (raw := Spec.m2 true true 1 (zeros 32)) (.inr rfl)
  have hn : ¬ leNat (field (Spec.m2 true true 1 (zeros 32)) 1 1) % 2 = 0 := by decide
  refine ⟨Spec.m2 true true 1 (zeros 32), [], [⟨.firstTime, .ok 1⟩, ⟨.hash (Spec.m1 1 exEnc.pub none), .ok []⟩,
    ⟨.write [Spec.m1 1 exEnc.pub none] false, .ok ()⟩, ⟨.read, .ok (Spec.m2 true true 1 (zeros 32))⟩,
    ⟨.report (leNat (field (Spec.m2 true true 1 (zeros 32)) 2 4)), .ok ()⟩,
    ⟨.hash (Spec.m2 true true 1 (zeros 32)), .ok []⟩], .error .noSuchServer,
    { Client.init with
      m1 := some ⟨Spec.m1 1 exEnc.pub none, some []⟩
      m1Hash := []
      m2 := some m
      m2Hash := [] }, rfl, by decide, ?_, rfl, ?_⟩
  · unfold Call Client.handshake Client.validate
    rw [show (exClient false).encKp = some exEnc from rfl]
    have hp : exEnc.pub.length = 32 := by decide
    simp only [Py.bind_run, Py.pure_run, IT.ret_bind, c_doM1_run, c_doM2_run, IT.op_bind, Exec_op_cons, hp,
      if_true, hm, if_neg hn, Exec_ret, true_and]
  · intro ev hev
    simp only [List.mem_cons, List.not_mem_nil, or_false] at hev
    rcases hev with rfl | rfl | rfl | rfl | rfl | rfl <;> exact ⟨_, rfl⟩

/-- C40: a message that starts as an M1 and names no server, or the right one, is never refused: no message
is marked last, and NoSuchServer is raised only if the environment raised it. -/
theorem C40_proceeds {cfg : ServerCfg} {kp : KeyPair} (hkp : cfg.encKp = some kp) {s s' : ServerSt}
    {raw : Bytes} (hm : LikeM1 raw) (hn : namedServer raw = none ∨ namedServer raw = some cfg.sigKp.pub)
    {tr : List (Ev env)} {r : Except Err Unit}
    (h : Call (Server.handshake cfg) s (⟨.read, .ok raw⟩ :: tr) r s') :
    (∀ w ∈ writesOf tr, w.2 = false) ∧ (r = .error .noSuchServer → Raised tr .noSuchServer) := by
  have hz : ¬ (leNat (field raw 5 1) % 2 = 1 ∧ field raw 42 32 ≠ cfg.sigKp.pub) := by
    unfold namedServer at hn
    rintro ⟨h1, h2⟩
    rw [if_pos h1] at hn
    simp [h2] at hn
  obtain ⟨m, hm⟩ := ctor_of_likeM1 hm
  constructor
  · generalize ht : (⟨.read, .ok raw⟩ :: tr : List (Ev env)) = t at h
    rcases server_cut hkp h with ⟨p, hcut, -, -⟩ | ⟨p, e, m', hm', hf, hk, hcut, -, -⟩ |
      ⟨raw', e, x, hm', -, -⟩ | ⟨raw', x, a, hm', -, r, -⟩
    · have key : ∀ w ∈ writesOf t, w.2 = false := by
        intro w hw
        have hmem : ∀ (l : List (Ev env)) (ms : List Bytes) (b : Bool), (ms, b) ∈ writesOf l →
            ∃ r, ⟨EnvOp.write ms b, r⟩ ∈ l := by
          intro l ms b
          induction l with
          | nil => simp [writesOf]
          | cons ev l ih =>
            obtain ⟨op, r⟩ := ev
            cases op <;> simp only [writesOf, List.mem_cons] <;> intro h
            case write ms' b' =>
              rcases h with h | h
              · cases h; exact ⟨r, .inl rfl⟩
              · obtain ⟨r', h'⟩ := ih h; exact ⟨r', .inr h'⟩
            all_goals (obtain ⟨r', h'⟩ := ih h; exact ⟨r', .inr h'⟩)
        obtain ⟨ms, b⟩ := w
        obtain ⟨r, hr⟩ := hmem t ms b hw
        have := hcut.mem_op hr
        obtain ⟨ev, h1, h2⟩ := this
        simp only at h2 ⊢
        simp only [serverFull, serverHead, serverTail, serverPlain, serverBuffered] at h1
        split at h1 <;>
          simp only [List.cons_append, List.nil_append, List.mem_cons, List.not_mem_nil, or_false] at h1 <;>
          (rcases h1 with rfl | rfl | rfl | rfl | rfl | rfl | rfl | rfl | rfl | rfl | rfl | rfl | rfl | rfl | rfl) <;>
          simp_all
      intro w hw
      exact key w (by rw [← ht]; exact hw)
    · exfalso
      unfold serverRefuse serverHead at hcut
      simp only [List.cons_append, List.nil_append] at hcut
      rcases hcut.cons_inv with rfl | ⟨e, rfl⟩ | ⟨tr, rfl, hc1⟩
      · simp at ht
      · simp at ht
      · simp only [List.cons.injEq, Ev.mk.injEq, heq_eq_eq, Except.ok.injEq, true_and] at ht
        rw [ht.1] at hz
        exact hz ⟨hf, hk⟩
    · simp only [List.cons.injEq, Ev.mk.injEq, heq_eq_eq, Except.ok.injEq, true_and] at ht
      rw [ht.1, hm'] at hm
      simp at hm
    · simp only [List.cons.injEq, Ev.mk.injEq, heq_eq_eq, Except.ok.injEq, true_and] at ht
      rw [ht.1, hm'] at hm
      simp at hm
  · rintro rfl
    rcases server_raises hkp h with hr | ⟨-, raw', m', h1, t, hm', hf, hk, heq⟩ | ⟨h0, -⟩
    · cases hr with
      | raised hr =>
        obtain ⟨ev, h1, h2⟩ := hr
        rcases List.mem_cons.1 h1 with rfl | h1
        · simp at h2
        · exact ⟨ev, h1, h2⟩
    · simp only [List.cons.injEq, Ev.mk.injEq, heq_eq_eq, Except.ok.injEq, true_and] at heq
      rw [heq.1] at hz
      exact absurd ⟨hf, hk⟩ hz
    · simp at h0

/-- An M1 naming the server leads to a completed handshake; see also `server_runs`. -/
example : LikeM1 exSP.raw1 ∧ namedServer exSP.raw1 = some (exServer true).sigKp.pub ∧
    ∃ tr s', Call (Server.handshake (exServer true)) Server.init (⟨.read, .ok exSP.raw1⟩ :: tr) (.ok ()) s' := by
  refine ⟨by decide, by decide, ?_⟩
  obtain ⟨s', h⟩ := server_runs (exServer_good true) Server.init
  exact ⟨_, s', h⟩

end Salt.Props
