import Verif.Lemmas.SimLog
import Verif.Props.AppChannel

/-!
# Sessions of an honest client with an honest server
-/

set_option linter.unusedSimpArgs false

namespace Salt

open Spec Props

theorem Local.report' {L : Lib} {c : Clock} {i j t : Nat} {tr : List (Ev env)} (h : c.report i t = .ok ())
    (h' : Local L c (i + 1) tr j) : Local L c i (⟨.report t, .ok ()⟩ :: tr) j := by
  have := Local.report t h'; rwa [h] at this

theorem Local.check' {L : Lib} {c : Clock} {i j t : Nat} {tr : List (Ev env)} (h : c.check i t = .ok ())
    (h' : Local L c (i + 1) tr j) : Local L c i (⟨.check t, .ok ()⟩ :: tr) j := by
  have := Local.check t h'; rwa [h] at this

/-- The times of a session between a client with clock `cc` and a server with clock `cs`. -/
def sessTimes (cc cs : Clock) (b2 : Bool) : Times where
  t1 := cc.first 0
  t0 := cs.first 1
  t2 := if b2 then cs.first 2 else cs.first 1
  t3 := if b2 then cs.first 2 else cs.now 2
  t4 := cc.now 3

section
variable {L : Lib} {cc cs : Clock} {cfgC : ClientCfg} {cfgS : ServerCfg} {kc ks : KeyPair} {α β : Type}

theorem client_perfN (S : Setup L cc cs cfgC cfgS kc ks) :
    ∃ s, CDone cfgC (HS.cp L kc ks cfgC.sigKp cfgS.sigKp (sessTimes cc cs cfgS.bufferM2)) s ∧
    Perf (partyN L cc (Client.handshake cfgC Client.init) 0)
      ([⟨AppOp.write [HS.m1 kc (sessTimes cc cs cfgS.bufferM2)] false, .ok ()⟩,
        ⟨AppOp.read, .ok (HS.m2 ks (sessTimes cc cs cfgS.bufferM2))⟩,
        ⟨AppOp.read, .ok (Spec.encrypted false (HS.c3 L kc ks cfgS.sigKp (sessTimes cc cs cfgS.bufferM2)))⟩] ++
       if cfgC.bufferM4 then [] else
        [⟨AppOp.write [Spec.encrypted false (HS.c4 L kc ks cfgC.sigKp (sessTimes cc cs cfgS.bufferM2))] false, .ok ()⟩])
      (.ret ((.ok (), s), 4)) := by
  have hh := S.honest
  generalize ht : sessTimes cc cs cfgS.bufferM2 = t
  obtain ⟨s, h1, h2⟩ := client_runs' (HS.cgood t hh cfgC S.encC rfl) Client.init
  refine ⟨s, h2, ?_⟩
  have ha := HS.c_answered t hh cfgC rfl
  have e1 : t.t1 = cc.first 0 := by rw [← ht]; rfl
  have e4 : t.t4 = cc.now 3 := by rw [← ht]; rfl
  have r1 : cc.report 1 (leNat (field (HS.m2 ks t) 2 4)) = .ok () := by
    rw [(HS.m2_field t hh).2, ← ht]
    cases hb : cfgS.bufferM2 <;> exact S.acceptsC.first _ _
  have r2 : cc.check 2 (leNat (field (HS.m3 L kc ks cfgS.sigKp t) 2 4)) = .ok () := by
    rw [(HS.m3_field t hh).2.1, ← ht]
    cases hb : cfgS.bufferM2
    · exact S.acceptsC.check _ _
    · exact S.acceptsC.checkFirst _ _
  simp only [clientPre, clientPost, List.cons_append, List.nil_append, List.forall_mem_cons] at ha
  obtain ⟨-, a2, -, -, -, a6, a7, -, a9, -, a11, -, a13, a14, -, -⟩ := ha
  have hpre : ∀ {tr j}, Local L cc 3 tr j →
      Local L cc 0 (clientPre kc (HS.cp L kc ks cfgC.sigKp cfgS.sigKp t) ++ tr) j := by
    intro tr j hl
    have : Local L cc 0 (⟨.firstTime, .ok (cc.first 0)⟩ :: ((clientPre kc (HS.cp L kc ks cfgC.sigKp cfgS.sigKp t)).drop 1 ++ tr)) j :=
      .firstTime (.crypto _ rfl a2 (.write _ _ _ (.read _ (.report' r1 (.crypto _ rfl a6 (.crypto _ rfl a7 (.read _
        (.crypto _ rfl a9 (.check' r2 (.crypto _ rfl a11 hl))))))))))
    rw [← e1] at this
    exact this
  have htime : ∀ {tr j}, Local L cc 4 tr j → Local L cc 3 (⟨.time, .ok t.t4⟩ :: tr) j := by
    intro tr j hl; rw [e4]; exact .time hl
  cases hb : cfgC.bufferM4 with
  | true =>
    simp only [hb, if_true] at h1 ⊢
    exact partyN_perf (hpre (htime (.crypto _ rfl a13 (.nil 4)))) h1
  | false =>
    simp only [hb, Bool.false_eq_true, if_false] at h1 ⊢
    exact partyN_perf (hpre (htime (.crypto _ rfl a13 (.crypto _ rfl a14 (.write _ _ _ (.nil 4)))))) h1

theorem client_perf (S : Setup L cc cs cfgC cfgS kc ks) (f : Except Err Unit × ClientSt → IT env α) :
    ∃ s, CDone cfgC (HS.cp L kc ks cfgC.sigKp cfgS.sigKp (sessTimes cc cs cfgS.bufferM2)) s ∧
    Perf (party L cc ((Client.handshake cfgC Client.init).bind f) 0)
      ([⟨AppOp.write [HS.m1 kc (sessTimes cc cs cfgS.bufferM2)] false, .ok ()⟩,
        ⟨AppOp.read, .ok (HS.m2 ks (sessTimes cc cs cfgS.bufferM2))⟩,
        ⟨AppOp.read, .ok (Spec.encrypted false (HS.c3 L kc ks cfgS.sigKp (sessTimes cc cs cfgS.bufferM2)))⟩] ++
       if cfgC.bufferM4 then [] else
        [⟨AppOp.write [Spec.encrypted false (HS.c4 L kc ks cfgC.sigKp (sessTimes cc cs cfgS.bufferM2))] false, .ok ()⟩])
      (party L cc (f (.ok (), s)) 4) := by
  obtain ⟨s, h1, h2⟩ := client_perfN S
  refine ⟨s, h1, ?_⟩
  rw [party_bind]
  exact h2.bind _

/-- The calls of the server before it waits for M4. -/
def serverCalls (L : Lib) (cc cs : Clock) (cfgS : ServerCfg) (kc ks : KeyPair) : List (Ev appSig) :=
  let t := sessTimes cc cs cfgS.bufferM2
  ⟨AppOp.read, .ok (HS.m1 kc t)⟩ ::
    if cfgS.bufferM2 then
      [⟨AppOp.write [HS.m2 ks t, Spec.encrypted false (HS.c3 L kc ks cfgS.sigKp t)] false, .ok ()⟩]
    else [⟨AppOp.write [HS.m2 ks t] false, .ok ()⟩,
      ⟨AppOp.write [Spec.encrypted false (HS.c3 L kc ks cfgS.sigKp t)] false, .ok ()⟩]

theorem server_perf (S : Setup L cc cs cfgC cfgS kc ks) (f : Except Err Unit × ServerSt → IT env β) (t4 : Nat)
    (h4 : cs.check 3 (t4 % 2 ^ 32) = .ok ()) (fl : Bool) :
    ∃ s, SDone (HS.sp L kc ks cfgC.sigKp cfgS.sigKp { sessTimes cc cs cfgS.bufferM2 with t4 := t4 } fl) s ∧
    Perf (party L cs ((Server.handshake cfgS Server.init).bind f) 0)
      (serverCalls L cc cs cfgS kc ks ++ [⟨AppOp.read, .ok (Spec.encrypted fl (HS.c4 L kc ks cfgC.sigKp
        { sessTimes cc cs cfgS.bufferM2 with t4 := t4 }))⟩])
      (party L cs (f (.ok (), s)) 4) := by
  have hh := S.honest
  generalize ht : ({ sessTimes cc cs cfgS.bufferM2 with t4 := t4 } : Times) = t
  obtain ⟨s, h1, h2⟩ := server_runs' (HS.sgood t hh fl cfgS S.encS rfl) Server.init
  refine ⟨s, h2, ?_⟩
  have ha := HS.s_answered t hh fl cfgS rfl (by intro hb; rw [← ht]; simp [sessTimes, hb])
  have r1 : cs.report 0 (leNat (field (HS.m1 kc t) 6 4)) = .ok () := by
    rw [(HS.m1_field t hh).2, ← ht]; exact S.acceptsS.first _ _
  have r2 : cs.check 3 (leNat (field (HS.m4 L kc ks cfgC.sigKp t) 2 4)) = .ok () := by
    rw [(HS.m4_field t hh).2.1, ← ht]; exact h4
  cases hb : cfgS.bufferM2 with
  | false =>
    have e2 : t.t2 = cs.first 1 := by rw [← ht]; simp [sessTimes, hb]
    have e3 : t.t3 = cs.now 2 := by rw [← ht]; simp [sessTimes, hb]
    simp only [serverFull, serverHead, serverPlain, serverTail, hb, Bool.false_eq_true, if_false,
      List.cons_append, List.nil_append, List.forall_mem_cons] at ha h1
    obtain ⟨-, -, a3, -, -, a6, a7, -, a9, a10, -, -, a13, -, a15, -⟩ := ha
    have ft : ∀ {tr j}, Local L cs 2 tr j → Local L cs 1 (⟨.firstTime, .ok t.t2⟩ :: tr) j := by
      intro tr j hl; rw [e2]; exact .firstTime hl
    have tt : ∀ {tr j}, Local L cs 3 tr j → Local L cs 2 (⟨.time, .ok t.t3⟩ :: tr) j := by
      intro tr j hl; rw [e3]; exact .time hl
    have := party_perf (.read _ (.report' r1 (.crypto _ rfl a3 (ft (.write _ _ _ (.crypto _ rfl a6 (.crypto _ rfl a7
      (tt (.crypto _ rfl a9 (.crypto _ rfl a10 (.write _ _ _ (.read _ (.crypto _ rfl a13 (.check' r2
      (.crypto _ rfl a15 (.nil 4)))))))))))))))) h1 f
    have hc : serverCalls L cc cs cfgS kc ks = [⟨AppOp.read, .ok (HS.m1 kc t)⟩,
      ⟨AppOp.write [HS.m2 ks t] false, .ok ()⟩,
      ⟨AppOp.write [Spec.encrypted false (HS.c3 L kc ks cfgS.sigKp t)] false, .ok ()⟩] := by
      rw [← ht]; unfold serverCalls; rw [hb]; rfl
    rw [hc]
    exact this
  | true =>
    have e0 : t.t0 = cs.first 1 := by rw [← ht]; rfl
    have e2 : t.t2 = cs.first 2 := by rw [← ht]; simp [sessTimes, hb]
    simp only [serverFull, serverHead, serverBuffered, serverTail, hb, if_true,
      List.cons_append, List.nil_append, List.forall_mem_cons] at ha h1
    obtain ⟨-, -, a3, -, a5, -, a7, a8, a9, -, -, a12, -, a14, -⟩ := ha
    have f0 : ∀ {tr j}, Local L cs 2 tr j → Local L cs 1 (⟨.firstTime, .ok t.t0⟩ :: tr) j := by
      intro tr j hl; rw [e0]; exact .firstTime hl
    have f2 : ∀ {tr j}, Local L cs 3 tr j → Local L cs 2 (⟨.firstTime, .ok t.t2⟩ :: tr) j := by
      intro tr j hl; rw [e2]; exact .firstTime hl
    have := party_perf (.read _ (.report' r1 (.crypto _ rfl a3 (f0 (.crypto _ rfl a5 (f2 (.crypto _ rfl a7
      (.crypto _ rfl a8 (.crypto _ rfl a9 (.write _ _ _ (.read _ (.crypto _ rfl a12 (.check' r2
      (.crypto _ rfl a14 (.nil 4))))))))))))))) h1 f
    have hc : serverCalls L cc cs cfgS kc ks = [⟨AppOp.read, .ok (HS.m1 kc t)⟩,
      ⟨AppOp.write [HS.m2 ks t, Spec.encrypted false (HS.c3 L kc ks cfgS.sigKp t)] false, .ok ()⟩] := by
      rw [← ht]; unfold serverCalls; rw [hb]; rfl
    rw [hc]
    exact this

theorem serverCalls_moves : Moves (serverCalls L cc cs cfgS kc ks) [HS.m1 kc (sessTimes cc cs cfgS.bufferM2)]
    [HS.m2 ks (sessTimes cc cs cfgS.bufferM2),
      Spec.encrypted false (HS.c3 L kc ks cfgS.sigKp (sessTimes cc cs cfgS.bufferM2))] [] := by
  unfold serverCalls
  cases cfgS.bufferM2 with
  | true => exact .read _ (.write _ _ (.nil _))
  | false => exact .read _ (.write _ _ (.write _ _ (.nil _)))

/-- The handshake up to M4: reading goes first. -/
theorem shake_eager {α β : Type} {A u u' : IT appSig α} {B v : IT appSig β} {m1 m2 c3 : Bytes} {b2 : Bool}
    (p1 : Perf A [⟨AppOp.write [m1] false, .ok ()⟩] u) (p2 : Perf u [⟨AppOp.read, .ok m2⟩, ⟨AppOp.read, .ok c3⟩] u')
    (p3 : Perf B (⟨AppOp.read, .ok m1⟩ :: if b2 then [⟨AppOp.write [m2, c3] false, .ok ()⟩]
      else [⟨AppOp.write [m2] false, .ok ()⟩, ⟨AppOp.write [c3] false, .ok ()⟩]) v) :
    Net.RunE (⟨A, B, [], []⟩ : Net α β) ⟨u', v, [], []⟩ := by
  obtain ⟨k1, rfl, rfl⟩ := p1.single
  obtain ⟨w, p2, p2'⟩ := Perf.split (tr1 := [_]) p2
  obtain ⟨k2, e2, rfl⟩ := p2.single
  obtain ⟨k3, e3, rfl⟩ := p2'.single
  obtain ⟨w', p3, p3'⟩ := Perf.split (tr1 := [_]) p3
  obtain ⟨k4, rfl, rfl⟩ := p3.single
  refine .step (.aWrite [m1] false k1 (not_writing_read _)) (.step (.bRead m1 k4) ?_)
  rw [e2]
  cases b2 with
  | true =>
    obtain ⟨k5, e5, rfl⟩ := p3'.single
    rw [e5]
    refine .step (.bWrite _ _ k5 (not_writing_read _)) (.step (.aRead m2 k2) ?_)
    rw [e3]
    exact .one (.aRead c3 k3)
  | false =>
    obtain ⟨w'', p4, p5⟩ := Perf.split (tr1 := [_]) p3'
    obtain ⟨k5, e5, rfl⟩ := p4.single
    obtain ⟨k6, e6, rfl⟩ := p5.single
    rw [e5]
    refine .step (.bWrite _ _ k5 (not_writing_read _)) (.step (.aRead m2 k2) ?_)
    rw [e3, e6]
    exact .step (.bWrite _ _ k6 (not_writing_read _)) (.one (.aRead c3 k3))

/-- The client's packets with M4 first. -/
theorem m4_eager {α β : Type} {u u' : IT appSig α} {v v' : IT appSig β} {c4 : Bytes} {ps : List Bytes} {l : Bool}
    (p1 : Perf u [⟨AppOp.write (c4 :: ps) l, .ok ()⟩] u') (p2 : Perf v [⟨AppOp.read, .ok c4⟩] v') :
    Net.RunE (⟨u, v, [], []⟩ : Net α β) ⟨u', v', ps, []⟩ := by
  obtain ⟨k1, rfl, rfl⟩ := p1.single
  obtain ⟨k2, rfl, rfl⟩ := p2.single
  exact .step (.aWrite _ l k1 (not_writing_read _)) (.one (.bRead c4 k2))

/-- The messages of the handshake have the property `p`, and so have the messages of the call that carries M4, if the
call has the property `P`. -/
structure ShakeSized (L : Lib) (cc cs : Clock) (cfgC : ClientCfg) (cfgS : ServerCfg) (kc ks : KeyPair)
    (P : List Bytes → Prop) (p : Bytes → Prop) : Prop where
  m1 : p (HS.m1 kc (sessTimes cc cs cfgS.bufferM2))
  m2 : p (HS.m2 ks (sessTimes cc cs cfgS.bufferM2))
  c3 : p (Spec.encrypted false (HS.c3 L kc ks cfgS.sigKp (sessTimes cc cs cfgS.bufferM2)))
  c4 : p (Spec.encrypted false (HS.c4 L kc ks cfgC.sigKp { sessTimes cc cs cfgS.bufferM2 with t4 := cc.now 3 }))
  write : ∀ (s : AppSt) t (sm : Bytes), s.bufferedM4 = some ⟨Spec.m4 t cfgC.sigKp.pub (sm.take 64), none⟩ → ∀ ms l i tr w' ps j,
    P ms → Exec (App.write ms l s) tr (.ok (), w') → Local L cc i tr j →
    callsOf tr = [⟨AppOp.write ps l, .ok ()⟩] → ∀ m ∈ ps, p m

theorem session_sim (S : Setup L cc cs cfgC cfgS kc ks) (pA : IT appSig α) (pB : IT appSig β) {n : Nat}
    (hn : n ≤ 2 ^ 62) (hA : Modest 65535 pA n) (hB : Modest 65535 pB n)
    (hb : cfgC.bufferM4 = true → ∃ ms l k, pA = .op (S := appSig) (.write ms l) k)
    {P : List Bytes → Prop} {p : Bytes → Prop} (hp : ShakeSized L cc cs cfgC cfgS kc ks P p) {ny : Nat} {y : Net α β}
    (hy : Net.RunC P ny (Net.start pA pB) y) (hst : Net.Stuck y) :
    ∃ ny' x' N X, Net.RunC P ny' x' y ∧ Net.RunC (fun ms => ∀ m ∈ ms, p m) N
      (Net.start (party L cc (clientSession cfgC pA) 0) (party L cs (serverSession cfgS pB) 0)) X ∧
      (Net.RunE (Net.start (party L cc (clientSession cfgC pA) 0) (party L cs (serverSession cfgS pB) 0)) X ∧
        (∃ m, Net.Run m (Net.start pA pB) x') ∧ (cfgC.bufferM4 = false → x' = Net.start pA pB)) ∧
      ∃ (sC : ClientSt) (sS : ServerSt), (∃ c0 lA lB rawA z, z.net = x' ∧
        (∀ {ca cb y'}, AppNet.Logged (AppNet.start pA pB) ca cb y' → Net.Stuck y'.net → ∃ ca', ca = c0 ++ ca' ∧
          AppNet.Logged z ca' cb y') ∧
        Net.Logged (Net.start (party L cc (clientSession cfgC pA) 0) (party L cs (serverSession cfgS pB) 0)) lA lB X ∧
        messages lA = HS.m1 kc (sessTimes cc cs cfgS.bufferM2) :: rawA ∧
        SealedAll L (HS.k L kc ks) 1 ((false, HS.m4 L kc ks cfgC.sigKp { sessTimes cc cs cfgS.bufferM2 with
          t4 := cc.now (if cfgC.bufferM4 then 4 else 3) }) :: packetsOf cc c0) rawA ∧
        messages lB = [HS.m2 ks (sessTimes cc cs cfgS.bufferM2),
          Spec.encrypted false (HS.c3 L kc ks cfgS.sigKp (sessTimes cc cs cfgS.bufferM2))] ∧
        LSim L (HS.k L kc ks) cc cs
        (fun (b, c') => .ret (Except.ok (ε := Err) b, { sC with chan := some c' })) (fun (b, c') => .ret (.ok b, { sS with chan := some c' }))
        z X (1 + 2 * ((packetsOf cc c0).length + 1)) 4) ∧
      (sC.sessionKey = HS.k L kc ks ∧ sC.m1Hash = HS.h1 L kc (sessTimes cc cs cfgS.bufferM2) ∧
        sC.m2Hash = HS.h2 L ks (sessTimes cc cs cfgS.bufferM2) ∧ sC.m3.map M34.sigKey = some cfgS.sigKp.pub) ∧
      (sS.sessionKey = HS.k L kc ks ∧ sS.m1Hash = HS.h1 L kc (sessTimes cc cs cfgS.bufferM2) ∧
        sS.m2Hash = HS.h2 L ks (sessTimes cc cs cfgS.bufferM2) ∧ sS.clientSigKey = some cfgC.sigKp.pub) := by
  have hh := S.honest
  obtain ⟨sC, dC, pC⟩ := client_perf S (clientAfter pA)
  have kC : sC.sessionKey = HS.k L kc ks ∧ sC.m1Hash = HS.h1 L kc (sessTimes cc cs cfgS.bufferM2) ∧
      sC.m2Hash = HS.h2 L ks (sessTimes cc cs cfgS.bufferM2) ∧ sC.m3.map M34.sigKey = some cfgS.sigKp.pub := by
    refine ⟨dC.key, dC.h1, dC.h2, ?_⟩
    obtain ⟨m3p, e1, e2⟩ := dC.m3
    rw [e1, Option.map_some, (m34_fields 3 rfl e2).2.2.1]
    exact congrArg some (HS.m3_field _ hh).1
  have sP := server_perf S (serverAfter pB)
  obtain ⟨fC, hcC⟩ := dC.chan
  cases hb4 : cfgC.bufferM4 with
  | false =>
    obtain ⟨sS, dS, pS⟩ := sP (cc.now 3) (S.acceptsS.check _ _) false
    obtain ⟨fS, hcS⟩ := dS.chan
    rw [hb4] at pC hcC
    simp only [Bool.false_eq_true, if_false] at pC hcC
    simp only [clientAfter, serverAfter, hcC, hcS] at pC pS
    obtain ⟨u, pC1, pC2⟩ := Perf.split (tr1 := [_]) pC
    obtain ⟨v, pS1, pS2⟩ := pS.split
    have r1 := Net.runC_a pC1 (.frame_write _ _ []) (List.forall_mem_singleton.2 hp.m1) (party L cs (serverSession cfgS pB) 0) []
    have r2 := Net.runC_b pS1 serverCalls_moves (List.forall_mem_cons.2 ⟨hp.m2, List.forall_mem_singleton.2 hp.c3⟩) u []
    have r3 := Net.runC_a pC2 (.read _ (.read _ (.frame_write _ _ []))) (List.forall_mem_singleton.2 hp.c4) v []
    have r4 := Net.runC_b (p := p) pS2 (.read _ (.nil [])) (by simp) (party L cc ((App.run pA
      ⟨⟨HS.k L kc ks, zeros 8, 4, 3, [], fC⟩, none, []⟩).bind fun (b, c') => .ret (Except.ok (ε := Err) b, { sC with chan := some c' })) 4) []
    obtain ⟨l1, k1, g1⟩ := Net.logged_a pC1 (.frame_write _ _ []) (party L cs (serverSession cfgS pB) 0) []
    obtain ⟨l2, k2, g2⟩ := Net.logged_b pS1 serverCalls_moves u []
    obtain ⟨l3, k3, g3⟩ := Net.logged_a pC2 (.read _ (.read _ (.frame_write _ _ []))) v []
    obtain ⟨l4, k4, g4⟩ := Net.logged_b pS2 (.read _ (.nil [])) (party L cc ((App.run pA
      ⟨⟨HS.k L kc ks, zeros 8, 4, 3, [], fC⟩, none, []⟩).bind fun (b, c') => .ret (Except.ok (ε := Err) b, { sC with chan := some c' })) 4) []
    have hg := ((g1.trans g2).trans g3).trans g4
    obtain ⟨u', pC3, pC4⟩ := Perf.split (tr1 := [_, _]) pC2
    have hE := (shake_eager pC1 pC3 pS1).trans (m4_eager pC4 pS2)
    refine ⟨ny, Net.start pA pB, _, _, hy, ((r1.trans r2).trans r3).trans r4, ⟨hE, ⟨0, .refl _⟩, fun _ => rfl⟩, sC, sS, ⟨[], _, _, _, AppNet.start pA pB, rfl,
      fun h _ => ⟨_, rfl, h⟩, hg, ?_,
      .cons false _ _ (HS.hc4 { sessTimes cc cs cfgS.bufferM2 with t4 := cc.now 3 } hh).1 (.nil _), ?_,
      ⟨⟨⟨HS.k L kc ks, zeros 8, 4, 3, [], fC⟩, none, []⟩,
        ⟨⟨HS.k L kc ks, zeros 8, 3, 4, [], fS⟩, none, []⟩, n, n, ?_, ?_, ?_, ?_, hA, hB, rfl, rfl, rfl, rfl, rfl⟩⟩, kC, ?_⟩
    · simp only [messages_append, k1, k3, List.append_nil, List.cons_append, List.nil_append]
      rfl
    · simp only [messages_append, k2, k4, List.append_nil, List.nil_append]
    · simp only [runOn_app]; rfl
    · simp only [runOn_app]; rfl
    · exact ⟨rfl, rfl, rfl, rfl, (HS.hk hh).1, rfl, ⟨[], .nil _, .nil⟩, by simp only; omega, S.acceptsS⟩
    · exact ⟨rfl, rfl, rfl, rfl, (HS.hk hh).1, rfl, ⟨[], .nil _, .nil⟩, by simp only; omega, S.acceptsC⟩
    · exact ⟨dS.key, dS.h1, dS.h2, dS.peer.trans (congrArg some (HS.m4_field _ hh).1)⟩
  | true =>
    obtain ⟨ms, l, k, rfl⟩ := hb hb4
    obtain ⟨w1, w2, w3, w4⟩ := hA
    rw [hb4] at pC hcC
    simp only [if_true, List.append_nil] at pC hcC
    simp only [clientAfter, hcC] at pC
    -- the first write of the client carries M4
    let c0 : AppSt := ⟨⟨HS.k L kc ks, zeros 8, 4, 1, [], fC⟩,
      some ⟨Spec.m4 (cc.now 3) cfgC.sigKp.pub ((HS.sm4 L kc ks cfgC.sigKp (sessTimes cc cs cfgS.bufferM2)).take 64), none⟩, []⟩
    have hpend : pending c0 (cc.now 4) = [HS.m4 L kc ks cfgC.sigKp { sessTimes cc cs cfgS.bufferM2 with t4 := cc.now 4 }] := by
      simp only [pending, c0, m4_setTime]; rfl
    have hl := appPackets_length (cc.now 4) ms w1
    obtain ⟨tr, ps, f1, f2, f3, f4, f5⟩ := App_write_flight hh.box cc l ms c0 rfl (HS.hk hh).1 4
      (by rw [hpend]; simp only [c0, List.length_cons, List.cons_append, List.nil_append]; omega)
    have hps := hp.write c0 _ _ rfl ms l 4 tr _ ps _ (hy.head hst rfl) f1 f2 f3
    rw [hpend] at f1 f4 f5
    have hne : (appPackets (cc.now 4) ms).isEmpty = false := by
      rw [List.isEmpty_eq_false_iff]
      unfold appPackets
      split
      · simp
      · simpa using w1
    simp only [List.cons_append, List.nil_append, List.length_cons, flagged, hne, Bool.and_false] at f1 f4 f5
    cases f4 with
    | @cons _ _ ps _ _ c4 fl hbx hfl =>
    have hc4 : c4 = HS.c4 L kc ks cfgC.sigKp { sessTimes cc cs cfgS.bufferM2 with t4 := cc.now 4 } := by
      have := (HS.hc4 { sessTimes cc cs cfgS.bufferM2 with t4 := cc.now 4 } hh).1
      have hbx : L.box (HS.m4 L kc ks cfgC.sigKp { sessTimes cc cs cfgS.bufferM2 with t4 := cc.now 4 }) (Spec.nonce 1)
        (HS.k L kc ks) = .ok c4 := hbx
      rw [hbx] at this
      exact Except.ok.inj this
    subst hc4
    obtain ⟨sS, dS, pS⟩ := sP (cc.now 4) (S.acceptsS.check _ _) fl
    obtain ⟨fS, hcS⟩ := dS.chan
    simp only [serverAfter, hcS] at pS
    obtain ⟨u, pC1, pC2⟩ := Perf.split (tr1 := [_]) pC
    obtain ⟨v, pS1, pS2⟩ := pS.split
    have pW := party_perf f2 f1 (fun (r, s') => (App.run (k r) s').bind
      fun (b, c') => .ret (Except.ok (ε := Err) b, { sC with chan := some c' }))
    rw [f3] at pW
    have r1 := Net.runC_a pC1 (.frame_write _ _ []) (List.forall_mem_singleton.2 hp.m1) (party L cs (serverSession cfgS pB) 0) []
    have r2 := Net.runC_b pS1 serverCalls_moves (List.forall_mem_cons.2 ⟨hp.m2, List.forall_mem_singleton.2 hp.c3⟩) u []
    have r3 := Net.runC_a (p := p) pC2 (.read _ (.read _ (.nil []))) (by simp) v []
    have r4 := Net.runC_a pW (.frame_write _ _ []) hps v []
    have r5 := Net.runC_b (p := p) pS2 (.read _ (.nil ps)) (by simp) (party L cc ((App.run (k (.ok ())) { c0 with
        enc := { c0.enc with writeNonce := 1 + 2 * ((appPackets (cc.now 4) ms).length + 1) }
        bufferedM4 := none }).bind fun (b, c') => .ret (Except.ok (ε := Err) b, { sC with chan := some c' })) 5) []
    obtain ⟨ny', -, hy'⟩ := hy.strip hst (.aWrite ms l k)
    have r3' : Net.RunC _ 2 _ _ := r3
    simp only [App.run, IT.bind_assoc] at r3'
    obtain ⟨l1, k1, g1⟩ := Net.logged_a pC1 (.frame_write _ _ []) (party L cs (serverSession cfgS pB) 0) []
    obtain ⟨l2, k2, g2⟩ := Net.logged_b pS1 serverCalls_moves u []
    obtain ⟨l3, k3, g3⟩ := Net.logged_a pC2 (.read _ (.read _ (.nil []))) v []
    obtain ⟨l4, k4, g4⟩ := Net.logged_a pW (.frame_write _ _ []) v []
    obtain ⟨l5, k5, g5⟩ := Net.logged_b pS2 (.read _ (.nil ps)) (party L cc ((App.run (k (.ok ())) { c0 with
        enc := { c0.enc with writeNonce := 1 + 2 * ((appPackets (cc.now 4) ms).length + 1) }
        bufferedM4 := none }).bind fun (b, c') => .ret (Except.ok (ε := Err) b, { sC with chan := some c' })) 5) []
    have g3' := g3
    simp only [App.run, IT.bind_assoc] at g3'
    have hg := (((g1.trans g2).trans g3').trans g4).trans g5
    have pC3 := pC2
    simp only [App.run, IT.bind_assoc] at pC3
    have hE := (shake_eager pC1 pC3 pS1).trans (m4_eager pW pS2)
    refine ⟨ny', _, _, _, hy', (((r1.trans r2).trans r3').trans r4).trans r5, ⟨hE, ⟨1, .one (.aWrite ms l k)⟩, by simp⟩, sC, sS, ⟨[⟨4, l, ms⟩], _, _, _,
      ⟨k (.ok ()), pB, [], [], groups ms, [], 5, 4⟩, ?_, fun h1 h2 => h1.strip_write h2 rfl, hg, ?_,
      by rw [packetsOf_cons, packetsOf, List.flatMap_nil, List.append_nil]; exact f5, ?_, ⟨{ c0 with
        enc := { c0.enc with writeNonce := 1 + 2 * ((appPackets (cc.now 4) ms).length + 1) }
        bufferedM4 := none }, ⟨⟨HS.k L kc ks, zeros 8, 3, 4, [], fS⟩, none, []⟩, n - ms.length, n, ?_, ?_,
      ?_, ?_, w4 _, hB, by rw [packetsOf_cons, List.length_append, flagged_length]; rfl, rfl, rfl, rfl, rfl⟩⟩, kC, ?_⟩
    · simp only [AppNet.net, groups_flatten]; rfl
    · simp only [messages_append, k1, k3, k4, List.append_nil, List.cons_append, List.nil_append]
    · simp only [messages_append, k2, k5, List.append_nil, List.nil_append]
    · simp only [runOn_app]
    · simp only [runOn_app]; rfl
    · exact ⟨rfl, rfl, rfl, rfl, (HS.hk hh).1, rfl, ⟨_, hfl, .packets (fun i => S.acceptsS.check _ _) ms w2⟩,
        by simp only; omega, S.acceptsS⟩
    · exact ⟨rfl, rfl, rfl, rfl, (HS.hk hh).1, rfl, ⟨[], .nil _, .nil⟩, by simp only; omega, S.acceptsC⟩
    · exact ⟨dS.key, dS.h1, dS.h2, dS.peer.trans (congrArg some (HS.m4_field _ hh).1)⟩

theorem session_main (S : Setup L cc cs cfgC cfgS kc ks) (pA : IT appSig α) (pB : IT appSig β) {n : Nat}
    (hn : n ≤ 2 ^ 62) (hA : Modest 65535 pA n) (hB : Modest 65535 pB n)
    (hb : cfgC.bufferM4 = true → ∃ ms l k, pA = .op (S := appSig) (.write ms l) k)
    {P : List Bytes → Prop} {p : Bytes → Prop} (hp : ShakeSized L cc cs cfgC cfgS kc ks P p)
    (hz : Sized L App.handle (AppDir L) P p) (hc : Net.Calls P (Net.start pA pB)) :
    ∃ key h1 h2, KeysOf L cc cs cfgS.bufferM2 kc ks key h1 h2 ∧ SameOutcome
      (ClientEnd key h1 h2 cfgS.sigKp.pub) (ServerEnd key h1 h2 cfgC.sigKp.pub)
      (Net.start pA pB)
      (Net.start (party L cc (clientSession cfgC pA) 0) (party L cs (serverSession cfgS pB) 0)) ∧
      Net.Calls (fun ms => ∀ m ∈ ms, p m)
        (Net.start (party L cc (clientSession cfgC pA) 0) (party L cs (serverSession cfgS pB) 0)) := by
  have hh := S.honest
  refine ⟨HS.k L kc ks, HS.h1 L kc (sessTimes cc cs cfgS.bufferM2), HS.h2 L ks (sessTimes cc cs cfgS.bufferM2),
    ⟨(HS.hk hh).1, (HS.hk hh).2.1, (HS.hk hh).2.2, HS.hh1 (sessTimes cc cs cfgS.bufferM2) hh,
      HS.hh2 (sessTimes cc cs cfgS.bufferM2) hh⟩, ?_⟩
  obtain ⟨ny, y, hy, hst⟩ := Net.exists_final (Net.start pA pB)
  obtain ⟨ny', x', N, X, e1, e2, -, sC, sS, ⟨_, _, _, _, z, rfl, -, -, -, -, -, sim⟩, kC, kS⟩ := session_sim S pA pB hn hA hB hb hp (hc.runC hy) hst
  obtain ⟨M, Y, r1, r2, r3, r4⟩ := sim.sim.finalC (app_chan hh.box) hz e1 hst
    (Qa := ClientEnd (HS.k L kc ks) (HS.h1 L kc (sessTimes cc cs cfgS.bufferM2))
      (HS.h2 L ks (sessTimes cc cs cfgS.bufferM2)) cfgS.sigKp.pub)
    (Qb := ServerEnd (HS.k L kc ks) (HS.h1 L kc (sessTimes cc cs cfgS.bufferM2))
      (HS.h2 L ks (sessTimes cc cs cfgS.bufferM2)) cfgC.sigKp.pub)
    (fun a c => ⟨_, rfl, ⟨rfl, kC⟩⟩) (fun a c => ⟨_, rfl, ⟨rfl, kS⟩⟩)
  exact ⟨⟨y, Y, hy.endsIn hst, (e2.trans r1).run.endsIn r2, r3, r4⟩, (e2.trans r1).calls r2⟩

/-- If two programs take turns and nothing is left on the links, so it is with the sessions. -/
theorem session_eager (S : Setup L cc cs cfgC cfgS kc ks) (pA : IT appSig α) (pB : IT appSig β) {n : Nat}
    (hn : n ≤ 2 ^ 62) (hA : Modest 65535 pA n) (hB : Modest 65535 pB n)
    (hb : cfgC.bufferM4 = true → ∃ ms l k, pA = .op (S := appSig) (.write ms l) k)
    (hd : Net.HalfDuplex (Net.start pA pB)) {y : Net α β} (hy : EndsIn (Net.start pA pB) y) (h1 : y.ab = []) (h2 : y.ba = []) :
    Net.HalfDuplex (Net.start (party L cc (clientSession cfgC pA) 0) (party L cs (serverSession cfgS pB) 0)) := by
  have hh := S.honest
  obtain ⟨hst, m, hm, -⟩ := hy
  obtain ⟨-, x', -, X, -, -, ⟨hE, ⟨m', hm'⟩, -⟩, sC, sS, ⟨_, _, _, _, z, rfl, -, -, -, -, -, sim⟩, -, -⟩ :=
    session_sim S pA pB hn hA hB hb (P := fun _ => True) (p := fun _ => True) ⟨trivial, trivial, trivial, trivial,
      fun _ _ _ _ _ _ _ _ _ _ _ _ _ _ _ _ _ => trivial⟩ hm.runC_true hst
  obtain ⟨-, hr⟩ := hm.confluent hst hm'
  obtain ⟨Y, e1, e2⟩ := sim.sim.runE (app_chan hh.box) (by intro a c; exact ⟨_, rfl⟩) (by intro a c; exact ⟨_, rfl⟩)
    ((hd.after hm').runE hr hst h1 h2)
  obtain ⟨f1, -⟩ := e2.ended (app_chan hh.box) hst (Qa := fun _ _ => True) (Qb := fun _ _ => True)
    (fun a c => ⟨_, rfl, trivial⟩) (fun a c => ⟨_, rfl, trivial⟩)
  exact (hE.trans e1).halfDuplex f1

/-- What is written in a session. -/
theorem session_log (S : Setup L cc cs cfgC cfgS kc ks) (pA : IT appSig α) (pB : IT appSig β) {n : Nat}
    (hn : n ≤ 2 ^ 62) (hA : Modest 65535 pA n) (hB : Modest 65535 pB n)
    (hb : cfgC.bufferM4 = true → ∃ ms l k, pA = .op (S := appSig) (.write ms l) k)
    {ca cb : List AppCall} {y : AppNet α β} (hy : AppNet.Logged (AppNet.start pA pB) ca cb y) (hst : Net.Stuck y.net) :
    ∃ la lb Y, Net.Logged (Net.start (party L cc (clientSession cfgC pA) 0) (party L cs (serverSession cfgS pB) 0)) la lb Y ∧
      Net.Stuck Y ∧ (y.net.ab = [] → Y.ab = []) ∧ (y.net.ba = [] → Y.ba = []) ∧
      Transcript L cc cs cfgC cfgS kc ks ca cb (messages la) (messages lb) ∧
      ∃ r, messages lb = [HS.m2 ks (sessTimes cc cs cfgS.bufferM2),
        Spec.encrypted false (HS.c3 L kc ks cfgS.sigKp (sessTimes cc cs cfgS.bufferM2))] ++ r := by
  have hh := S.honest
  obtain ⟨m, hm⟩ := hy.net.run
  obtain ⟨-, x', -, X, -, -, -, sC, sS, ⟨c0, lA, lB, rawA, z, -, g1, g2, g3, g4, g6, sim⟩, -, -⟩ :=
    session_sim S pA pB hn hA hB hb (P := fun _ => True) (p := fun _ => True) ⟨trivial, trivial, trivial, trivial,
      fun _ _ _ _ _ _ _ _ _ _ _ _ _ _ _ _ _ => trivial⟩ hm.runC_true hst
  obtain ⟨ca', rfl, hx⟩ := g1 hy hst
  obtain ⟨Y, rA, rB, e1, e2, e3, e6⟩ := sim.run hh.box hx
  obtain ⟨f1, -, -, f2⟩ := e6.sim.ended (app_chan hh.box) hst (Qa := fun _ _ => True) (Qb := fun _ _ => True)
    (fun a c => ⟨_, rfl, trivial⟩) (fun a c => ⟨_, rfl, trivial⟩)
  refine ⟨_, _, Y, g2.trans e1, f1, f2.1, f2.2, ⟨HS.k L kc ks, HS.h1 L kc (sessTimes cc cs cfgS.bufferM2),
    HS.h2 L ks (sessTimes cc cs cfgS.bufferM2), _, _, rawA ++ messages rA, _ :: messages rB,
    ⟨(HS.hk hh).1, (HS.hk hh).2.1, (HS.hk hh).2.2, HS.hh1 (sessTimes cc cs cfgS.bufferM2) hh,
      HS.hh2 (sessTimes cc cs cfgS.bufferM2) hh⟩, (HS.hsm3 (sessTimes cc cs cfgS.bufferM2) hh).2.1,
    (HS.hsm4 (sessTimes cc cs cfgS.bufferM2) hh).2.1, ?_, ?_, ?_,
    .cons _ _ _ (HS.hc3 (sessTimes cc cs cfgS.bufferM2) hh).1 e3⟩, messages rB, by rw [messages_append, g6]⟩
  · rw [messages_append, g3]; rfl
  · rw [show packetsOf cc (c0 ++ ca') = packetsOf cc c0 ++ packetsOf cc ca' by simp [packetsOf]]
    exact g4.append e2
  · rw [messages_append, g6]; rfl

/-- With M4 buffered and a client whose program does not begin with a write, the server waits for M4 for ever. -/
theorem session_waits (S : Setup L cc cs cfgC cfgS kc ks) (hb4 : cfgC.bufferM4 = true) (pA : IT appSig α)
    (pB : IT appSig β) (hp : (∃ a, pA = .ret a) ∨ ∃ k, pA = .op (S := appSig) .read k) :
    ∃ Y, EndsIn (Net.start (party L cc (clientSession cfgC pA) 0) (party L cs (serverSession cfgS pB) 0)) Y ∧
      (∃ k, Y.b = .op (S := appSig) .read k) ∧
      ((∃ k, pA = .op (S := appSig) .read k) → ∃ k, Y.a = .op (S := appSig) .read k) ∧
      (∀ a, pA = .ret a → ∃ s, Y.a = .ret (.ok a, s)) := by
  obtain ⟨sC, dC, pC⟩ := client_perf S (clientAfter pA)
  obtain ⟨sS, dS, pS⟩ := server_perf S (serverAfter pB) (cc.now 3) (S.acceptsS.check _ _) false
  obtain ⟨fC, hcC⟩ := dC.chan
  rw [hb4] at pC hcC
  simp only [if_true, List.append_nil] at pC hcC
  simp only [clientAfter, hcC] at pC
  obtain ⟨u, pC1, pC2⟩ := Perf.split (tr1 := [_]) pC
  obtain ⟨v, pS1, pS2⟩ := pS.split
  have r1 := Net.run_a pC1 (.frame_write _ _ []) (party L cs (serverSession cfgS pB) 0) []
  have r2 := Net.run_b pS1 serverCalls_moves u []
  have r3 := Net.run_a pC2 (.read _ (.read _ (.nil []))) v []
  have hv : ∃ k, v = .op (S := appSig) .read k := by
    cases pS2 with
    | cons e k r h => exact ⟨k, rfl⟩
  rcases hp with ⟨a, rfl⟩ | ⟨k, rfl⟩
  · refine ⟨_, ((r1.trans r2).trans r3).endsIn ((Net.stuck_iff _).2 ⟨.inl ⟨_, rfl⟩, .inr ⟨hv, rfl⟩⟩), hv, ?_, ?_⟩
    · rintro ⟨k, hk⟩; cases hk
    · intro a' ha; cases ha; exact ⟨_, rfl⟩
  · have hread : ∀ c : AppSt, c.enc.pushback = [] → c.readQ = [] → ∃ k', App.read c = .op (S := env) .read k' := by
      intro c hc hq
      have h : Enc.read c.enc = .op (S := env) .read _ := (Enc_read_run c.enc).trans (if_neg (by simp [hc]))
      exact ⟨_, (App_read_run c hq).trans (by rw [h]; exact IT.op_bind _ _ _)⟩
    obtain ⟨k', hk'⟩ := hread ⟨⟨HS.k L kc ks, zeros 8, 4, 1, [], fC⟩, some ⟨Spec.m4 (cc.now 3) cfgC.sigKp.pub
      ((HS.sm4 L kc ks cfgC.sigKp (sessTimes cc cs cfgS.bufferM2)).take 64), none⟩, []⟩ rfl rfl
    have hA : ∃ k', party L cc ((App.run (.op (S := appSig) .read k) ⟨⟨HS.k L kc ks, zeros 8, 4, 1, [], fC⟩, some ⟨Spec.m4 (cc.now 3) cfgC.sigKp.pub
      ((HS.sm4 L kc ks cfgC.sigKp (sessTimes cc cs cfgS.bufferM2)).take 64), none⟩, []⟩).bind
        fun (p : α × AppSt) => IT.ret (Except.ok (ε := Err) p.1, { sC with chan := some p.2 })) 4 = .op (S := appSig) .read k' := by
      simp only [App.run, App.handle, hk', IT.op_bind, party]
      exact ⟨_, rfl⟩
    refine ⟨_, ((r1.trans r2).trans r3).endsIn ((Net.stuck_iff _).2 ⟨.inr ⟨hA, rfl⟩, .inr ⟨hv, rfl⟩⟩), hv, fun _ => hA, ?_⟩
    intro a ha; cases ha

end

end Salt
