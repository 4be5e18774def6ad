import Verif.Lemmas.Script
import Verif.Props.SharedTime

/-!
# C135: the times of example session 3
-/

namespace Salt

open Spec

section
variable {α : Type} {k : Bytes} {rn wn : Nat} {f : Bool} {q : List Bytes} {tr : List (Ev env)} {b : α × AppSt}

theorem App_run_write {kk : Except Err Unit → IT appSig α} {ms : List Bytes} {l : Bool} {t : Nat} {p : Bytes}
    (hp : appPackets t ms = [p]) (hw : wn < 2 ^ 64) (c : Bytes)
    (h : Exec (App.run (kk (.ok ())) ⟨⟨k, zeros 8, rn, wn + 2, [], f⟩, none, q⟩) tr b) :
    Exec (App.run (.op (S := appSig) (.write ms l) kk) ⟨⟨k, zeros 8, rn, wn, [], f⟩, none, q⟩)
      (⟨.time, .ok t⟩ :: ⟨.box p (Spec.nonce wn) k, .ok c⟩ :: ⟨.write [Spec.encrypted l c] l, .ok ()⟩ :: tr) b := by
  have e := Enc_write1_do (s := ⟨k, zeros 8, rn, wn, [], f⟩) rfl hw p c l
  have : Exec (App.write ms l ⟨⟨k, zeros 8, rn, wn, [], f⟩, none, q⟩) [⟨.time, .ok t⟩, ⟨.box p (Spec.nonce wn) k, .ok c⟩,
      ⟨.write [Spec.encrypted l c] l, .ok ()⟩] (.ok (), ⟨⟨k, zeros 8, rn, wn + 2, [], f⟩, none, q⟩) := by
    rw [App_write_run]
    refine .op _ _ _ _ _ ?_
    simp only [pending, hp, List.nil_append]
    rw [Exec_bind]
    exact ⟨_, _, [], by simp, e, .ret _⟩
  simp only [App.run, App.handle]
  rw [Exec_bind]
  exact ⟨_, _, tr, rfl, this, h⟩

theorem App_run_read {kk : Except Err Bytes → IT appSig α} {l : Bool} {c m x : Bytes} {t : Nat} {q : List Bytes}
    (hr : rn < 2 ^ 64) (hc : 16 ≤ c.length) (hm : appParse m = .ok (t, .ok (x, q)))
    (h : Exec (App.run (kk (.ok x)) ⟨⟨k, zeros 8, rn + 2, wn, [], 128 ≤ ((Spec.encrypted l c).getD 1 0).toNat⟩, none, q⟩) tr b) :
    Exec (App.run (.op (S := appSig) .read kk) ⟨⟨k, zeros 8, rn, wn, [], f⟩, none, []⟩)
      (⟨.read, .ok (Spec.encrypted l c)⟩ :: ⟨.boxOpen c (Spec.nonce rn) k, .ok m⟩ :: ⟨.check t, .ok ()⟩ :: tr) b := by
  have e := Enc_read_do (s := ⟨k, zeros 8, rn, wn, [], f⟩) rfl rfl hr (Spec.encrypted l c) m
    (by simp [Spec.encrypted]; omega) rfl
  simp only [App.run, App.handle]
  rw [Exec_bind]
  refine ⟨[⟨.read, .ok (Spec.encrypted l c)⟩, ⟨.boxOpen c (Spec.nonce rn) k, .ok m⟩, ⟨.check t, .ok ()⟩],
    (.ok x, ⟨⟨k, zeros 8, rn + 2, wn, [], 128 ≤ ((Spec.encrypted l c).getD 1 0).toNat⟩, none, q⟩), tr, rfl, ?_, h⟩
  rw [App_read_run _ rfl, Exec_bind]
  refine ⟨_, _, [⟨.check t, .ok ()⟩], ?_, e, ?_⟩
  · rfl
  · simp only [hm]
    exact .op _ _ _ _ _ (.ret _)

theorem App_run_queued {kk : Except Err Bytes → IT appSig α} {x : Bytes}
    (h : Exec (App.run (kk (.ok x)) ⟨⟨k, zeros 8, rn, wn, [], f⟩, none, q⟩) tr b) :
    Exec (App.run (.op (S := appSig) .read kk) ⟨⟨k, zeros 8, rn, wn, [], f⟩, none, x :: q⟩) tr b := by
  simp only [App.run, App.handle]
  rw [Exec_bind]
  exact ⟨[], _, tr, rfl, by rw [App_read_queued _ x q rfl]; exact .ret _, h⟩

end

/-! ### The scripts of example session 3 -/

section
variable (L : Lib) (kc ks sc ss : KeyPair) (r1 r21 r22 : Bytes)

/-- The times in the handshake. -/
def times3 : Times := ⟨1, 1, 1, 2, 3⟩

def box3 (m : Bytes) (n : Nat) : Bytes := val (L.box m (Spec.nonce n) (HS.k L kc ks))

/-- What the client does after the handshake, and what it gets. -/
def clientApp3 : List (Ev env) :=
  [⟨.time, .ok 4⟩, ⟨.box (Spec.app 4 r1) (Spec.nonce 3) (HS.k L kc ks), .ok (box3 L kc ks (Spec.app 4 r1) 3)⟩,
   ⟨.write [Spec.encrypted false (box3 L kc ks (Spec.app 4 r1) 3)] false, .ok ()⟩,
   ⟨.read, .ok (Spec.encrypted false (box3 L kc ks (Spec.app 5 r1) 4))⟩,
   ⟨.boxOpen (box3 L kc ks (Spec.app 5 r1) 4) (Spec.nonce 4) (HS.k L kc ks), .ok (Spec.app 5 r1)⟩, ⟨.check (5 % 2 ^ 32), .ok ()⟩,
   ⟨.time, .ok 6⟩,
   ⟨.box (Spec.multiApp 6 [r21, r22]) (Spec.nonce 5) (HS.k L kc ks), .ok (box3 L kc ks (Spec.multiApp 6 [r21, r22]) 5)⟩,
   ⟨.write [Spec.encrypted false (box3 L kc ks (Spec.multiApp 6 [r21, r22]) 5)] false, .ok ()⟩,
   ⟨.read, .ok (Spec.encrypted true (box3 L kc ks (Spec.multiApp 7 [r21, r22]) 6))⟩,
   ⟨.boxOpen (box3 L kc ks (Spec.multiApp 7 [r21, r22]) 6) (Spec.nonce 6) (HS.k L kc ks), .ok (Spec.multiApp 7 [r21, r22])⟩,
   ⟨.check (7 % 2 ^ 32), .ok ()⟩]

/-- What the server does after the handshake, and what it gets. -/
def serverApp3 : List (Ev env) :=
  [⟨.read, .ok (Spec.encrypted false (box3 L kc ks (Spec.app 4 r1) 3))⟩,
   ⟨.boxOpen (box3 L kc ks (Spec.app 4 r1) 3) (Spec.nonce 3) (HS.k L kc ks), .ok (Spec.app 4 r1)⟩, ⟨.check (4 % 2 ^ 32), .ok ()⟩,
   ⟨.time, .ok 5⟩, ⟨.box (Spec.app 5 r1) (Spec.nonce 4) (HS.k L kc ks), .ok (box3 L kc ks (Spec.app 5 r1) 4)⟩,
   ⟨.write [Spec.encrypted false (box3 L kc ks (Spec.app 5 r1) 4)] false, .ok ()⟩,
   ⟨.read, .ok (Spec.encrypted false (box3 L kc ks (Spec.multiApp 6 [r21, r22]) 5))⟩,
   ⟨.boxOpen (box3 L kc ks (Spec.multiApp 6 [r21, r22]) 5) (Spec.nonce 5) (HS.k L kc ks), .ok (Spec.multiApp 6 [r21, r22])⟩,
   ⟨.check (6 % 2 ^ 32), .ok ()⟩,
   ⟨.time, .ok 7⟩,
   ⟨.box (Spec.multiApp 7 [r21, r22]) (Spec.nonce 6) (HS.k L kc ks), .ok (box3 L kc ks (Spec.multiApp 7 [r21, r22]) 6)⟩,
   ⟨.write [Spec.encrypted true (box3 L kc ks (Spec.multiApp 7 [r21, r22]) 6)] true, .ok ()⟩]

def clientScript3 (cfg : ClientCfg) : List (Ev env) :=
  clientPre kc (HS.cp L kc ks sc ss times3) ++ clientPost cfg (HS.cp L kc ks sc ss times3) ++ clientApp3 L kc ks r1 r21 r22

def serverScript3 (cfg : ServerCfg) : List (Ev env) :=
  serverFull cfg ks (HS.sp L kc ks sc ss times3 false) ++ serverApp3 L kc ks r1 r21 r22

variable {L kc ks sc ss}

theorem box3_ok (h : Honest L kc ks sc ss) (m : Bytes) (n : Nat) :
    L.box m (Spec.nonce n) (HS.k L kc ks) = .ok (box3 L kc ks m n) ∧ 16 ≤ (box3 L kc ks m n).length ∧
    L.boxOpen (box3 L kc ks m n) (Spec.nonce n) (HS.k L kc ks) = .ok m := by
  obtain ⟨c, h1, h2, h3, h4⟩ := HS.hbox h m n
  rw [show box3 L kc ks m n = c from h2.symm]
  exact ⟨h1, by omega, h4⟩

variable {r21 r22}

theorem multi3 (h1 : r21.length ≤ 65535) (h2 : r22.length ≤ 65535) (t : Nat) :
    appPackets t [r21, r22] = [Spec.multiApp t [r21, r22]] ∧
    appParse (Spec.multiApp t [r21, r22]) = .ok (t % 2 ^ 32, .ok (r21, [r22])) := by
  constructor
  · unfold appPackets
    rw [if_pos ⟨by simp, by simp [h1, h2]⟩]
  · exact appParse_multi t r21 [r22] (by simp) (by simp [h1, h2])

theorem client3_end (c : AppSt) : Exec (App.run ((if r1 ≠ r1 then Py.raise .assertionError
      else if r21 ≠ r21 then Py.raise .assertionError
      else if r22 ≠ r22 then Py.raise .assertionError
      else pure () : Py appSig Unit Unit) ()) c) [] ((.ok (), ()), c) := by
  rw [if_neg (by simp), if_neg (by simp), if_neg (by simp)]
  exact .ret _

theorem clientApp3_exec (h : Honest L kc ks sc ss) (h1 : r21.length ≤ 65535) (h2 : r22.length ≤ 65535) (f : Bool) :
    ∃ b, Exec (App.run (Example3.client r1 r21 r22 ()) ⟨⟨HS.k L kc ks, zeros 8, 4, 3, [], f⟩, none, []⟩)
      (clientApp3 L kc ks r1 r21 r22) ((.ok (), ()), b) :=
  ⟨_, App_run_write (p := Spec.app 4 r1) rfl (by decide) _
    (App_run_read (by decide) (box3_ok h _ _).2.1 (appParse_app _ _)
    (App_run_write (multi3 h1 h2 6).1 (by decide) _
    (App_run_read (by decide) (box3_ok h _ _).2.1 (multi3 h1 h2 7).2
    (App_run_queued (client3_end _ _)))))⟩

theorem serverApp3_exec (h : Honest L kc ks sc ss) (h1 : r21.length ≤ 65535) (h2 : r22.length ≤ 65535) (f : Bool) :
    ∃ b, Exec (App.run (Example3.server ()) ⟨⟨HS.k L kc ks, zeros 8, 3, 4, [], f⟩, none, []⟩)
      (serverApp3 L kc ks r1 r21 r22) ((.ok (), ()), b) :=
  ⟨_, App_run_read (by decide) (box3_ok h _ _).2.1 (appParse_app _ _)
    (App_run_write (p := Spec.app 5 r1) rfl (by decide) _
    (App_run_read (by decide) (box3_ok h _ _).2.1 (multi3 h1 h2 6).2
    (App_run_queued
    (App_run_write (multi3 h1 h2 7).1 (by decide) _ (.ret _)))))⟩

end

section
variable {L : Lib} {kc ks : KeyPair} {cfgC : ClientCfg} {cfgS : ServerCfg} {r21 r22 : Bytes}

theorem clientScript3_exec (h : Honest L kc ks cfgC.sigKp cfgS.sigKp) (he : cfgC.encKp = some kc) (hb : cfgC.bufferM4 = false)
    (r1 : Bytes) (h1 : r21.length ≤ 65535) (h2 : r22.length ≤ 65535) :
    ∃ b, Exec (clientSession cfgC (Example3.client r1 r21 r22 ()))
      (clientScript3 L kc ks cfgC.sigKp cfgS.sigKp r1 r21 r22 cfgC) b := by
  obtain ⟨s, e1, e2⟩ := client_runs' (HS.cgood times3 h cfgC he rfl) Client.init
  obtain ⟨f, hc⟩ := e2.chan
  rw [hb] at e1 hc
  simp only [Bool.false_eq_true, if_false] at e1 hc
  obtain ⟨b, e3⟩ := clientApp3_exec r1 h h1 h2 f
  refine ⟨(.ok (.ok (), ()), { s with chan := some b }), ?_⟩
  unfold clientSession clientScript3
  rw [Exec_bind]
  refine ⟨_, _, _, rfl, e1, ?_⟩
  simp only [clientAfter, hc]
  rw [Exec_bind]
  exact ⟨_, _, [], by simp, e3, .ret _⟩

theorem serverScript3_exec (h : Honest L kc ks cfgC.sigKp cfgS.sigKp) (he : cfgS.encKp = some ks)
    (r1 : Bytes) (h1 : r21.length ≤ 65535) (h2 : r22.length ≤ 65535) :
    ∃ b, Exec (serverSession cfgS (Example3.server ()))
      (serverScript3 L kc ks cfgC.sigKp cfgS.sigKp r1 r21 r22 cfgS) b := by
  obtain ⟨s, e1, e2⟩ := server_runs' (HS.sgood times3 h false cfgS he rfl) Server.init
  obtain ⟨f, hc⟩ := e2.chan
  obtain ⟨b, e3⟩ := serverApp3_exec r1 h h1 h2 f
  refine ⟨(.ok (.ok (), ()), { s with chan := some b }), ?_⟩
  unfold serverSession serverScript3
  rw [Exec_bind]
  refine ⟨_, _, _, rfl, e1, ?_⟩
  simp only [serverAfter, hc]
  rw [Exec_bind]
  exact ⟨_, _, [], by simp, e3, .ret _⟩

/-- The kinds of the calls of the two sides. -/
def kindsC : List EvKind :=
  [.first, .own, .wr 1, .rd, .own, .own, .own, .rd, .own, .own, .own, .now 3, .own, .own, .wr 1,
   .now 4, .own, .wr 1, .rd, .own, .own, .now 6, .own, .wr 1, .rd, .own, .own]

def kindsS : List EvKind :=
  [.rd, .own, .own, .first, .wr 1, .own, .own, .now 2, .own, .own, .wr 1, .rd, .own, .own, .own,
   .rd, .own, .own, .now 5, .own, .wr 1, .rd, .own, .own, .now 7, .own, .wr 1]

theorem kinds_fit : EvKind.Fits kindsC kindsS := by
  have : ∀ i ∈ List.range 28, ∀ j ∈ List.range 28, EvKind.got (kindsS.take j) ≤ EvKind.sent (kindsC.take i) →
      EvKind.got (kindsC.take i) ≤ EvKind.sent (kindsS.take j) →
      (∀ k ∈ kindsC[i]?, EvKind.fits k (kindsC.take i) (kindsS.take j)) ∧
      (∀ k ∈ kindsS[j]?, EvKind.fits k (kindsS.take j) (kindsC.take i)) := by decide +kernel
  intro i hi j hj h1 h2
  exact this i (List.mem_range.2 (Nat.lt_succ_of_le hi)) j (List.mem_range.2 (Nat.lt_succ_of_le hj)) h1 h2

theorem scripts3 (h : Honest L kc ks cfgC.sigKp cfgS.sigKp) (hb : cfgS.bufferM2 = false) (r1 : Bytes) :
    Scripts L (clientScript3 L kc ks cfgC.sigKp cfgS.sigKp r1 r21 r22 cfgC)
      (serverScript3 L kc ks cfgC.sigKp cfgS.sigKp r1 r21 r22 cfgS) := by
  have f1 : leNat (field (HS.m1 kc times3) 6 4) = 1 := (HS.m1_field times3 h).2
  have f2 : leNat (field (HS.m2 ks times3) 2 4) = 1 := (HS.m2_field times3 h).2
  have eA : (clientScript3 L kc ks cfgC.sigKp cfgS.sigKp r1 r21 r22 cfgC).map kindOf = kindsC := by
    simp [clientScript3, clientPre, clientPost, clientApp3, kindOf, HS.cp, kindsC, times3]
    exact fun _ => f2
  have eB : (serverScript3 L kc ks cfgC.sigKp cfgS.sigKp r1 r21 r22 cfgS).map kindOf = kindsS := by
    simp [serverScript3, serverFull, hb, serverHead, serverPlain, serverTail, serverApp3, kindOf, HS.sp, kindsS, times3]
    exact fun _ => f1
  have hx := box3_ok h
  refine ⟨by rw [eA, eB]; exact kinds_fit, by rw [eA]; decide, by rw [eB]; decide, ?_, ?_, ?_, ?_⟩
  · intro e he
    rw [clientScript3, List.mem_append] at he
    rcases he with he | he
    · exact HS.c_answered times3 h cfgC rfl e he
    · revert e
      simp [clientApp3, AnsweredBy, hx]
  · intro e he
    rw [serverScript3, List.mem_append] at he
    rcases he with he | he
    · exact HS.s_answered times3 h false cfgS rfl (by simp [hb]) e he
    · revert e
      simp [serverApp3, AnsweredBy, hx]
  · simp [clientScript3, serverScript3, clientPre, clientPost, clientApp3, serverFull, hb, serverHead, serverPlain, serverTail,
      serverApp3, sentOf, gotOf, HS.cp, HS.sp, HS.m1, times3]
  · simp [clientScript3, serverScript3, clientPre, clientPost, clientApp3, serverFull, hb, serverHead, serverPlain, serverTail,
      serverApp3, sentOf, gotOf, HS.cp, HS.sp, HS.m2, times3]

end

namespace Props

variable {L : Lib} {kc ks : KeyPair} {cfgC : ClientCfg} {cfgS : ServerCfg} {r21 r22 : Bytes}

/-- **C135, common keeper.** Client and server of example session 3 with the one `OneTwoThreeTimeKeeper` of their process,
whatever it has counted before.  Whatever the schedule, exactly these packets are written; the times are 1 in M1 and M2, 2 in M3, 3 in
M4, and then 4, 5, 6, 7. -/
theorem C135_common_keeper (hh : Honest L kc ks cfgC.sigKp cfgS.sigKp) (hkc : cfgC.encKp = some kc) (hks : cfgS.encKp = some ks)
    (hb2 : cfgS.bufferM2 = false) (hb4 : cfgC.bufferM4 = false) (r1 : Bytes) (l21 : r21.length ≤ 65535)
    (l22 : r22.length ≤ 65535) (t : Nat) :
    ∃ key h1 h2 s3 s4 la lb rawA rawB, L.beforenm ks.pub kc.sec = .ok key ∧ L.hash (Spec.m1 1 kc.pub none) = .ok h1 ∧
      L.hash (Spec.m2 false false 1 ks.pub) = .ok h2 ∧
      L.sign ([0x53, 0x43, 0x2d, 0x53, 0x49, 0x47, 0x30, 0x31] ++ h1 ++ h2) cfgS.sigKp.sec = .ok s3 ∧
      L.sign ([0x53, 0x43, 0x2d, 0x53, 0x49, 0x47, 0x30, 0x32] ++ h1 ++ h2) cfgC.sigKp.sec = .ok s4 ∧
      messages la = Spec.m1 1 kc.pub none :: rawA ∧ messages lb = Spec.m2 false false 1 ks.pub :: rawB ∧
      SealedAll L key 2 [(false, Spec.m3 2 cfgS.sigKp.pub (s3.take 64)), (false, Spec.app 5 r1),
        (true, Spec.multiApp 7 [r21, r22])] rawB ∧
      SealedAll L key 1 [(false, Spec.m4 3 cfgC.sigKp.pub (s4.take 64)), (false, Spec.app 4 r1),
        (false, Spec.multiApp 6 [r21, r22])] rawA ∧
      ∀ la' lb' z, SharedTime.Logged L oneTwoThreeObj (.start (clientSession cfgC (Example3.client r1 r21 r22 ()))
          (serverSession cfgS (Example3.server ())) t) la' lb' z →
        la' <+: la ∧ lb' <+: lb ∧ (z.Stuck L oneTwoThreeObj → la' = la ∧ lb' = lb) := by
  have hx := box3_ok hh
  refine ⟨_, _, _, _, _, callsIn (clientScript3 L kc ks cfgC.sigKp cfgS.sigKp r1 r21 r22 cfgC),
    callsIn (serverScript3 L kc ks cfgC.sigKp cfgS.sigKp r1 r21 r22 cfgS),
    [Spec.encrypted false (HS.c4 L kc ks cfgC.sigKp times3), Spec.encrypted false (box3 L kc ks (Spec.app 4 r1) 3),
      Spec.encrypted false (box3 L kc ks (Spec.multiApp 6 [r21, r22]) 5)],
    [Spec.encrypted false (HS.c3 L kc ks cfgS.sigKp times3), Spec.encrypted false (box3 L kc ks (Spec.app 5 r1) 4),
      Spec.encrypted true (box3 L kc ks (Spec.multiApp 7 [r21, r22]) 6)], (HS.hk hh).2.1, HS.hh1 times3 hh, HS.hh2 times3 hh,
    (HS.hsm3 times3 hh).2.1, (HS.hsm4 times3 hh).2.1, ?_, ?_, ?_, ?_, ?_⟩
  · rw [messages_callsIn]
    simp [clientScript3, clientPre, clientPost, clientApp3, sentOf, HS.cp, times3]
  · rw [messages_callsIn]
    simp [serverScript3, serverFull, hb2, serverHead, serverPlain, serverTail, serverApp3, sentOf, HS.sp, times3]
  · exact .cons _ _ _ (HS.hc3 times3 hh).1 (.cons _ _ _ (hx _ _).1 (.cons _ _ _ (hx _ _).1 (.nil _)))
  · exact .cons _ _ _ (HS.hc4 times3 hh).1 (.cons _ _ _ (hx _ _).1 (.cons _ _ _ (hx _ _).1 (.nil _)))
  · intro la' lb' z hz
    obtain ⟨ra, ea⟩ := clientScript3_exec hh hkc hb4 r1 l21 l22
    obtain ⟨rb, eb⟩ := serverScript3_exec hh hks r1 l21 l22
    obtain ⟨da, qa, db, qb, h1, h2, h3, h4, hf⟩ := Scripts.run (s := t) hz (pa := []) (pb := [])
      (qa := clientScript3 L kc ks cfgC.sigKp cfgS.sigKp r1 r21 r22 cfgC)
      (qb := serverScript3 L kc ks cfgC.sigKp cfgS.sigKp r1 r21 r22 cfgS) (scripts3 hh hb2 r1)
      ⟨ea, eb, rfl, rfl, rfl⟩
    refine ⟨?_, ?_, fun hst => ?_⟩
    · rw [h1, callsIn_append, h3]; exact List.prefix_append _ _
    · rw [h2, callsIn_append, h4]; exact List.prefix_append _ _
    · obtain ⟨rc, rs, e1, e2, -⟩ := C134_example3 hh hkc hks r1 r21 r22 t hz hst
      have ga := hf.a
      have gb := hf.b
      rw [e1] at ga
      rw [e2] at gb
      cases ga
      cases gb
      rw [h1, h2, List.append_nil, List.append_nil]
      exact ⟨h3, h4⟩

/-- **C135, violated.** In one process, M4 never has the time 2 that the program prints (nor has any later packet the time
printed for it). -/
theorem C135_violated (hh : Honest L kc ks cfgC.sigKp cfgS.sigKp) (hkc : cfgC.encKp = some kc) (hks : cfgS.encKp = some ks)
    (hb2 : cfgS.bufferM2 = false) (hb4 : cfgC.bufferM4 = false) (r1 : Bytes) (l21 : r21.length ≤ 65535)
    (l22 : r22.length ≤ 65535) (t : Nat) {la lb z}
    (hz : SharedTime.Logged L oneTwoThreeObj (.start (clientSession cfgC (Example3.client r1 r21 r22 ()))
          (serverSession cfgS (Example3.server ())) t) la lb z) (hst : z.Stuck L oneTwoThreeObj) :
    ∃ key, L.beforenm ks.pub kc.sec = .ok key ∧
      (∀ sig c, L.box (Spec.m4 2 cfgC.sigKp.pub sig) (Spec.nonce 1) key = .ok c →
        (messages la)[1]? ≠ some (Spec.encrypted false c)) ∧
      (∀ c, L.box (Spec.app 3 r1) (Spec.nonce 3) key = .ok c → (messages la)[2]? ≠ some (Spec.encrypted false c)) ∧
      (∀ c, L.box (Spec.app 3 r1) (Spec.nonce 4) key = .ok c → (messages lb)[2]? ≠ some (Spec.encrypted false c)) ∧
      (∀ c, L.box (Spec.multiApp 4 [r21, r22]) (Spec.nonce 5) key = .ok c →
        (messages la)[3]? ≠ some (Spec.encrypted false c)) ∧
      (∀ c, L.box (Spec.multiApp 4 [r21, r22]) (Spec.nonce 6) key = .ok c →
        (messages lb)[3]? ≠ some (Spec.encrypted true c)) := by
  obtain ⟨key, h1, h2, s3, s4, la', lb', rawA, rawB, k1, -, -, -, -, m1, m2, q1, q2, hr⟩ :=
    C135_common_keeper hh hkc hks hb2 hb4 r1 l21 l22 t
  obtain ⟨rfl, rfl⟩ := (hr la lb z hz).2.2 hst
  have hk : key.length = 32 := by
    have := HS.hk hh
    rw [k1] at this
    simp only [Except.ok.injEq] at this
    rw [this.2.1]; exact this.1
  have inj : ∀ {m m' c : Bytes} {n : Nat}, L.box m (Spec.nonce n) key = .ok c → L.box m' (Spec.nonce n) key = .ok c → m = m' := by
    intro m m' c n e e'
    have o := (hh.box.open_iff c m _ key (nonce_length n) hk).2 e
    rw [(hh.box.open_iff c m' _ key (nonce_length n) hk).2 e'] at o
    exact (Except.ok.inj o).symm
  have enc : ∀ {l : Bool} {c c' : Bytes}, Spec.encrypted l c = Spec.encrypted l c' → c = c' := by
    intro l c c' h; simpa [Spec.encrypted] using h
  refine ⟨key, k1, ?_⟩
  rw [m1, m2]
  cases q1 with
  | cons _ _ c1 b1 q1 => cases q1 with
    | cons _ _ c2 b2 q1 => cases q1 with
      | cons _ _ c3 b3 q1 => cases q2 with
        | cons _ _ d1 e1 q2 => cases q2 with
          | cons _ _ d2 e2 q2 => cases q2 with
            | cons _ _ d3 e3 q2 =>
              simp only [List.getElem?_cons_succ, List.getElem?_cons_zero, ne_eq, Option.some.injEq]
              refine ⟨fun sig c hc h => ?_, fun c hc h => ?_, fun c hc h => ?_, fun c hc h => ?_, fun c hc h => ?_⟩ <;>
                rw [← enc h] at hc
              · have := inj hc e1; simp [Spec.m4, le32] at this
              · have := inj hc e2; simp [Spec.app, le32] at this
              · have := inj hc b2; simp [Spec.app, le32] at this
              · have := inj hc e3; simp [Spec.multiApp, le32] at this
              · have := inj hc b3; simp [Spec.multiApp, le32] at this

/-- **C135, own keepers.** With a time keeper for each side, that is, in separate processes, the times are the printed ones. -/
theorem C135_own_keepers_partial {cc cs : Clock} (S : Setup L cc cs cfgC cfgS kc ks) (hb2 : cfgS.bufferM2 = false)
    (hb4 : cfgC.bufferM4 = false) (hc : Counts cc 0 [(0, .first), (3, .now), (4, .now), (6, .now)])
    (hs : Counts cs 0 [(1, .first), (2, .now), (5, .now), (7, .now)]) (r1 r21 r22 : Bytes) (l21 : r21.length ≤ 65535)
    (l22 : r22.length ≤ 65535) :
    ∃ key h1 h2 s3 s4 la lb rawA rawB, KeysOf L cc cs false kc ks key h1 h2 ∧
      L.sign ([0x53, 0x43, 0x2d, 0x53, 0x49, 0x47, 0x30, 0x31] ++ h1 ++ h2) cfgS.sigKp.sec = .ok s3 ∧
      L.sign ([0x53, 0x43, 0x2d, 0x53, 0x49, 0x47, 0x30, 0x32] ++ h1 ++ h2) cfgC.sigKp.sec = .ok s4 ∧
      messages la = Spec.m1 1 kc.pub none :: rawA ∧ messages lb = Spec.m2 false false 1 ks.pub :: rawB ∧
      SealedAll L key 2 [(false, Spec.m3 2 cfgS.sigKp.pub (s3.take 64)), (false, Spec.app 3 r1),
        (true, Spec.multiApp 4 [r21, r22])] rawB ∧
      SealedAll L key 1 [(false, Spec.m4 2 cfgC.sigKp.pub (s4.take 64)), (false, Spec.app 3 r1),
        (false, Spec.multiApp 4 [r21, r22])] rawA ∧
      ∀ la' lb' Z, Net.Logged (Net.start (party L cc (clientSession cfgC (Example3.client r1 r21 r22 ())) 0)
          (party L cs (serverSession cfgS (Example3.server ())) 0)) la' lb' Z →
        la' <+: la ∧ lb' <+: lb ∧ (Net.Stuck Z → la' = la ∧ lb' = lb) :=
  C111_example3_times S hb2 hb4 hc hs r1 r21 r22 l21 l22

/-! ### Examples -/

/-- A session as in the hypotheses of `C135_violated`. -/
example : Honest toyLib exKc exKs (exCfgC false).sigKp (exCfgS false).sigKp ∧ (exCfgC false).encKp = some exKc ∧
    (exCfgS false).encKp = some exKs ∧ (exCfgS false).bufferM2 = false ∧ (exCfgC false).bufferM4 = false ∧
    Example3.requests.2.1.length ≤ 65535 ∧ Example3.requests.2.2.length ≤ 65535 :=
  ⟨(exSetup false false).honest, rfl, rfl, rfl, rfl, by decide, by decide⟩

/-- Runs can be continued to their end. -/
theorem shared_ends {σ α β : Type} {L : Lib} {T : TimeObj σ} (x : SharedTime σ α β) :
    ∃ la lb z, SharedTime.Logged L T x la lb z ∧ z.Stuck L T := by
  refine (SharedTime.terminates L T x).recOn fun x _ ih => ?_
  by_cases hs : x.Stuck L T
  · exact ⟨[], [], x, .refl x, hs⟩
  · simp only [SharedTime.Stuck, not_forall, not_not] at hs
    obtain ⟨y, hy⟩ := hs
    obtain ⟨la, lb, z, h1, h2⟩ := ih y hy
    cases hy with
    | aOwn e r k ho => exact ⟨_, _, _, .aOwn e r k ho h1, h2⟩
    | aWrite ms l k => exact ⟨_, _, _, .aWrite ms l k h1, h2⟩
    | aRead m k => exact ⟨_, _, _, .aRead m k h1, h2⟩
    | bOwn e r k ho => exact ⟨_, _, _, .bOwn e r k ho h1, h2⟩
    | bWrite ms l k => exact ⟨_, _, _, .bWrite ms l k h1, h2⟩
    | bRead m k => exact ⟨_, _, _, .bRead m k h1, h2⟩

example : ∃ la lb z, SharedTime.Logged toyLib oneTwoThreeObj (.start (clientSession (exCfgC false) (Example3.client
      Example3.requests.1 Example3.requests.2.1 Example3.requests.2.2 ())) (serverSession (exCfgS false) (Example3.server ())) 0) la lb z ∧
    z.Stuck toyLib oneTwoThreeObj := shared_ends _

end Props

end Salt
