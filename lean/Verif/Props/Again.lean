import Verif.Lemmas.Again
import Verif.Props.Session1
import Verif.Props.Session4

/-!
# C122: a session object can be used for another handshake

The clause that fails: `handshake()` of the server assigns `client_sig_key` before the signature is looked at, and does not
reset the attributes that earlier calls have assigned. The client always starts afresh.
-/

set_option linter.unusedSimpArgs false

namespace Salt.Props

open Salt Salt.Spec

/-- C122, the claim: on an object that was used before, `handshake()` does what it does on a new object, and leaves the
attributes that it leaves on a new object. -/
def C122_claim : Prop :=
  (∀ cfg s, UsedClient cfg s →
    SameCalls (Client.handshake cfg) s Client.init fun r x y => r = .ok () → x = y) ∧
  (∀ cfg s, UsedServer cfg s →
    SameCalls (Server.handshake cfg) s Server.init fun r x y => r = .ok () → x = y)

/-- C122 for the client: whatever the attributes are before, `handshake()` makes the calls it makes on a new object, given
the same answers, and returns normally or raises as it does there. If it returns normally, then all attributes are as on
a new object. If it raises, then each attribute is as on a new object, or was not assigned. -/
theorem C122_client_partial (cfg : ClientCfg) (s : ClientSt) :
    SameCalls (Client.handshake cfg) s Client.init fun r x y =>
      (r = .ok () → x = y) ∧ ClientMixed s y x := by
  have h := (client_again cfg s).sameCalls (s := s) (t := Client.init)
    ⟨ClientMixed.start s _, by simp, by simp, by simp, by simp, by simp⟩
  refine h.mono fun r x y h => ?_
  cases r with
  | error e => exact ⟨nofun, h⟩
  | ok u =>
    cases (show x = y from h)
    exact ⟨fun _ => rfl, .inl rfl, .inl rfl, .inl rfl, .inl rfl, .inl rfl, .inl rfl, .inl rfl, .inl rfl⟩

/-- C122 for the server: whatever the attributes are before, `handshake()` makes the calls it makes on a new object, given
the same answers, and returns normally or raises as it does there. If it has served a client, then all attributes are as
on a new object except that `is_done` is as it was before. If it has answered an A1, then all attributes but `is_done` and
`m1` are as they were before. If it raises, then each attribute is as on a new object, or was not assigned. -/
theorem C122_server_partial (cfg : ServerCfg) (s : ServerSt) :
    SameCalls (Server.handshake cfg) s Server.init fun r x y =>
      (r = .ok () → ServerOkAgain s x y) ∧ (r ≠ .ok () → ServerMixed s y x) := by
  have h := (server_again cfg s).sameCalls (s := s) (t := Server.init) ⟨rfl, rfl⟩
  refine h.mono fun r x y h => ?_
  cases r with
  | error e => exact ⟨nofun, fun _ => h⟩
  | ok u => exact ⟨fun _ => h, fun h => (h rfl).elim⟩

/-- A server handshake that returns normally on an object on which no A1 was answered before (`is_done` is False) leaves
the attributes as on a new object, unless it answers an A1. -/
theorem C122_server_fresh {cfg : ServerCfg} {s x : ServerSt} {tr : List (Ev env)} (hs : s.isDone = false)
    (h : Call (Server.handshake cfg) s tr (.ok ()) x) (hx : x.isDone = false) :
    Call (Server.handshake cfg) Server.init tr (.ok ()) x := by
  obtain ⟨y, hy, h1, -⟩ := (C122_server_partial cfg s).1 _ _ _ h
  rcases h1 rfl with ⟨rfl, -⟩ | ⟨hd, rfl⟩
  · simp at hx
  · have : ({ y with isDone := s.isDone } : ServerSt) = y := by rw [hs, ← hd]
    rwa [this]

example : ∃ tr s tr' x, UsedServer (exServer false) s ∧ Call (Server.handshake (exServer false)) Server.init tr (.ok ()) s ∧
    Call (Server.handshake (exServer false)) s tr' (.ok ()) x := by
  obtain ⟨tr, s, h⟩ := exServer_call false Server.init
  obtain ⟨tr', x, h'⟩ := exServer_call false s
  exact ⟨tr, s, tr', x, .handshake .new h, h, h'⟩

example : ∃ tr s tr' x, UsedClient (exClient true) s ∧ Call (Client.handshake (exClient true)) Client.init tr (.ok ()) s ∧
    Call (Client.handshake (exClient true)) s tr' (.ok ()) x := by
  obtain ⟨tr, s, h⟩ := exClient_call true Client.init
  obtain ⟨tr', x, h'⟩ := exClient_call true s
  exact ⟨tr, s, tr', x, .handshake .new h, h, h'⟩

/-- Why C122 fails for the server: let any handshake that served a client be given, and let the M4 in it instead be one whose
signature is wrong. The handshake raises `BadPeer`. If the next peer on the same object sends an A1, then `handshake()`
returns normally, `client_sig_key` is the key from the M4 with the wrong signature, and `app_channel` is the channel of the
peer that sent it. -/
theorem C122_forged {cfg : ServerCfg} {kp : KeyPair} {s s' : ServerSt} {tr : List (Ev env)} {sm pk x raw : Bytes} {e : Err}
    {a : Packet} (hk : cfg.encKp = some kp)
    (h : Call (Server.handshake cfg) s (tr ++ [⟨.signOpen sm pk, .ok x⟩]) (.ok ()) s')
    (hm : M1.ctor raw = .error e) (ha : A1.ctor raw = .ok a) :
    ∃ s1 s2, Call (Server.handshake cfg) s (tr ++ [⟨.signOpen sm pk, .error .badSignature⟩]) (.error .badPeer) s1 ∧
      Call (Server.handshake cfg) s1 [⟨.read, .ok raw⟩,
        ⟨.write [a1Answer cfg] true, .ok ()⟩] (.ok ()) s2 ∧
      s2.clientSigKey = some pk ∧ s2.chan = s'.chan ∧ s2.chan.isSome = true := by
  have ha' := server_a1 hk hm ha s'
  unfold serverA1 at ha'
  rw [a1Answer_eq] at ha'
  refine ⟨s', _, server_forged h, ha', ?_⟩
  rcases (server_ok h).ex with ⟨r, e', a1, -, -, htr, -⟩ | ⟨_, raw1, m1, h1, m2, h2, k, mid, p4, m4, m4p, y, -, -, -,
    -, -, -, -, -, -, -, -, htr, rfl⟩
  · exfalso
    have : [(⟨.read, .ok r⟩ : Ev env), ⟨.write [(cfg.a2.getD (A2.ofCase .default)).toBytes] true, .ok ()⟩] =
      [⟨.read, .ok r⟩] ++ [⟨.write [(cfg.a2.getD (A2.ofCase .default)).toBytes] true, .ok ()⟩] := rfl
    rw [this] at htr
    have := (List.append_inj' htr rfl).2
    simp at this
  · rw [show ∀ (l : List (Ev env)) (a b c d : Ev env), l ++ [a, b, c, d] = (l ++ [a, b, c]) ++ [d] by simp] at htr
    have := (List.append_inj' htr rfl).2
    simp only [List.cons.injEq, Ev.mk.injEq, and_true, EnvOp.signOpen.injEq] at this
    exact ⟨by rw [this.1.2], rfl, rfl⟩

/-- The claim is violated: a used server session object on which `handshake()` has never accepted a signature reports, after
a call of `handshake()` that returned normally, the key of a client; a new object reports none. -/
theorem C122_violated : ∃ cfg tr1 tr2 s1 s2 pk,
    Call (Server.handshake cfg) Server.init tr1 (.error .badPeer) s1 ∧
    Call (Server.handshake cfg) s1 tr2 (.ok ()) s2 ∧
    s2.clientSigKey = some pk ∧ s2.chan.isSome = true ∧
    (∀ sig msg, ¬ AcceptedIn pk sig msg (tr1 ++ tr2)) ∧
    (∀ y, Call (Server.handshake cfg) Server.init tr2 (.ok ()) y → y.clientSigKey = none ∧ y.chan = none) := by
  obtain ⟨s', h, -⟩ := server_runs' (exServer_good false) Server.init
  have hf : serverFull (exServer false) exEnc exSP = serverHead exSP ++ serverPlain (exServer false) exEnc exSP ++
      (serverTail exSP).take 3 ++
      [⟨.signOpen (field exSP.m4 38 64 ++ scSig02 ++ exSP.h1 ++ exSP.h2) (field exSP.m4 6 32), .ok exSP.x⟩] := by
    simp [serverFull, serverTail, exServer]
  rw [hf] at h
  obtain ⟨e, hm⟩ : ∃ e, M1.ctor (Spec.a1 0 []) = .error e := ⟨_, rfl⟩
  obtain ⟨a, ha⟩ : ∃ a, A1.ctor (Spec.a1 0 []) = .ok a := ⟨_, rfl⟩
  obtain ⟨s1, s2, h1, h2, h3, -, h4⟩ := C122_forged (kp := exEnc) rfl h hm ha
  refine ⟨_, _, _, s1, s2, _, h1, h2, h3, h4, ?_, ?_⟩
  · rintro sig msg ⟨x, hx⟩
    simp [serverHead, serverPlain, serverTail] at hx
  · intro y hy
    rcases (server_ok hy).ex with ⟨r, e', a1, -, -, htr, rfl⟩ | ⟨_, raw1, m1, h1, m2, h2, k, mid, p4, m4, m4p, y, -, -, -,
      -, -, -, -, -, -, -, -, htr, -⟩
    · exact ⟨rfl, rfl⟩
    · have := congrArg List.length htr
      simp at this

/-- Another clause that fails: `is_done` is never reset. After an A1, a handshake that serves a client leaves it True; on a
new object the same handshake leaves it False. -/
theorem C122_done_stays : ∃ cfg tr1 tr2 s1 s2 y,
    Call (Server.handshake cfg) Server.init tr1 (.ok ()) s1 ∧ Call (Server.handshake cfg) s1 tr2 (.ok ()) s2 ∧
    Call (Server.handshake cfg) Server.init tr2 (.ok ()) y ∧ s2.clientSigKey.isSome = true ∧
    s2.isDone = true ∧ y.isDone = false := by
  obtain ⟨e, hm⟩ : ∃ e, M1.ctor (Spec.a1 0 []) = .error e := ⟨_, rfl⟩
  obtain ⟨a, ha⟩ : ∃ a, A1.ctor (Spec.a1 0 []) = .ok a := ⟨_, rfl⟩
  have h1 := server_a1 (cfg := exServer false) (kp := exEnc) rfl hm ha Server.init
  obtain ⟨s2, h2, hd⟩ := server_runs' (exServer_good false) { Server.init with m1 := none, isDone := true }
  obtain ⟨y, hy, h3, -⟩ := (C122_server_partial _ _).1 _ _ _ h2
  refine ⟨_, _, _, _, s2, y, h1, h2, hy, by rw [hd.peer]; rfl, ?_⟩
  rcases h3 rfl with ⟨rfl, -⟩ | ⟨h4, rfl⟩
  · have := hd.peer
    simp [Server.init] at this
  · exact ⟨rfl, h4⟩

theorem C122_claim_false : ¬ C122_claim := by
  intro h
  obtain ⟨cfg, tr1, tr2, s1, s2, pk, h1, h2, h3, -, -, h4⟩ := C122_violated
  obtain ⟨y, hy, hxy⟩ := (h.2 cfg s1 (.handshake .new h1)).1 _ _ _ h2
  have := (h4 y hy).1
  rw [← hxy rfl, h3] at this
  cases this

end Salt.Props
