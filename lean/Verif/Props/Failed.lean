import Verif.Lemmas.Failed
import Verif.Lemmas.App
import Verif.Props.Session1

/-!
# C123: a handshake that raises leaves no channel and no key of a peer

The claim fails on both sides: `app_channel` is assigned before the peer has proved anything, and `client_sig_key` before
the signature is checked. What is shown: where they can come from.
-/

set_option linter.unusedSimpArgs false

namespace Salt.Props

open Salt Salt.Spec

/-- C123, the claim: when `handshake()` raises on a new object, then `app_channel` and `client_sig_key` are None. -/
def C123_claim : Prop :=
  (∀ cfg tr e s', Call (Client.handshake cfg) Client.init tr (.error e) s' → s'.chan = none) ∧
  (∀ cfg tr e s', Call (Server.handshake cfg) Server.init tr (.error e) s' → s'.chan = none ∧ s'.clientSigKey = none)

/-- What holds for the client: if there is a channel, then its session key was computed from the key in the first packet
read, which is an M2, and the client's own secret key. -/
theorem C123_client_partial {cfg : ClientCfg} {tr : List (Ev env)} {r : Except Err Unit} {s' : ClientSt}
    (h : Call (Client.handshake cfg) Client.init tr r s') (hc : s'.chan ≠ none) :
    ∃ kp raw m2, cfg.encKp = some kp ∧ (readsOf tr).head? = some raw ∧ M2.ctor raw = .ok m2 ∧
      ⟨.beforenm (field raw 6 32) kp.sec, .ok s'.sessionKey⟩ ∈ tr :=
  client_chan_from rfl h hc

/-- What holds for the server's channel: the same with an M1. -/
theorem C123_server_partial {cfg : ServerCfg} {tr : List (Ev env)} {r : Except Err Unit} {s' : ServerSt}
    (h : Call (Server.handshake cfg) Server.init tr r s') (hc : s'.chan ≠ none) :
    ∃ kp raw m1, cfg.encKp = some kp ∧ (readsOf tr).head? = some raw ∧ M1.ctor raw = .ok m1 ∧
      ⟨.beforenm (field raw 10 32) kp.sec, .ok s'.sessionKey⟩ ∈ tr :=
  server_chan_from rfl h hc

/-- What holds for `client_sig_key`: a handshake that raises leaves it set only if the last call was the check of a
signature under this key, it failed, and the handshake would have returned normally with the very same attributes had it
been accepted. (The converse is `C123_server_same`.) -/
theorem C123_key {cfg : ServerCfg} {tr : List (Ev env)} {s' : ServerSt} {pk : Bytes} :
    ((∃ e, Call (Server.handshake cfg) Server.init tr (.error e) s') ∧ s'.clientSigKey = some pk) →
    ∃ tr0 sm e', tr = tr0 ++ [⟨.signOpen sm pk, .error e'⟩] ∧
      ∀ x, Call (Server.handshake cfg) Server.init (tr0 ++ [⟨.signOpen sm pk, .ok x⟩]) (.ok ()) s' := by
  rintro ⟨⟨e, h⟩, hk⟩
  exact server_unforged rfl h hk

/-- What is known about such a key: it is the key in an M4 that was decrypted with the session key of this handshake. -/
theorem C123_key_partial {cfg : ServerCfg} {tr : List (Ev env)} {r : Except Err Unit} {s' : ServerSt} {pk : Bytes}
    (h : Call (Server.handshake cfg) Server.init tr r s') (hk : s'.clientSigKey = some pk) :
    ∃ c m4, OpenedIn c (Spec.nonce 1) s'.sessionKey m4 tr ∧ pk = field m4 6 32 ∧
      ⟨.check (leNat (field m4 2 4)), .ok ()⟩ ∈ tr := by
  have key : ∀ {tr : List (Ev env)}, Call (Server.handshake cfg) Server.init tr (.ok ()) s' →
      ∃ c m4, ⟨.boxOpen c (Spec.nonce 1) s'.sessionKey, .ok m4⟩ ∈ tr.dropLast ∧ pk = field m4 6 32 ∧
        ⟨.check (leNat (field m4 2 4)), .ok ()⟩ ∈ tr.dropLast := by
    intro tr h
    rcases (server_ok h).ex with ⟨r, e', a1, -, -, htr, rfl⟩ | ⟨_, raw1, m1, h1, m2, h2, k, mid, p4, m4, m4p, y, -, -, -,
      -, -, -, -, -, -, -, -, htr, rfl⟩
    · simp [Server.init] at hk
    · refine ⟨p4.drop 2, m4, ?_, (Option.some.inj hk).symm, ?_⟩ <;>
        · rw [htr, show ∀ (l : List (Ev env)) (a b c d : Ev env), l ++ [a, b, c, d] = (l ++ [a, b, c]) ++ [d] by simp,
            List.dropLast_concat]
          simp
  cases r with
  | ok u =>
    obtain ⟨c, m4, h1, h2, h3⟩ := key h
    exact ⟨c, m4, (List.dropLast_subset _) h1, h2, (List.dropLast_subset _) h3⟩
  | error e =>
    obtain ⟨tr0, sm, e', rfl, h'⟩ := C123_key ⟨⟨e, h⟩, hk⟩
    obtain ⟨c, m4, h1, h2, h3⟩ := key (h' [])
    rw [List.dropLast_concat] at h1 h3
    exact ⟨c, m4, List.mem_append_left _ h1, h2, List.mem_append_left _ h3⟩

/-- Why the claim fails for the server: let the last answer in any handshake that serves a client instead be that the
signature is wrong. Then the handshake raises `BadPeer`, and all attributes are as if it had returned normally. -/
theorem C123_server_same {cfg : ServerCfg} {s s' : ServerSt} {tr : List (Ev env)} {sm pk x : Bytes}
    (h : Call (Server.handshake cfg) s (tr ++ [⟨.signOpen sm pk, .ok x⟩]) (.ok ()) s') :
    Call (Server.handshake cfg) s (tr ++ [⟨.signOpen sm pk, .error .badSignature⟩]) (.error .badPeer) s' :=
  server_forged h

/-- Why it fails for the client: let in any handshake that completes the signature of M3 instead be wrong. Then the
handshake raises `BadPeer`, `app_channel` is there, and what is written to it (here: one message `m`) is encrypted with
the session key and sent to the peer that has not proved its identity. -/
theorem C123_client_usable {cfg : ClientCfg} {s s' : ClientSt} {tr : List (Ev env)}
    (h : Call (Client.handshake cfg) s tr (.ok ()) s') :
    ∃ tr1 tr2 sm pk x s1 c, tr = tr1 ++ ⟨.signOpen sm pk, .ok x⟩ :: tr2 ∧
      Call (Client.handshake cfg) s (tr1 ++ [⟨.signOpen sm pk, .error .badSignature⟩]) (.error .badPeer) s1 ∧
      s1.chan = some c ∧ ∀ m t b, ∃ c', Call (App.write [m] false) c [⟨.time, .ok t⟩,
        ⟨.box (Spec.app t m) (Spec.nonce 1) s'.sessionKey, .ok b⟩, ⟨.write [Spec.encrypted false b] false, .ok ()⟩]
        (.ok ()) c' := by
  obtain ⟨tr1, tr2, sm, pk, x, s1, f, h1, h2, -, h3⟩ := client_forged h
  refine ⟨tr1, tr2, sm, pk, x, s1, _, h1, h2, h3, fun m t b => ⟨⟨⟨s'.sessionKey, zeros 8, 4, 1 + 2, [], f⟩, none, []⟩, ?_⟩⟩
  unfold Call
  rw [App_write_run]
  refine .op _ _ _ _ _ ?_
  simp only [pending, List.nil_append, appPackets, List.length_cons, List.length_nil, Exec_bind]
  exact ⟨_, _, [], rfl, Enc_write1_do rfl (show (1:Nat) < 2 ^ 64 by decide) _ b false, .ret _⟩

/-- The claim is violated by the client. -/
theorem C123_client_violated : ∃ cfg tr e s', Call (Client.handshake cfg) Client.init tr (.error e) s' ∧ s'.chan ≠ none := by
  obtain ⟨tr, s', h⟩ := exClient_call false Client.init
  obtain ⟨tr1, tr2, sm, pk, x, s1, c, -, h1, h2, -⟩ := C123_client_usable h
  exact ⟨_, _, _, s1, h1, by simp [h2]⟩

/-- The claim is violated by the server: the key of a client is left although no signature was accepted. -/
theorem C123_server_violated : ∃ cfg tr s' pk, Call (Server.handshake cfg) Server.init tr (.error .badPeer) s' ∧
    s'.chan ≠ none ∧ s'.clientSigKey = some pk ∧ ∀ sig msg pk, ¬ AcceptedIn pk sig msg tr := by
  obtain ⟨s', h, hd⟩ := server_runs' (exServer_good false) Server.init
  have hf : serverFull (exServer false) exEnc exSP = serverHead exSP ++ serverPlain (exServer false) exEnc exSP ++
      (serverTail exSP).take 3 ++
      [⟨.signOpen (field exSP.m4 38 64 ++ scSig02 ++ exSP.h1 ++ exSP.h2) (field exSP.m4 6 32), .ok exSP.x⟩] := by
    simp [serverFull, serverTail, exServer]
  rw [hf] at h
  obtain ⟨f, hc⟩ := hd.chan
  refine ⟨_, _, s', _, C123_server_same h, by simp [hc], hd.peer, ?_⟩
  rintro sig msg pk ⟨x, hx⟩
  simp [serverHead, serverPlain, serverTail] at hx

theorem C123_claim_false : ¬ C123_claim := by
  intro h
  obtain ⟨cfg, tr, e, s', h1, h2⟩ := C123_client_violated
  exact h2 (h.1 cfg tr e s' h1)

example : ∃ cfg tr r s', Call (Server.handshake cfg) Server.init tr r s' ∧ s'.chan ≠ none :=
  let ⟨cfg, tr, s', _, h, hc, _⟩ := C123_server_violated
  ⟨cfg, tr, _, s', h, hc⟩

example : ∃ cfg tr s' pk, (∃ e, Call (Server.handshake cfg) Server.init tr (.error e) s') ∧ s'.clientSigKey = some pk :=
  let ⟨cfg, tr, s', pk, h, _, hk, _⟩ := C123_server_violated
  ⟨cfg, tr, s', pk, ⟨_, h⟩, hk⟩

example : ∃ tr s', Call (Client.handshake (exClient true)) Client.init tr (.ok ()) s' := exClient_call true _

end Salt.Props
