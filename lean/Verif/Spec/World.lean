import Verif.Spec.Session

/-!
# Many sessions on a network that an attacker controls

A world is the set of the sessions of honest parties, each with all its calls and all the answers it got;
the answers of the network are arbitrary.
-/

namespace Salt.Spec

open Salt

/-- The messages of all write calls, whether they succeeded or not. -/
def triedMsgs : List Done → List Bytes
  | [] => []
  | .write ms _ _ :: ds => ms ++ triedMsgs ds
  | .read _ :: ds => triedMsgs ds

/-- After a write call that raised there is no further write call. -/
def FailsLast : List Done → Prop
  | [] => True
  | .write _ _ (.error _) :: ds => ∀ ms l r, Done.write ms l r ∉ ds
  | .write _ _ (.ok _) :: ds => FailsLast ds
  | .read _ :: ds => FailsLast ds

/-- A program of an application has made the calls `ds`, with these outcomes, and returned `x`. -/
def Did {β : Type} : IT appSig β → List Done → β → Prop
  | .ret y, ds, x => ds = [] ∧ y = x
  | .op .read k, ds, x => ∃ r ds', ds = .read r :: ds' ∧ Did (k r) ds' x
  | .op (.write ms l) k, ds, x => ∃ r ds', ds = .write ms l r :: ds' ∧ Did (k r) ds' x

/-- One session: the configuration, the events of the handshake, its outcome, the attributes of the
session object after it, and, if there is a channel, the calls of the application on it, their events and
their outcomes. -/
structure Run (γ σ : Type) where
  cfg : γ
  hs : List (Ev env)
  res : Except Err Unit
  st : σ
  ops : List AppOp
  app : List (Ev env)
  done : List Done

/-- All events of a session. -/
def Run.tr {γ σ : Type} (r : Run γ σ) : List (Ev env) := r.hs ++ r.app

/-- The session is one of the modelled code, with a new session object. -/
def Run.Of {γ σ : Type} (m : γ → Py env σ Unit) (init : σ) (chan : σ → Option AppSt) (r : Run γ σ) : Prop :=
  Call (m r.cfg) init r.hs r.res r.st ∧
  match chan r.st with
  | none => r.ops = [] ∧ r.app = [] ∧ r.done = []
  | some c => ∃ c', Exec (callAll appOps r.ops c) r.app (r.done, c')

/-- The sessions of the honest parties. -/
structure World where
  cli : Run ClientCfg ClientSt → Prop
  srv : Run ServerCfg ServerSt → Prop

/-- `t` is what happened in one of the sessions. -/
def World.Tr (W : World) (t : List (Ev env)) : Prop :=
  (∃ c, W.cli c ∧ t = c.tr) ∨ ∃ s, W.srv s ∧ t = s.tr

/-- In the run `tr` the session key `k` was computed from the public key `pk` and the secret key `sk`. -/
def KeyIn (pk sk k : Bytes) (tr : List (Ev env)) : Prop := ⟨EnvOp.beforenm pk sk, .ok k⟩ ∈ tr

/-- A client session and a server session have computed the key `k` from each other's public keys. -/
def Shared (c : Run ClientCfg ClientSt) (s : Run ServerCfg ServerSt) (k : Bytes) : Prop :=
  ∃ kc ks, c.cfg.encKp = some kc ∧ s.cfg.encKp = some ks ∧ KeyIn ks.pub kc.sec k c.tr ∧ KeyIn kc.pub ks.sec k s.tr

/-- What is assumed of the cryptography. -/
structure World.Ideal (W : World) : Prop where
  /-- the sessions are those of the modelled code -/
  cli : ∀ c, W.cli c → c.Of Client.handshake Client.init ClientSt.chan
  srv : ∀ s, W.srv s → s.Of Server.handshake Server.init ServerSt.chan
  /-- hash values have 64 bytes, and no collision was found -/
  hashLen : ∀ t, W.Tr t → ∀ m h, HashedIn m h t → h.length = 64
  hashInj : ∀ t t', W.Tr t → W.Tr t' → ∀ a b h, HashedIn a h t → HashedIn b h t' → a = b
  /-- the key agreement agrees -/
  agree : ∀ c s kc ks k k', W.cli c → W.srv s → c.cfg.encKp = some kc → s.cfg.encKp = some ks →
    KeyIn ks.pub kc.sec k c.tr → KeyIn kc.pub ks.sec k' s.tr → k = k'
  /-- what was opened under a key that two sessions computed from each other's public keys was sealed by
  one of the two: nobody else knows or uses the key, and nobody can forge without it -/
  integrity : ∀ c s k, W.cli c → W.srv s → Shared c s k →
    ∀ x ∈ opens c.tr ++ opens s.tr, x.key = k → x ∈ seals c.tr ++ seals s.tr

/-- What was accepted under the public key `pk` was signed with the secret key `sk` in one of the
sessions: nobody else has `sk`, and nobody can forge a signature without it. -/
def World.Unforgeable (W : World) (pk sk : Bytes) : Prop :=
  ∀ t, W.Tr t → ∀ sm x, ⟨EnvOp.signOpen sm pk, .ok x⟩ ∈ t → ∃ t', W.Tr t' ∧ SignedIn sk (sm.drop 64) t'

/-- What one application has read is what the other has passed to its write calls: in the same order,
nothing added, changed or repeated; and without a gap, provided that no time check failed and the writer
gave up after a write call that raised. -/
def Delivered {γ σ γ' σ' : Type} (w : Run γ σ) (r : Run γ' σ') : Prop :=
  (readMsgs r.done).Sublist (triedMsgs w.done) ∧
  (ChecksOk r.app → FailsLast w.done → readMsgs r.done <+: triedMsgs w.done)

/-- The two sessions have the same first two messages: the server received the M1 sent by the client, and
the M2 the client received is the one the server made. -/
def SameStart (c : Run ClientCfg ClientSt) (s : Run ServerCfg ServerSt) : Prop :=
  ∃ m1 m2, (writesOf c.hs).head? = some ([m1], false) ∧ (readsOf c.hs).head? = some m2 ∧
    (readsOf s.hs).head? = some m1 ∧
    (∃ u k, u ∈ firstTimesOf s.hs ∧ s.cfg.encKp = some k ∧ m2 = Spec.m2 false false u k.pub) ∧
    ∃ enc3, ((writesOf s.hs).flatMap fun w => w.1) <+: [m2, enc3]

end Salt.Spec
