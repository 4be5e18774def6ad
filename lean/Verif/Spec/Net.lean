import Verif.Model.Client
import Verif.Model.Server
import Verif.Spec.Trace
import Verif.Spec.CryptoLaws
import Verif.Spec.Wire

/-!
# Two parties joined by reliable links

Programs that read and write messages, joined by two first-in first-out links, scheduled in any way.
-/

namespace Salt.Spec

open Salt

/-- Two programs and the messages in flight between them, oldest first. -/
structure Net (α β : Type) where
  a : IT appSig α
  b : IT appSig β
  /-- from `a` to `b` -/
  ab : List Bytes
  /-- from `b` to `a` -/
  ba : List Bytes

namespace Net

variable {α β : Type}

/-- One of the two performs its next operation: a write puts its messages on the link, a read takes
the oldest message from the link; a read waits while there is none. -/
inductive Step : Net α β → Net α β → Prop
  | aWrite {b ab ba} (ms : List Bytes) (l : Bool) (k : Except Err Unit → IT appSig α) :
      Step ⟨.op (S := appSig) (.write ms l) k, b, ab, ba⟩ ⟨k (.ok ()), b, ab ++ ms, ba⟩
  | aRead {b ab ba} (m : Bytes) (k : Except Err Bytes → IT appSig α) :
      Step ⟨.op (S := appSig) .read k, b, ab, m :: ba⟩ ⟨k (.ok m), b, ab, ba⟩
  | bWrite {a ab ba} (ms : List Bytes) (l : Bool) (k : Except Err Unit → IT appSig β) :
      Step ⟨a, .op (S := appSig) (.write ms l) k, ab, ba⟩ ⟨a, k (.ok ()), ab, ba ++ ms⟩
  | bRead {a ab ba} (m : Bytes) (k : Except Err Bytes → IT appSig β) :
      Step ⟨a, .op (S := appSig) .read k, m :: ab, ba⟩ ⟨a, k (.ok m), ab, ba⟩

/-- A schedule of `n` steps leads from one configuration to another. -/
inductive Run : Nat → Net α β → Net α β → Prop
  | refl (x) : Run 0 x x
  | step {x y z n} : Step x y → Run n y z → Run (n + 1) x z

/-- Nothing more can happen: each side has finished or waits for a message that is not there. -/
def Stuck (x : Net α β) : Prop := ∀ y, ¬ Step x y

/-- The initial configuration. -/
def start (a : IT appSig α) (b : IT appSig β) : Net α β := ⟨a, b, [], []⟩

/-- Every write call made in a run of the network has the property `P`. -/
def Calls (P : List Bytes → Prop) (x : Net α β) : Prop :=
  ∀ n z, Run n x z → (∀ ms l k, z.a = .op (S := appSig) (.write ms l) k → P ms) ∧
    ∀ ms l k, z.b = .op (S := appSig) (.write ms l) k → P ms

end Net

/-- How a side of two networks ends: both return, with results related by `Q`, or both wait for a message. -/
inductive SameEnd {α α' : Type} (Q : α → α' → Prop) : IT appSig α → IT appSig α' → Prop
  | ret {x y} : Q x y → SameEnd Q (.ret x) (.ret y)
  | wait (k k') : SameEnd Q (.op (S := appSig) .read k) (.op (S := appSig) .read k')

/-- The network `x` ends, whatever the schedule, in the configuration `y`. -/
def EndsIn {α β : Type} (x y : Net α β) : Prop :=
  Net.Stuck y ∧ ∃ n, Net.Run n x y ∧ ∀ m z, Net.Run m x z → m ≤ n ∧ (Net.Stuck z → z = y)

/-- Whatever the schedules, both networks end, and in the same way on both sides; a link on which nothing is left in the
first has nothing left in the second. -/
def SameOutcome {α β α' β' : Type} (Qa : α → α' → Prop) (Qb : β → β' → Prop) (x : Net α β) (X : Net α' β') : Prop :=
  ∃ y Y, EndsIn x y ∧ EndsIn X Y ∧ SameEnd Qa y.a Y.a ∧ SameEnd Qb y.b Y.b ∧ (y.ab = [] → Y.ab = []) ∧ (y.ba = [] → Y.ba = [])

/-- A time keeper and a time checker, as functions of how often they have been called. -/
structure Clock where
  first : Nat → Nat
  now : Nat → Nat
  report : Nat → Nat → Except Err Unit
  check : Nat → Nat → Except Err Unit

/-- `c` accepts all times `d` produces (as transmitted: 32 bits). -/
structure Accepts (c d : Clock) : Prop where
  first : ∀ i j, c.report i (d.first j % 2 ^ 32) = .ok ()
  checkFirst : ∀ i j, c.check i (d.first j % 2 ^ 32) = .ok ()
  check : ∀ i j, c.check i (d.now j % 2 ^ 32) = .ok ()

/-- A party: the program with its crypto library and its time objects; what remains are reads and
writes on the channel.  The last argument counts the calls of the time objects. -/
def party (L : Lib) (c : Clock) {β : Type} : IT env β → Nat → IT appSig β
  | .ret b, _ => .ret b
  | .op .read k, i => .op (S := appSig) .read fun r => party L c (k r) i
  | .op (.write ms l) k, i => .op (S := appSig) (.write ms l) fun r => party L c (k r) i
  | .op .firstTime k, i => party L c (k (.ok (c.first i))) (i + 1)
  | .op .time k, i => party L c (k (.ok (c.now i))) (i + 1)
  | .op (.report t) k, i => party L c (k (c.report i t)) (i + 1)
  | .op (.check t) k, i => party L c (k (c.check i t)) (i + 1)
  | .op (.sign m sk) k, i => party L c (k (L.sign m sk)) i
  | .op (.signOpen sm pk) k, i => party L c (k (L.signOpen sm pk)) i
  | .op (.hash m) k, i => party L c (k (L.hash m)) i
  | .op (.beforenm pk sk) k, i => party L c (k (L.beforenm pk sk)) i
  | .op (.box m n key) k, i => party L c (k (L.box m n key)) i
  | .op (.boxOpen d n key) k, i => party L c (k (L.boxOpen d n key)) i

/-- A program on a channel object whose methods are `h`; exceptions are given to the program. -/
def runOn {σ β : Type} (h : (e : AppOp) → Py env σ e.Resp) : IT appSig β → σ → IT env (β × σ)
  | .ret b, s => .ret (b, s)
  | .op e k, s => (h e s).bind fun (r, s') => runOn h (k r) s'

/-- The application program on the channel of a session, after the handshake. -/
def clientAfter {β : Type} (prog : IT appSig β) : Except Err Unit × ClientSt → IT env (Except Err β × ClientSt)
  | (.error e, s) => .ret (.error e, s)
  | (.ok _, s) => match s.chan with
    | none => .ret (.error .attributeError, s)
    | some c => (App.run prog c).bind fun (b, c') => .ret (.ok b, { s with chan := some c' })

/-- What a client does: a new session, the handshake, then the application program on the channel. -/
def clientSession {β : Type} (cfg : ClientCfg) (prog : IT appSig β) : IT env (Except Err β × ClientSt) :=
  (Client.handshake cfg Client.init).bind (clientAfter prog)

/-- The application program on the channel of a session, after the handshake. -/
def serverAfter {β : Type} (prog : IT appSig β) : Except Err Unit × ServerSt → IT env (Except Err β × ServerSt)
  | (.error e, s) => .ret (.error e, s)
  | (.ok _, s) => match s.chan with
    | none => .ret (.error .attributeError, s)
    | some c => (App.run prog c).bind fun (b, c') => .ret (.ok b, { s with chan := some c' })

/-- What a server does. -/
def serverSession {β : Type} (cfg : ServerCfg) (prog : IT appSig β) : IT env (Except Err β × ServerSt) :=
  (Server.handshake cfg Server.init).bind (serverAfter prog)

/-- The client's handshake and program ended normally, with the result `a`; it has derived `key`, hashed M1 and
M2 to `h1` and `h2`, and the signing key in the M3 it verified is `peer`. -/
def ClientEnd {α : Type} (key h1 h2 peer : Bytes) (a : α) (p : Except Err α × ClientSt) : Prop :=
  p.1 = .ok a ∧ p.2.sessionKey = key ∧ p.2.m1Hash = h1 ∧ p.2.m2Hash = h2 ∧ p.2.m3.map M34.sigKey = some peer

/-- The same for the server; `peer` is what `client_sig_key` holds. -/
def ServerEnd {β : Type} (key h1 h2 peer : Bytes) (b : β) (p : Except Err β × ServerSt) : Prop :=
  p.1 = .ok b ∧ p.2.sessionKey = key ∧ p.2.m1Hash = h1 ∧ p.2.m2Hash = h2 ∧ p.2.clientSigKey = some peer

/-- Both parties are as they should be. -/
structure Setup (L : Lib) (cc cs : Clock) (cfgC : ClientCfg) (cfgS : ServerCfg) (kc ks : KeyPair) : Prop where
  honest : Honest L kc ks cfgC.sigKp cfgS.sigKp
  encC : cfgC.encKp = some kc
  encS : cfgS.encKp = some ks
  acceptsC : Accepts cc cs
  acceptsS : Accepts cs cc

/-- The key and the hashes of a session: the key that both sides make from the encryption keys, and the hashes of the M1
and the M2 that were sent.  The time of M1 is the first reading of the client's clock, that of M2 the first one, or with
`buffer_m2` the second one, of the server's. -/
structure KeysOf (L : Lib) (cc cs : Clock) (bufferM2 : Bool) (kc ks : KeyPair) (key h1 h2 : Bytes) : Prop where
  length : key.length = 32
  client : L.beforenm ks.pub kc.sec = .ok key
  server : L.beforenm kc.pub ks.sec = .ok key
  hash1 : L.hash (Spec.m1 (cc.first 0) kc.pub none) = .ok h1
  hash2 : L.hash (Spec.m2 false false (if bufferM2 then cs.first 2 else cs.first 1) ks.pub) = .ok h2

/-- Both sides of a session have ended normally, with the results `a` and `b`, the key and hashes of `KeysOf`, and the
signing key of the other side. -/
def Agreed {α β : Type} (L : Lib) (cc cs : Clock) (cfgC : ClientCfg) (cfgS : ServerCfg) (kc ks : KeyPair) (a : α) (b : β)
    (rc : Except Err α × ClientSt) (rs : Except Err β × ServerSt) : Prop :=
  ∃ key h1 h2, KeysOf L cc cs cfgS.bufferM2 kc ks key h1 h2 ∧ ClientEnd key h1 h2 cfgS.sigKp.pub a rc ∧
    ServerEnd key h1 h2 cfgC.sigKp.pub b rs

/-- The same for the client alone. -/
def AgreedC {α : Type} (L : Lib) (cc cs : Clock) (cfgS : ServerCfg) (kc ks : KeyPair) (a : α)
    (rc : Except Err α × ClientSt) : Prop :=
  ∃ key h1 h2, KeysOf L cc cs cfgS.bufferM2 kc ks key h1 h2 ∧ ClientEnd key h1 h2 cfgS.sigKp.pub a rc

/-- The same for the server alone. -/
def AgreedS {β : Type} (L : Lib) (cc cs : Clock) (cfgC : ClientCfg) (cfgS : ServerCfg) (kc ks : KeyPair) (b : β)
    (rs : Except Err β × ServerSt) : Prop :=
  ∃ key h1 h2, KeysOf L cc cs cfgS.bufferM2 kc ks key h1 h2 ∧ ServerEnd key h1 h2 cfgC.sigKp.pub b rs

/-- The program writes at most `n` messages in all, in calls carrying between 1 and `cap` messages. -/
def Modest {β : Type} (cap : Nat) : IT appSig β → Nat → Prop
  | .ret _, _ => True
  | .op .read k, n => ∀ r, Modest cap (k r) n
  | .op (.write ms _) k, n => ms ≠ [] ∧ ms.length ≤ cap ∧ ms.length ≤ n ∧ ∀ r, Modest cap (k r) (n - ms.length)

end Salt.Spec
