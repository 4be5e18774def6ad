import Verif.Spec.App
import Verif.Model.Client
import Verif.Model.Server

/-!
# Vocabulary for statements about sessions
-/

namespace Salt.Spec

open Salt

/-- The `n` bytes at offset `off`; bytes beyond the end count as zero. -/
def field (raw : Bytes) (off n : Nat) : Bytes := (raw.drop off ++ List.replicate n 0).take n

/-- The bytes of an ASCII string. -/
def ascii (cs : List Char) : Bytes := cs.map fun c => UInt8.ofNat c.toNat

/-- `SC-SIG01`. -/
def scSig01 : Bytes := ascii ['S', 'C', '-', 'S', 'I', 'G', '0', '1']
/-- `SC-SIG02`. -/
def scSig02 : Bytes := ascii ['S', 'C', '-', 'S', 'I', 'G', '0', '2']

/-- The answers of `get_first_time`, in order. -/
def firstTimesOf : List (Ev env) → List Nat
  | [] => []
  | ⟨.firstTime, .ok t⟩ :: tr => t :: firstTimesOf tr
  | _ :: tr => firstTimesOf tr

/-- The messages written in the clear: those that are not encrypted packets (type 6). -/
def clearOf (tr : List (Ev env)) : List Bytes :=
  ((writesOf tr).flatMap fun w => w.1).filter fun m => m.head? != some 6

/-- `m` was signed with the secret key `sk` in the run `tr`. -/
def SignedIn (sk m : Bytes) (tr : List (Ev env)) : Prop := ∃ x, ⟨EnvOp.sign m sk, .ok x⟩ ∈ tr

/-- `h` was computed as the hash of `m` in the run `tr`. -/
def HashedIn (m h : Bytes) (tr : List (Ev env)) : Prop := ⟨EnvOp.hash m, .ok h⟩ ∈ tr

/-- In the run `tr` the message `msg` with signature `sig` was accepted under the public key `pk`. -/
def AcceptedIn (pk sig msg : Bytes) (tr : List (Ev env)) : Prop :=
  ∃ x, ⟨EnvOp.signOpen (sig ++ msg) pk, .ok x⟩ ∈ tr

/-- In the run `tr` the ciphertext `c` was opened with nonce `n` and key `k`, giving `m`. -/
def OpenedIn (c n k m : Bytes) (tr : List (Ev env)) : Prop := ⟨EnvOp.boxOpen c n k, .ok m⟩ ∈ tr

/-- The message starts as an M1 does (`SCv2`, packet type 1), as far as it goes. -/
def LikeM1 (raw : Bytes) : Prop := raw.take 5 = (ascii ['S', 'C', 'v', '2'] ++ [1]).take raw.length

instance (raw : Bytes) : Decidable (LikeM1 raw) := by unfold LikeM1; infer_instance

/-- The server signing key an M1 names, if any: bit 0 of byte 5 tells, the key is at offset 42. -/
def namedServer (raw : Bytes) : Option Bytes :=
  if leNat (field raw 5 1) % 2 = 1 then some (field raw 42 32) else none

/-- The address in an A1, `none` if the message is not an A1: any server, or the one with a given
public key. -/
inductive IsA1 : Bytes → Option Bytes → Prop
  | any (x : UInt8) : IsA1 [8, x, 0, 0, 0] none
  | key (x : UInt8) (k : Bytes) : k.length = 32 → IsA1 ([8, x, 1, 32, 0] ++ k) (some k)

/-- No operation of the run raised an exception. -/
def NoneRaised (tr : List (Ev env)) : Prop := ∀ ev ∈ tr, ∃ a, ev.res = .ok a

/-- Some operation of the run raised `e`: the channel, a time object or the crypto library. -/
def Raised (tr : List (Ev env)) (e : Err) : Prop := ∃ ev ∈ tr, ev.res = .error e

/-- Reasons for which a handshake may raise an exception that do not depend on the role. `kp` is the
encryption key pair, `sigPub` the public signing key. -/
inductive MayRaise (kp : KeyPair) (sigPub : Bytes) (tr : List (Ev env)) : Err → Prop
  /-- the environment raised it -/
  | raised {e : Err} : Raised tr e → MayRaise kp sigPub tr e
  /-- the peer misbehaved -/
  | badPeer : MayRaise kp sigPub tr .badPeer
  /-- an empty message was read where an encrypted packet is expected -/
  | empty : [] ∈ readsOf tr → MayRaise kp sigPub tr .attributeError
  /-- a key of the configuration, or an answer of the library, does not have the right length -/
  | length : kp.pub.length ≠ 32 ∨ sigPub.length ≠ 32 ∨
      (∃ pk sk k, ⟨EnvOp.beforenm pk sk, .ok k⟩ ∈ tr ∧ k.length ≠ 32) ∨
      (∃ m sk sm, ⟨EnvOp.sign m sk, .ok sm⟩ ∈ tr ∧ sm.length < 64) → MayRaise kp sigPub tr .typeError
  /-- the secret encryption key does not have the right length -/
  | secret : kp.sec.length ≠ 32 → MayRaise kp sigPub tr .valueError

/-- `tr` is the trace of a client session: the handshake of a new session object, completed or not,
followed by anything an application may do with the channel, if there is one. -/
inductive ClientTrace (cfg : ClientCfg) : List (Ev env) → Prop
  | none {tr r s} : Call (Client.handshake cfg) Client.init tr r s → s.chan = none → ClientTrace cfg tr
  | app {tr r s c β tr' b} {prog : IT appSig β} : Call (Client.handshake cfg) Client.init tr r s →
      s.chan = some c → Exec (App.run prog c) tr' b → ClientTrace cfg (tr ++ tr')

/-- `tr` is the trace of a server session. -/
inductive ServerTrace (cfg : ServerCfg) : List (Ev env) → Prop
  | none {tr r s} : Call (Server.handshake cfg) Server.init tr r s → s.chan = none → ServerTrace cfg tr
  | app {tr r s c β tr' b} {prog : IT appSig β} : Call (Server.handshake cfg) Server.init tr r s →
      s.chan = some c → Exec (App.run prog c) tr' b → ServerTrace cfg (tr ++ tr')

end Salt.Spec
