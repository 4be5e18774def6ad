import Verif.Model.AppChannel
import Verif.Spec.Trace
import Verif.Spec.Wire

/-!
# Vocabulary for statements about channels
-/

namespace Salt.Spec

open Salt

/-- The 24-byte nonce of position `v`: counter (8 bytes, little-endian), session nonce (8 zero bytes),
8 zero bytes. -/
def nonce (v : Nat) : Bytes := leBytes 8 v ++ List.replicate 16 0

/-- One successful encryption: plaintext, nonce, key, ciphertext. -/
structure Sealed where
  msg : Bytes
  nonce : Bytes
  key : Bytes
  cipher : Bytes
  deriving DecidableEq

/-- The successful encryptions of a trace, in order. -/
def seals : List (Ev env) → List Sealed
  | [] => []
  | ⟨.box m n k, .ok c⟩ :: tr => ⟨m, n, k, c⟩ :: seals tr
  | _ :: tr => seals tr

/-- The successful decryptions of a trace, in order. -/
def opens : List (Ev env) → List Sealed
  | [] => []
  | ⟨.boxOpen c n k, .ok m⟩ :: tr => ⟨m, n, k, c⟩ :: opens tr
  | _ :: tr => opens tr

/-- A call of an application (or of the app channel) on the channel below, with its outcome. -/
inductive Done
  | read (r : Except Err Bytes)
  | write (msgs : List Bytes) (isLast : Bool) (r : Except Err Unit)
  deriving DecidableEq

/-- The messages returned by the successful reads. -/
def readMsgs : List Done → List Bytes
  | [] => []
  | .read (.ok m) :: ds => m :: readMsgs ds
  | _ :: ds => readMsgs ds

/-- The messages of the successful writes. -/
def wroteMsgs : List Done → List Bytes
  | [] => []
  | .write ms _ (.ok _) :: ds => ms ++ wroteMsgs ds
  | _ :: ds => wroteMsgs ds

/-- Every write call succeeded. -/
def WritesOk (ds : List Done) : Prop := ∀ ms l r, Done.write ms l r ∈ ds → r = .ok ()

/-- Call the operations in `ops` one after the other on a channel, whatever they return or raise, and
record the outcomes. -/
def callAll {σ : Type} (h : (e : AppOp) → Py env σ e.Resp) :
    List AppOp → σ → IT env (List Done × σ)
  | [], s => .ret ([], s)
  | .read :: ops, s =>
    (h .read s).bind fun (r, s') =>
      (callAll h ops s').bind fun (ds, s'') => .ret (.read r :: ds, s'')
  | .write ms l :: ops, s =>
    (h (.write ms l) s).bind fun (r, s') =>
      (callAll h ops s').bind fun (ds, s'') => .ret (.write ms l r :: ds, s'')

/-- The operations of an `EncryptedChannelV2` as seen by its user. -/
def encOps : (e : AppOp) → Py env EncSt e.Resp
  | .read => Enc.read
  | .write ms l => Enc.write ms l

/-- The write calls in `ops` carry at least one message (the API requires one). -/
def NonEmptyWrites (ops : List AppOp) : Prop := ∀ ms l, AppOp.write ms l ∈ ops → ms ≠ []

end Salt.Spec
