import Verif.Model.Prog
import Verif.Model.Crypto
import Verif.Model.Packets

/-!
# EncryptedChannelV2 (saltchannel/v2/encrypted_channel_v2.py)
-/

namespace Salt

/-- `Role`, encrypted_channel_v2.py:10-13. -/
inductive Role | client | server
  deriving DecidableEq, Repr

/-- The attributes of an `EncryptedChannelV2` (encrypted_channel_v2.py:49-55).  `readNonce` and
`writeNonce` are the `value` attributes of the two `Nonce` objects, which share `session_nonce`;
`pushback = []` stands for both `b''` and `None`. -/
structure EncSt where
  key : Bytes
  sessionNonce : Bytes
  readNonce : Nat
  writeNonce : Nat
  pushback : Bytes
  lastFlag : Bool
  deriving DecidableEq, Repr

/-- `Nonce.__bytes__`, encrypted_channel_v2.py:31-32: `int.to_bytes(8, 'little')` raises
OverflowError from 2^64 on. -/
def nonceBytes (value : Nat) (sessionNonce : Bytes) : Except Err Bytes :=
  if value < 2 ^ 64 then .ok (leBytes 8 value ++ sessionNonce ++ zeros 8)
  else .error .overflowError

namespace Enc

/-- `EncryptedChannelV2(channel, key, role)`, encrypted_channel_v2.py:42-55, with the default session
nonce of 8 zero bytes (`TTPacket.SESSION_NONCE_SIZE`, v2/packets.py:345).  For a bad key length,
building the ValueError message (`str + int`, :47) raises TypeError. -/
def init (key : Bytes) (role : Role) : Except Err EncSt :=
  if key.length ≠ boxSecretKeyBytes then .error .typeError
  else .ok
    { key := key, sessionNonce := zeros 8,
      readNonce := if role = .client then 2 else 1,
      writeNonce := if role = .client then 1 else 2,
      pushback := [], lastFlag := false }

/-- `encrypt`, encrypted_channel_v2.py:76-77. -/
def encrypt (clear : Bytes) : Py env EncSt Bytes := do
  let s ← Py.getSt
  let n ← Py.lift (nonceBytes s.writeNonce s.sessionNonce)
  Py.env (.box clear n s.key)

/-- `decrypt`, encrypted_channel_v2.py:79-83. -/
def decrypt (encrypted : Bytes) : Py env EncSt Bytes :=
  Py.onError (do
    let s ← Py.getSt
    let n ← Py.lift (nonceBytes s.readNonce s.sessionNonce)
    Py.env (.boxOpen encrypted n s.key))
  fun e => if e = .badEncryptedData then Py.raise .badPeer else Py.raise e

/-- `wrap`, encrypted_channel_v2.py:85-90. -/
def wrap (src : Bytes) (isLast : Bool) : Bytes :=
  (EncPkt.setBody (EncPkt.setLastFlag EncPkt.fresh (if isLast then 1 else 0)) src).toBytes

/-- `unwrap`, encrypted_channel_v2.py:92-96. -/
def unwrap (epBytes : Bytes) : Py env EncSt Bytes := do
  let ep ← Py.lift (EncPkt.ctor epBytes)
  Py.modifySt fun s => { s with lastFlag := EncPkt.lastFlag ep ≠ 0 }
  Py.lift (EncPkt.body ep)

/-- `read_nonce.advance()`, encrypted_channel_v2.py:28-29. -/
def advanceRead (s : EncSt) : EncSt := { s with readNonce := s.readNonce + 2 }
/-- `write_nonce.advance()`, encrypted_channel_v2.py:28-29. -/
def advanceWrite (s : EncSt) : EncSt := { s with writeNonce := s.writeNonce + 2 }

/-- The choice of the raw packet in `read`, encrypted_channel_v2.py:58-62. -/
def fetch : Py env EncSt Bytes := do
  let s ← Py.getSt
  if s.pushback ≠ [] then do
    Py.modifySt fun s => { s with pushback := [] }
    return s.pushback
  else Py.env .read

/-- `read`, encrypted_channel_v2.py:57-66. -/
def read : Py env EncSt Bytes := do
  let raw ← fetch
  let body ← unwrap raw
  let clear ← decrypt body
  Py.modifySt advanceRead
  return clear

/-- The loop of `write`, encrypted_channel_v2.py:70-73: encrypt and wrap every message, advancing the
nonce after each; only the last one carries the flag. -/
def encryptAll (isLast : Bool) : List Bytes → Py env EncSt (List Bytes)
  | [] => return []
  | m :: ms => do
    let c ← encrypt m
    Py.modifySt advanceWrite
    let rest ← encryptAll isLast ms
    return wrap c (isLast && ms.isEmpty) :: rest

/-- `write`, encrypted_channel_v2.py:68-74 (`msgs` is the non-empty tuple `(message,) + args`). -/
def write (msgs : List Bytes) (isLast : Bool) : Py env EncSt Unit := do
  let msgList ← encryptAll isLast msgs
  Py.env (.write msgList isLast)

end Enc

end Salt
