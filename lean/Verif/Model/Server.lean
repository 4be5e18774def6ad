import Verif.Model.AppChannel
import Verif.Model.A1A2

/-!
# SaltServerSession (saltchannel/v2/salt_server_session.py)
-/

namespace Salt

/-- The attributes set by the application before the handshake (salt_server_session.py:20-45);
`a2 = none` is the initial `None` (an A2Packet object is always truthy). -/
structure ServerCfg where
  sigKp : KeyPair
  encKp : Option KeyPair
  bufferM2 : Bool
  a2 : Option Packet

/-- The attributes assigned by the handshake (salt_server_session.py:27-45, 139).  `chan` stands for
the pair `enc_channel`, `app_channel`. -/
structure ServerSt where
  sessionKey : Bytes
  m1 : Option Packet
  m1Hash : Bytes
  m2 : Option Packet
  m2Hash : Bytes
  m4 : Option Packet
  clientSigKey : Option Bytes
  isDone : Bool
  chan : Option AppSt
  deriving DecidableEq, Repr

namespace Server

/-- `SaltServerSession.__init__`, salt_server_session.py:20-45. -/
def init : ServerSt :=
  { sessionKey := [], m1 := none, m1Hash := [], m2 := none, m2Hash := [], m4 := none,
    clientSigKey := none, isDone := false, chan := none }

/-- A method of `self.enc_channel`. -/
def onEnc {α : Type} (m : Py env EncSt α) : Py env ServerSt α :=
  Py.zoom (fun s => s.chan) (fun c s => { s with chan := some c }) (App.onEnc m)

/-- `validate`, salt_server_session.py:151-154; returns the key pair it has checked to be there. -/
def validate (cfg : ServerCfg) : Py env ServerSt KeyPair :=
  match cfg.encKp with
  | none => Py.raise .valueError
  | some kp => return kp

/-- The choice of the answer in `do_a2`, salt_server_session.py:70-75.  `a1.AddressType` is a `bytes`
object (`A1.addressTypeAttr`); Python's `bytes == int` is False whatever the values, which the model
records by the condition `False`.  `and` does not evaluate its second operand then. -/
def chooseA2 (cfg : ServerCfg) (a1 : Packet) : Packet :=
  let bytesEqInt (_ : Bytes) (_ : Nat) : Bool := false
  if bytesEqInt (A1.addressTypeAttr a1) 1 && (A1.address a1 != .ok cfg.sigKp.pub) then
    A2.ofCase .noSuchServer
  else match cfg.a2 with
    | some a2 => a2
    | none => A2.ofCase .default

/-- `do_a2`, salt_server_session.py:68-77. -/
def doA2 (cfg : ServerCfg) (chunk : Bytes) : Py env ServerSt Unit := do
  let a1 ← Py.lift (A1.ctor chunk)
  Py.env (.write [(chooseA2 cfg a1).toBytes] true)

/-- `do_m1`, salt_server_session.py:79-99: `none` for a valid M1, `some chunk` for the fall-back
`(False, False, clear_chunk)`.  The component `resumed` is always False. -/
def doM1 (cfg : ServerCfg) : Py env ServerSt (Option Bytes) := do
  let chunk ← Py.env .read
  match M1.ctor chunk with
  | .error .badPeer => do
    Py.modifySt fun s => { s with m1 := none }
    return some chunk
  | .error e => Py.raise e
  | .ok m1 => do
    Py.modifySt fun s => { s with m1 := some m1 }
    let _ ← Py.env (.report (M1.time m1))
    let h ← Py.env (.hash chunk)
    Py.modifySt fun s => { s with m1Hash := h }
    let refuse ←
      if M1.serverSigKeyIncluded m1 ≠ 0 then do
        let k ← Py.lift (M1.serverSigKey m1)
        pure (cfg.sigKp.pub != k)
      else pure false
    if refuse then do
      let t ← Py.env .firstTime
      let m2 := M2.setNoSuchServer (M2.setTime M2.fresh t) 1
      let _ ← Py.env (.write [M2.toBytes m2] true)
      Py.raise .noSuchServer
    else return none

/-- `do_m2`, salt_server_session.py:101-108.  Simplification: `self.m2` is assigned when complete. -/
def doM2 (cfg : ServerCfg) (encKp : KeyPair) : Py env ServerSt Unit := do
  let t ← Py.env .firstTime
  let m2 ← Py.lift (M2.setServerEncKey (M2.setTime M2.fresh t) encKp.pub)
  Py.modifySt fun s => { s with m2 := some m2 }
  if cfg.bufferM2 then return ()
  else do
    let _ ← Py.env (.write [M2.toBytes m2] false)
    let h ← Py.env (.hash (M2.toBytes m2))
    Py.modifySt fun s => { s with m2Hash := h }

/-- `create_encrypted_channel`, salt_server_session.py:138-141. -/
def createEncryptedChannel (encKp : KeyPair) : Py env ServerSt Unit := do
  let s ← Py.getSt
  match s.m1 with
  | none => Py.raise .attributeError
  | some m1 => do
    let key ← computeSharedKey encKp.sec (M1.clientEncKey m1)
    Py.modifySt fun s => { s with sessionKey := key }
    let enc ← Py.lift (Enc.init key .server)
    Py.modifySt fun s => { s with chan := some (App.init enc) }

/-- The part of `do_m3` before M3 is built, salt_server_session.py:111-120: the messages to send
before M3, and M3's time. -/
def doM3Head (cfg : ServerCfg) : Py env ServerSt (List Bytes × Nat) := do
  if cfg.bufferM2 then do
    let t ← Py.env .firstTime
    let s ← Py.getSt
    match s.m2 with
    | none => Py.raise .attributeError
    | some m2 => do
      let m2 := M2.setTime m2 t
      Py.modifySt fun s => { s with m2 := some m2 }
      let h ← Py.env (.hash (M2.toBytes m2))
      Py.modifySt fun s => { s with m2Hash := h }
      return ([M2.toBytes m2], t)
  else do
    let t ← Py.env .time
    return ([], t)

/-- `do_m3`, salt_server_session.py:110-131. -/
def doM3 (cfg : ServerCfg) : Py env ServerSt Unit := do
  let (msgList, t) ← doM3Head cfg
  let p ← Py.lift (M34.setSigKey (M34.setTime (M34.fresh .m3) t) cfg.sigKp.pub)
  let s ← Py.getSt
  let sm ← Py.env (.sign (sig1Prefix ++ s.m1Hash ++ s.m2Hash) cfg.sigKp.sec)
  let p ← Py.lift (M34.setSignature p (sm.take signBytes))
  let w ← onEnc (do
    let c ← Enc.encrypt p.toBytes
    Py.modifySt Enc.advanceWrite
    return Enc.wrap c false)
  Py.env (.write (msgList ++ [w]) false)

/-- `do_m4`, salt_server_session.py:133-136. -/
def doM4 : Py env ServerSt Unit := do
  let chunk ← onEnc (Enc.read)
  let m4 ← Py.lift (M34.ctor .m4 chunk)
  Py.modifySt fun s => { s with m4 := some m4 }
  let _ ← Py.env (.check (M34.time m4))
  Py.modifySt fun s => { s with clientSigKey := some (M34.sigKey m4) }

/-- `validate_signature2`, salt_server_session.py:143-149. -/
def validateSignature2 : Py env ServerSt Unit := do
  let s ← Py.getSt
  match s.m4 with
  | none => Py.raise .attributeError
  | some m4 =>
    Py.onError (do
        let _ ← Py.env
          (.signOpen (M34.signature m4 ++ sig2Prefix ++ s.m1Hash ++ s.m2Hash) (M34.sigKey m4))
        return ())
      fun e => if e = .badSignature then Py.raise .badPeer else Py.raise e

/-- `handshake`, salt_server_session.py:47-66. -/
def handshake (cfg : ServerCfg) : Py env ServerSt Unit := do
  let encKp ← validate cfg
  match ← doM1 cfg with
  | some chunk => do
    doA2 cfg chunk
    Py.modifySt fun s => { s with isDone := true }
  | none => do
    let _ ← validate cfg
    doM2 cfg encKp
    createEncryptedChannel encKp
    doM3 cfg
    doM4
    validateSignature2

end Server

end Salt
