import Verif.Model.AppChannel

/-!
# SaltClientSession (saltchannel/v2/salt_client_session.py)
-/

namespace Salt

/-- The attributes set by the application before the handshake (salt_client_session.py:17-34);
`encKp = none` is the initial `None`. -/
structure ClientCfg where
  sigKp : KeyPair
  encKp : Option KeyPair
  bufferM4 : Bool
  wantedServerSigKey : Bytes

/-- The attributes assigned by the handshake (salt_client_session.py:24-41).  `chan` stands for the
pair `enc_channel`, `app_channel`, created together by `create_encrypted_channel` (:111-114). -/
structure ClientSt where
  sessionKey : Bytes
  m1 : Option Packet
  m1Hash : Bytes
  m2 : Option Packet
  m2Hash : Bytes
  m3 : Option Packet
  m4 : Option Packet
  chan : Option AppSt
  deriving DecidableEq, Repr

namespace Client

/-- `SaltClientSession.__init__`, salt_client_session.py:17-41. -/
def init : ClientSt :=
  { sessionKey := [], m1 := none, m1Hash := [], m2 := none, m2Hash := [], m3 := none, m4 := none,
    chan := none }

/-- A method of `self.enc_channel`. -/
def onEnc {α : Type} (m : Py env EncSt α) : Py env ClientSt α :=
  Py.zoom (fun s => s.chan) (fun c s => { s with chan := some c }) (App.onEnc m)

/-- `validate`, salt_client_session.py:116-119; returns the key pair it has checked to be there. -/
def validate (cfg : ClientCfg) : Py env ClientSt KeyPair :=
  match cfg.encKp with
  | none => Py.raise .valueError
  | some kp => return kp

/-- `do_m1`, salt_client_session.py:56-66.  Simplification: `self.m1` is assigned when complete (the
code assigns the object first and then fills it in). -/
def doM1 (encKp : KeyPair) : Py env ClientSt Unit := do
  let m1 := M1.createOptFields M1.fresh
  let t ← Py.env .firstTime
  let m1 ← Py.lift (M1.setClientEncKey (M1.setTime m1 t) encKp.pub)
  Py.modifySt fun s => { s with m1 := some m1 }
  let h ← Py.env (.hash m1.toBytes)
  Py.modifySt fun s => { s with m1Hash := h }
  Py.env (.write [m1.toBytes] false)

/-- `do_m2`, salt_client_session.py:69-83; the result is the `success` component. -/
def doM2 : Py env ClientSt Bool := do
  let chunk ← Py.env .read
  let m2 ← Py.lift (M2.ctor chunk)
  Py.modifySt fun s => { s with m2 := some m2 }
  if M2.packetType m2 ≠ PacketType.m2.value then do
    Py.modifySt fun s => { s with m2 := none }
    return false
  else do
    let _ ← Py.env (.report (M2.time m2))
    let h ← Py.env (.hash chunk)
    Py.modifySt fun s => { s with m2Hash := h }
    if M2.noSuchServer m2 ≠ 0 then Py.raise .noSuchServer
    else return true

/-- `create_encrypted_channel`, salt_client_session.py:111-114 (`self.m2` is set when it is
called). -/
def createEncryptedChannel (encKp : KeyPair) : Py env ClientSt Unit := do
  let s ← Py.getSt
  match s.m2 with
  | none => Py.raise .attributeError
  | some m2 => do
    let key ← computeSharedKey encKp.sec (M2.serverEncKey m2)
    Py.modifySt fun s => { s with sessionKey := key }
    let enc ← Py.lift (Enc.init key .client)
    Py.modifySt fun s => { s with chan := some (App.init enc) }

/-- `do_m3`, salt_client_session.py:85-89. -/
def doM3 : Py env ClientSt Unit := do
  let chunk ← onEnc (Enc.read)
  if chunk.length ≠ 2 + 4 + 32 + 64 then Py.raise .assertionError
  else do
    let m3 ← Py.lift (M34.ctor .m3 chunk)
    Py.modifySt fun s => { s with m3 := some m3 }
    let _ ← Py.env (.check (M34.time m3))
    return ()

/-- `validate_signature1`, salt_client_session.py:103-109. -/
def validateSignature1 : Py env ClientSt Unit := do
  let s ← Py.getSt
  match s.m3 with
  | none => Py.raise .attributeError
  | some m3 =>
    Py.onError (do
        let _ ← Py.env
          (.signOpen (M34.signature m3 ++ sig1Prefix ++ s.m1Hash ++ s.m2Hash) (M34.sigKey m3))
        return ())
      fun e => if e = .badSignature then Py.raise .badPeer else Py.raise e

/-- `do_m4`, salt_client_session.py:91-101.  Simplification: `self.m4` is assigned when complete. -/
def doM4 (cfg : ClientCfg) : Py env ClientSt Unit := do
  let t ← Py.env .time
  let m4 ← Py.lift (M34.setSigKey (M34.setTime (M34.fresh .m4) t) cfg.sigKp.pub)
  let s ← Py.getSt
  let sm ← Py.env (.sign (sig2Prefix ++ s.m1Hash ++ s.m2Hash) cfg.sigKp.sec)
  let m4 ← Py.lift (M34.setSignature m4 (sm.take signBytes))
  Py.modifySt fun s => { s with m4 := some m4 }
  if cfg.bufferM4 then
    Py.zoom (fun s => s.chan) (fun c s => { s with chan := some c })
      (Py.modifySt fun c => { c with bufferedM4 := some m4 })
  else onEnc (Enc.write [m4.toBytes] false)

/-- `handshake`, salt_client_session.py:43-54. -/
def handshake (cfg : ClientCfg) : Py env ClientSt Unit := do
  let encKp ← validate cfg
  doM1 encKp
  let success ← doM2
  if ¬ success then return ()
  else do
    createEncryptedChannel encKp
    doM3
    validateSignature1
    doM4 cfg

end Client

end Salt
