import Verif.Model.EncChannel

/-!
# AppChannelV2 (saltchannel/v2/app_channel_v2.py)
-/

namespace Salt

/-- The attributes of an `AppChannelV2` (app_channel_v2.py:13-19) together with those of the
`EncryptedChannelV2` it was built on (`self.channel`). -/
structure AppSt where
  enc : EncSt
  bufferedM4 : Option Packet
  readQ : List Bytes
  deriving DecidableEq, Repr

namespace App

/-- `AppChannelV2(channel, ...)`, app_channel_v2.py:13-19. -/
def init (enc : EncSt) : AppSt := { enc := enc, bufferedM4 := none, readQ := [] }

/-- A method of `self.channel`. -/
def onEnc {α : Type} (m : Py env EncSt α) : Py env AppSt α := fun s =>
  (m s.enc).bind fun (r, e) => .ret (r, { s with enc := e })

/-- `last`, app_channel_v2.py:21-23. -/
def last (s : AppSt) : Bool := s.enc.lastFlag

/-- `read`, app_channel_v2.py:25-39.  `mp.opt` is never `none` here (`raw` is then not empty), and a
validated `Message` is never empty, so the last branch is not taken. -/
def read : Py env AppSt Bytes := do
  let s ← Py.getSt
  match s.readQ with
  | m :: q => do
    Py.modifySt fun s => { s with readQ := q }
    return m
  | [] => do
    let raw ← onEnc (Enc.read)
    let ap ← Py.lift (AppPkt.ctor raw false)
    if AppPkt.packetType ap = PacketType.app.value then do
      Py.lift (AppPkt.validate ap)
      let _ ← Py.env (.check (AppPkt.time ap))
      Py.lift (AppPkt.payload ap)
    else do
      let mp ← Py.lift (MultiApp.ctor raw)
      let _ ← Py.env (.check mp.time)
      Py.modifySt fun s => { s with readQ := s.readQ ++ (mp.opt.getD []).drop 1 }
      match mp.opt.getD [] with
      | m :: _ => return m
      | [] => Py.raise .indexError

/-- `bytes(map)` for the MultiAppPacket built in `write`, app_channel_v2.py:52-56. -/
def multiRaw (t : Nat) (msgs : List Bytes) : Bytes :=
  (((MultiApp.fresh.setTime t).setCount msgs.length).createOptFields msgs).toBytes

/-- `bytes(ap)` for one message in `write`, app_channel_v2.py:58-62. -/
def appRaw (t : Nat) (m : Bytes) : Bytes := (AppPkt.setPayload (AppPkt.setTime AppPkt.fresh t) m).toBytes

/-- `rawmsg_list` without the buffered M4, app_channel_v2.py:51-62. -/
def rawMsgs (t : Nat) (msgs : List Bytes) : List Bytes :=
  if MultiApp.shouldUse msgs then [multiRaw t msgs] else msgs.map (appRaw t)

/-- `write`, app_channel_v2.py:41-64. -/
def write (msgs : List Bytes) (isLast : Bool) : Py env AppSt Unit := do
  let t ← Py.env .time
  let s ← Py.getSt
  match s.bufferedM4 with
  | some m4 => do
    Py.modifySt fun s => { s with bufferedM4 := none }
    onEnc (Enc.write ((M34.setTime m4 t).toBytes :: rawMsgs t msgs) isLast)
  | none => onEnc (Enc.write (rawMsgs t msgs) isLast)

/-- The operations of an application on its channel. -/
def handle : (e : AppOp) → Py env AppSt e.Resp
  | .read => read
  | .write msgs isLast => write msgs isLast

/-- An application program running on an `AppChannelV2`.  Whatever `read`/`write` raise is given to
the program (which may catch it). -/
def run {β : Type} : IT appSig β → AppSt → IT env (β × AppSt)
  | .ret b, s => .ret (b, s)
  | .op e k, s => (handle e s).bind fun (r, s') => run (k r) s'

end App

end Salt
