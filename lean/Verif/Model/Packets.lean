import Verif.Model.CTypes

/-!
# Packets (saltchannel/util/packets.py, saltchannel/v2/packets.py)

A packet object is modelled by the contents of `self.data` and `self.opt`.
`opt = none` stands for `Packet._EmptyBodyOpt()` (a structure without fields), `opt = some b` for the
class-specific optional structure with buffer `b`.

Constructors `X(src_buf=src)` are modelled by `X.ctor src` where `[]` stands for `None` as well as for
`b''`: both are falsy, so `from_bytes` (and with it `validate`) is skipped (e.g. v2/packets.py:42).
Simplification: when `from_bytes` raises, the (half-updated) object is not represented; in the code
under study the object is then unreachable, since parsing always happens in a constructor.
-/

namespace Salt

/-- `PacketType`, util/packets.py:9-19. -/
inductive PacketType
  | m1 | m2 | m3 | m4 | app | encrypted | a1 | a2 | multiApp
  deriving DecidableEq, Repr

/-- `PacketType.X.value`, util/packets.py:11-19. -/
def PacketType.value : PacketType → Nat
  | .m1 => 1 | .m2 => 2 | .m3 => 3 | .m4 => 4 | .app => 5 | .encrypted => 6
  | .a1 => 8 | .a2 => 9 | .multiApp => 11

/-- The part of `Packet` common to all classes: `self.data` and `self.opt`
(util/packets.py:48-93). -/
structure Packet where
  data : Bytes
  opt : Option Bytes
  deriving DecidableEq, Repr

namespace Packet

/-- `bytes(self.opt)`. -/
def optBytes (p : Packet) : Bytes := p.opt.getD []

/-- `Packet.__bytes__`, util/packets.py:63-64 (and M1's identical override, v2/packets.py:45-46). -/
def toBytes (p : Packet) : Bytes := p.data ++ p.optBytes

/-- `Packet.size`, util/packets.py:90-93 (`len` of a SmartStructure is its sizeof, :43-45). -/
def size (p : Packet) : Nat := p.data.length + p.optBytes.length

/-- `Packet.validate`, util/packets.py:66-69; `off` is the offset of `Header.PacketType`. -/
def validateType (p : Packet) (off : Nat) (t : PacketType) : Except Err Unit :=
  if getLE p.data off 1 ≠ t.value then .error .badPeer else .ok ()

end Packet

/-! ### M1 (v2/packets.py:7-71) -/

namespace M1

/-- `b'SCv2'`, v2/packets.py:26. -/
def indicator : Bytes := [0x53, 0x43, 0x76, 0x32]

/-- `M1Packet()`, v2/packets.py:38-41.  Layout (v2/packets.py:13-22): ProtocolIndicator 0..4,
PacketType 4, flags 5 (bit 0 = ServerSigKeyIncluded), Time 6..10, ClientEncKey 10..42. -/
def fresh : Packet :=
  { data := setLE (setBytes (zeros 42) 0 indicator) 4 1 PacketType.m1.value, opt := none }

/-- `data.Header.ServerSigKeyIncluded`. -/
def serverSigKeyIncluded (p : Packet) : Nat := getBit p.data 5 0
/-- `data.Header.ServerSigKeyIncluded = v`. -/
def setServerSigKeyIncluded (p : Packet) (v : Nat) : Packet := { p with data := setBit p.data 5 0 v }
/-- `data.Time`. -/
def time (p : Packet) : Nat := getLE p.data 6 4
/-- `data.Time = v`. -/
def setTime (p : Packet) (v : Nat) : Packet := { p with data := setLE p.data 6 4 v }
/-- `m1.ClientEncKey` through `Packet.__getattr__`, util/packets.py:78-80. -/
def clientEncKey (p : Packet) : Bytes := getArr p.data 10 32
/-- `m1.ClientEncKey = v` through `Packet.__setattr__`, util/packets.py:84-88. -/
def setClientEncKey (p : Packet) (v : Bytes) : Except Err Packet :=
  match setArr p.data 10 32 v with
  | .ok d => .ok { p with data := d }
  | .error e => .error e

/-- `_opt_factory(body=self.data)`, v2/packets.py:29-36: `c_uint8 * (32 * ServerSigKeyIncluded)`. -/
def optFactory (p : Packet) : Bytes := zeros (32 * serverSigKeyIncluded p)

/-- `create_opt_fields()`, util/packets.py:57-58. -/
def createOptFields (p : Packet) : Packet := { p with opt := some (optFactory p) }

/-- `m1.ServerSigKey` getter, v2/packets.py:63-65 (AttributeError on `_EmptyBodyOpt`). -/
def serverSigKey (p : Packet) : Except Err Bytes :=
  match p.opt with
  | none => .error .attributeError
  | some o => .ok o

/-- `m1.ServerSigKey = v`, v2/packets.py:67-71.
On `_EmptyBodyOpt` the assignment merely creates a Python attribute (no effect on the buffer). -/
def setServerSigKey (p : Packet) (v : Bytes) : Except Err Packet :=
  if serverSigKeyIncluded p ≠ 1 then .error .attributeError
  else match p.opt with
    | none => .ok p
    | some o =>
      match setArr o 0 o.length v with
      | .ok o' => .ok { p with opt := some o' }
      | .error e => .error e

/-- `M1Packet.validate`, v2/packets.py:52-56. -/
def validate (p : Packet) : Except Err Unit := do
  p.validateType 4 .m1
  if getArr p.data 0 4 ≠ indicator then .error .badPeer else .ok ()

/-- `M1Packet.from_bytes`, v2/packets.py:48-50 with util/packets.py:71-76. -/
def fromBytes (p : Packet) (src : Bytes) : Except Err Packet := do
  let p := { p with data := structFromBytes p.data src }
  let p := { p with opt := some (structFromBytes (optFactory p) (src.drop 42)) }
  validate p
  return p

/-- `M1Packet(src_buf=src)`, v2/packets.py:38-43. -/
def ctor (src : Bytes) : Except Err Packet :=
  if src.isEmpty then .ok fresh else fromBytes fresh src

end M1

/-! ### M2 (v2/packets.py:74-106) -/

namespace M2

/-- `M2Packet()`, v2/packets.py:92-95.  Layout (:82-90): PacketType 0, flags 1 (bit 0 NoSuchServer,
bit 7 LastFlag), Time 2..6, ServerEncKey 6..38. -/
def fresh : Packet := { data := setLE (zeros 38) 0 1 PacketType.m2.value, opt := none }

/-- `data.Header.PacketType`. -/
def packetType (p : Packet) : Nat := getLE p.data 0 1
/-- `data.Header.NoSuchServer`. -/
def noSuchServer (p : Packet) : Nat := getBit p.data 1 0
/-- `data.Header.NoSuchServer = v`. -/
def setNoSuchServer (p : Packet) (v : Nat) : Packet := { p with data := setBit p.data 1 0 v }
/-- `data.Header.LastFlag`. -/
def lastFlag (p : Packet) : Nat := getBit p.data 1 7
/-- `data.Header.LastFlag = v`. -/
def setLastFlag (p : Packet) (v : Nat) : Packet := { p with data := setBit p.data 1 7 v }
/-- `data.Time`. -/
def time (p : Packet) : Nat := getLE p.data 2 4
/-- `data.Time = v`. -/
def setTime (p : Packet) (v : Nat) : Packet := { p with data := setLE p.data 2 4 v }
/-- `m2.ServerEncKey`. -/
def serverEncKey (p : Packet) : Bytes := getArr p.data 6 32
/-- `m2.ServerEncKey = v`. -/
def setServerEncKey (p : Packet) (v : Bytes) : Except Err Packet :=
  match setArr p.data 6 32 v with
  | .ok d => .ok { p with data := d }
  | .error e => .error e

/-- The side effect of `bytes(m2)`, v2/packets.py:100-101. -/
def implyLast (p : Packet) : Packet := if noSuchServer p ≠ 0 then setLastFlag p 1 else p

/-- The value of `bytes(m2)`, v2/packets.py:99-102. -/
def toBytes (p : Packet) : Bytes := (implyLast p).data

/-- `M2Packet.from_bytes` = `Packet.from_bytes`, util/packets.py:71-76
(the optional part has no fields). -/
def fromBytes (p : Packet) (src : Bytes) : Except Err Packet := do
  let p : Packet := { data := structFromBytes p.data src, opt := none }
  p.validateType 0 .m2
  return p

/-- `M2Packet(src_buf=src)`, v2/packets.py:92-97. -/
def ctor (src : Bytes) : Except Err Packet :=
  if src.isEmpty then .ok fresh else fromBytes fresh src

end M2

/-! ### M3 and M4 (v2/packets.py:109-156), identical layout -/

namespace M34

/-- `M3Packet()` / `M4Packet()`, v2/packets.py:126-129, 151-154.  Layout (:118-124, :143-149):
PacketType 0, reserved 1, Time 2..6, key 6..38 (ServerSigKey / ClientSigKey), signature 38..102. -/
def fresh (t : PacketType) : Packet := { data := setLE (zeros 102) 0 1 t.value, opt := none }

/-- `data.Time`. -/
def time (p : Packet) : Nat := getLE p.data 2 4
/-- `data.Time = v`. -/
def setTime (p : Packet) (v : Nat) : Packet := { p with data := setLE p.data 2 4 v }
/-- `ServerSigKey` / `ClientSigKey`. -/
def sigKey (p : Packet) : Bytes := getArr p.data 6 32
/-- `ServerSigKey = v` / `ClientSigKey = v`. -/
def setSigKey (p : Packet) (v : Bytes) : Except Err Packet :=
  match setArr p.data 6 32 v with
  | .ok d => .ok { p with data := d }
  | .error e => .error e
/-- `Signature1` / `Signature2`. -/
def signature (p : Packet) : Bytes := getArr p.data 38 64
/-- `Signature1 = v` / `Signature2 = v`. -/
def setSignature (p : Packet) (v : Bytes) : Except Err Packet :=
  match setArr p.data 38 64 v with
  | .ok d => .ok { p with data := d }
  | .error e => .error e

/-- `from_bytes` = `Packet.from_bytes`, util/packets.py:71-76. -/
def fromBytes (t : PacketType) (p : Packet) (src : Bytes) : Except Err Packet := do
  let p : Packet := { data := structFromBytes p.data src, opt := none }
  p.validateType 0 t
  return p

/-- `M3Packet(src_buf=src)` / `M4Packet(src_buf=src)`, v2/packets.py:126-131, 151-156. -/
def ctor (t : PacketType) (src : Bytes) : Except Err Packet :=
  if src.isEmpty then .ok (fresh t) else fromBytes t (fresh t) src

end M34

/-- `M3Packet.SIG1_PREFIX = b'SC-SIG01'`, v2/packets.py:113. -/
def sig1Prefix : Bytes := [0x53, 0x43, 0x2d, 0x53, 0x49, 0x47, 0x30, 0x31]
/-- `M4Packet.SIG2_PREFIX = b'SC-SIG02'`, v2/packets.py:138. -/
def sig2Prefix : Bytes := [0x53, 0x43, 0x2d, 0x53, 0x49, 0x47, 0x30, 0x32]

/-! ### EncryptedPacket (v2/packets.py:159-212) -/

namespace EncPkt

/-- `EncryptedPacket()`, v2/packets.py:186-189.  Layout (:167-172): PacketType 0, flags 1 (bit 7 =
LastFlag). -/
def fresh : Packet := { data := setLE (zeros 2) 0 1 PacketType.encrypted.value, opt := none }

/-- `data.Header.LastFlag`. -/
def lastFlag (p : Packet) : Nat := getBit p.data 1 7
/-- `data.Header.LastFlag = v`. -/
def setLastFlag (p : Packet) (v : Nat) : Packet := { p with data := setBit p.data 1 7 v }

/-- `Body` getter, v2/packets.py:205-207.  On `_EmptyBodyOpt` the attribute lookup fails and
`Packet.__getattr__` (util/packets.py:78-82) ends in `object.__getattr__`: AttributeError. -/
def body (p : Packet) : Except Err Bytes :=
  match p.opt with
  | none => .error .attributeError
  | some b => .ok b

/-- `Body = v`, v2/packets.py:209-212. -/
def setBody (p : Packet) (v : Bytes) : Packet := { p with opt := some v }

/-- `EncryptedPacket.validate`, v2/packets.py:200-203. -/
def validate (p : Packet) : Except Err Unit := do
  p.validateType 0 .encrypted
  let b ← body p
  if b.length < 16 then .error .badPeer else .ok ()

/-- `EncryptedPacket.from_bytes`, v2/packets.py:193-198; `_opt_factory` (:174-184) raises BadPeer when
`len(src) - 2 < 0`. -/
def fromBytes (p : Packet) (src : Bytes) : Except Err Packet := do
  let p := { p with data := structFromBytes p.data src }
  if src.length < 2 then .error .badPeer
  else
    let p := { p with opt := some (structFromBytes (zeros (src.length - 2)) (src.drop 2)) }
    validate p
    return p

/-- `EncryptedPacket(src_buf=src)`, v2/packets.py:186-191. -/
def ctor (src : Bytes) : Except Err Packet :=
  if src.isEmpty then .ok fresh else fromBytes fresh src

end EncPkt

/-! ### AppPacket (v2/packets.py:215-260) -/

namespace AppPkt

/-- `AppPacket()`, v2/packets.py:239-242.  Layout (:221-225): PacketType 0, reserved 1, Time 2..6. -/
def fresh : Packet := { data := setLE (zeros 6) 0 1 PacketType.app.value, opt := none }

/-- `data.Header.PacketType`. -/
def packetType (p : Packet) : Nat := getLE p.data 0 1
/-- `data.Time`. -/
def time (p : Packet) : Nat := getLE p.data 2 4
/-- `data.Time = v`. -/
def setTime (p : Packet) (v : Nat) : Packet := { p with data := setLE p.data 2 4 v }

/-- `Data` getter, v2/packets.py:253-255. -/
def payload (p : Packet) : Except Err Bytes :=
  match p.opt with
  | none => .error .attributeError
  | some b => .ok b

/-- `Data = v`, v2/packets.py:257-260. -/
def setPayload (p : Packet) (v : Bytes) : Packet := { p with opt := some v }

/-- `Packet.validate` for AppPacket. -/
def validate (p : Packet) : Except Err Unit := p.validateType 0 .app

/-- `AppPacket.from_bytes(src, validate)`, v2/packets.py:246-251; `_opt_factory` (:227-237) raises
BadPeer when `len(src) - 6 < 0`. -/
def fromBytes (p : Packet) (src : Bytes) (doValidate : Bool) : Except Err Packet := do
  let p := { p with data := structFromBytes p.data src }
  if src.length < 6 then .error .badPeer
  else
    let p := { p with opt := some (structFromBytes (zeros (src.length - 6)) (src.drop 6)) }
    if doValidate then validate p
    return p

/-- `AppPacket(src_buf=src, validate=v)`, v2/packets.py:239-244. -/
def ctor (src : Bytes) (doValidate : Bool := true) : Except Err Packet :=
  if src.isEmpty then .ok fresh else fromBytes fresh src doValidate

end AppPkt

/-! ### MultiAppPacket (v2/packets.py:263-341) -/

/-- A MultiAppPacket object: the fixed part and `opt.Message` (`none`: `_EmptyBodyOpt`). -/
structure MultiApp where
  data : Bytes
  opt : Option (List Bytes)
  deriving DecidableEq, Repr

namespace MultiApp

/-- `MAX_SIZE`, v2/packets.py:265. -/
def maxSize : Nat := 65535

/-- `MultiAppPacket()`, v2/packets.py:318-321.  Layout (:270-276): PacketType 0, reserved 1,
Time 2..6, Count 6..8. -/
def fresh : MultiApp := { data := setLE (zeros 8) 0 1 PacketType.multiApp.value, opt := none }

/-- `data.Time`. -/
def time (p : MultiApp) : Nat := getLE p.data 2 4
/-- `data.Time = v`. -/
def setTime (p : MultiApp) (v : Nat) : MultiApp := { p with data := setLE p.data 2 4 v }
/-- `data.Count`. -/
def count (p : MultiApp) : Nat := getLE p.data 6 2
/-- `data.Count = v` (a `c_uint16`: truncated modulo 65536). -/
def setCount (p : MultiApp) (v : Nat) : MultiApp := { p with data := setLE p.data 6 2 v }
/-- `create_opt_fields(msgs=msgs)`, util/packets.py:57-58, v2/packets.py:278-315 (non-empty `msgs`). -/
def createOptFields (p : MultiApp) (msgs : List Bytes) : MultiApp := { p with opt := some msgs }

/-- One step of the loop of `_MultiAppPacketBodyOpt.__bytes__`, v2/packets.py:305-306. -/
def msgBytes (m : Bytes) : Bytes := leBytes 2 m.length ++ m

/-- `_MultiAppPacketBodyOpt.__bytes__`, v2/packets.py:303-307. -/
def optBytes : List Bytes → Bytes
  | [] => []
  | m :: ms => msgBytes m ++ optBytes ms

/-- `bytes(packet)`, util/packets.py:63-64. -/
def toBytes (p : MultiApp) : Bytes := p.data ++ optBytes (p.opt.getD [])

/-- `packet.size`, util/packets.py:90-93 with v2/packets.py:312-313. -/
def size (p : MultiApp) : Nat := p.data.length + (optBytes (p.opt.getD [])).length

/-- The loop of `_MultiAppPacketBodyOpt.from_bytes`, v2/packets.py:295-301: `count` more messages
starting at `offset`.  `c_uint16.from_buffer_copy(src, offset)` raises ValueError when fewer than two
bytes are left; the slice `src[offset:offset+n]` is clamped silently. -/
def parseMsgs (src : Bytes) : Nat → Nat → Except Err (List Bytes)
  | 0, _ => .ok []
  | count + 1, offset => do
    if src.length < offset + 2 then .error .valueError
    else
      let len := getLE src offset 2
      let msg := slice src (offset + 2) (offset + 2 + len)
      let rest ← parseMsgs src count (offset + 2 + len)
      return msg :: rest

/-- `MultiAppPacket.validate`, v2/packets.py:332-337. -/
def validate (p : MultiApp) : Except Err Unit :=
  if getLE p.data 0 1 ≠ PacketType.multiApp.value then .error .badPeer
  else if p.count < 1 then .error .badPeer
  else if (p.opt.getD []).length ≠ p.count then .error .badPeer
  else .ok ()

/-- `MultiAppPacket.from_bytes(src, validate=True)`, v2/packets.py:325-330.  For an empty `src` the factory
(:279-280, `if not body`) makes an `_EmptyBodyOpt`, whose `from_bytes` has no parameter `count`: TypeError. -/
def fromBytes (p : MultiApp) (src : Bytes) : Except Err MultiApp := do
  let p := { p with data := structFromBytes p.data src }
  if src.isEmpty then .error .typeError
  else
    let msgs ← parseMsgs (src.drop 8) p.count 0
    let p := { p with opt := some msgs }
    validate p
    return p

/-- `MultiAppPacket(src_buf=src)`, v2/packets.py:318-323. -/
def ctor (src : Bytes) : Except Err MultiApp :=
  if src.isEmpty then .ok fresh else fromBytes fresh src

/-- `MultiAppPacket.should_use`, v2/packets.py:339-341. -/
def shouldUse (msgs : List Bytes) : Bool :=
  if msgs.length < 2 || msgs.any (fun m => m.length > maxSize) then false else true

end MultiApp

end Salt
