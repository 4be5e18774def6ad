import Verif.Props.PureHash
import Verif.Model.Attr
import Verif.Model.TestData

/-!
# The repository's own unit tests, run on the model

Not properties, but evidence that the model behaves like the code: every assertion of
tests/v2/test_packets.py and tests/a1a2/test_packets.py, with the test's data, evaluated on the model by
Lean's kernel.  The tests of tests/saltlib/test_saltlib.py: hashes here (`test_crypto_hash_*`), key pairs in
`C110`, signing, boxes and key agreement for all inputs in `C79`, `C85`, `C86`, `C87`.
-/

namespace Salt.Props.UnitTests

open Salt Salt.CryptoTestData

/-- `0x7badf00d`, the time of the dumps. -/
def dumpTime : Nat := 0x7badf00d

/-- tests/v2/test_packets.py:45. -/
def m1Dump1 : Bytes :=
  [0x53, 0x43, 0x76, 0x32, 0x01, 0x00, 0x0d, 0xf0, 0xad, 0x7b, 0x85, 0x20, 0xf0, 0x09, 0x89, 0x30, 0xa7, 0x54, 0x74, 0x8b, 0x7d, 0xdc, 0xb4, 0x3e,
    0xf7, 0x5a, 0x0d, 0xbf, 0x3a, 0x0d, 0x26, 0x38, 0x1a, 0xf4, 0xeb, 0xa4, 0xa9, 0x8e, 0xaa, 0x9b, 0x4e, 0x6a]

/-- tests/v2/test_packets.py:73. -/
def m1Dump2 : Bytes :=
  [0x53, 0x43, 0x76, 0x32, 0x01, 0x01, 0x0d, 0xf0, 0xad, 0x7b, 0x85, 0x20, 0xf0, 0x09, 0x89, 0x30, 0xa7, 0x54, 0x74, 0x8b, 0x7d, 0xdc, 0xb4, 0x3e,
    0xf7, 0x5a, 0x0d, 0xbf, 0x3a, 0x0d, 0x26, 0x38, 0x1a, 0xf4, 0xeb, 0xa4, 0xa9, 0x8e, 0xaa, 0x9b, 0x4e, 0x6a, 0x07, 0xe2, 0x8d, 0x4e, 0xe3, 0x2b,
    0xfd, 0xc4, 0xb0, 0x7d, 0x41, 0xc9, 0x21, 0x93, 0xc0, 0xc2, 0x5e, 0xe6, 0xb3, 0x09, 0x4c, 0x62, 0x96, 0xf3, 0x73, 0x41, 0x3b, 0x37, 0x3d, 0x36,
    0x16, 0x8b]

/-- tests/v2/test_packets.py:112. -/
def m2Dump1 : Bytes :=
  [0x02, 0x00, 0x0d, 0xf0, 0xad, 0x7b, 0xde, 0x9e, 0xdb, 0x7d, 0x7b, 0x7d, 0xc1, 0xb4, 0xd3, 0x5b, 0x61, 0xc2, 0xec, 0xe4, 0x35, 0x37, 0x3f, 0x83,
    0x43, 0xc8, 0x5b, 0x78, 0x67, 0x4d, 0xad, 0xfc, 0x7e, 0x14, 0x6f, 0x88, 0x2b, 0x4f]

/-- tests/v2/test_packets.py:140. -/
def m2Dump2 : Bytes :=
  [0x02, 0x81, 0x0d, 0xf0, 0xad, 0x7b, 0x00, 0x00, 0x00, 0x00, 0x00, 0x00, 0x00, 0x00, 0x00, 0x00, 0x00, 0x00, 0x00, 0x00, 0x00, 0x00, 0x00, 0x00,
    0x00, 0x00, 0x00, 0x00, 0x00, 0x00, 0x00, 0x00, 0x00, 0x00, 0x00, 0x00, 0x00, 0x00]

/-- tests/v2/test_packets.py:178. -/
def m3Dump : Bytes :=
  [0x03, 0x00, 0x0d, 0xf0, 0xad, 0x7b, 0x07, 0xe2, 0x8d, 0x4e, 0xe3, 0x2b, 0xfd, 0xc4, 0xb0, 0x7d, 0x41, 0xc9, 0x21, 0x93, 0xc0, 0xc2, 0x5e, 0xe6,
    0xb3, 0x09, 0x4c, 0x62, 0x96, 0xf3, 0x73, 0x41, 0x3b, 0x37, 0x3d, 0x36, 0x16, 0x8b, 0xbe, 0x35, 0x52, 0xa3, 0x08, 0xcd, 0x05, 0xaf, 0xd2, 0x94,
    0x30, 0x30, 0xa5, 0xa5, 0x82, 0x25, 0x98, 0x75, 0xd0, 0x0a, 0xb3, 0x13, 0xa7, 0xf6, 0xd8, 0xa8, 0xfc, 0x6b, 0xf3, 0xaf, 0x47, 0x32, 0x49, 0x1c,
    0xbc, 0x6d, 0x62, 0x35, 0x1b, 0x39, 0x6c, 0x81, 0x21, 0xa0, 0x77, 0xe7, 0x39, 0xf7, 0x76, 0x49, 0x92, 0xf3, 0x0b, 0xe2, 0x4a, 0x9b, 0x25, 0xdd,
    0xed, 0xc3, 0xd6, 0x83, 0x88, 0xc6]

/-- tests/v2/test_packets.py:216. -/
def m4Dump : Bytes :=
  [0x04, 0x00, 0x0d, 0xf0, 0xad, 0x7b, 0x55, 0x29, 0xce, 0x8c, 0xcf, 0x68, 0xc0, 0xb8, 0xac, 0x19, 0xd4, 0x37, 0xab, 0x0f, 0x5b, 0x32, 0x72, 0x37,
    0x82, 0x60, 0x8e, 0x93, 0xc6, 0x26, 0x4f, 0x18, 0x4b, 0xa1, 0x52, 0xc2, 0x35, 0x7b, 0xbe, 0x35, 0x52, 0xa3, 0x08, 0xcd, 0x05, 0xaf, 0xd2, 0x94,
    0x30, 0x30, 0xa5, 0xa5, 0x82, 0x25, 0x98, 0x75, 0xd0, 0x0a, 0xb3, 0x13, 0xa7, 0xf6, 0xd8, 0xa8, 0xfc, 0x6b, 0xf3, 0xaf, 0x47, 0x32, 0x49, 0x1c,
    0xbc, 0x6d, 0x62, 0x35, 0x1b, 0x39, 0x6c, 0x81, 0x21, 0xa0, 0x77, 0xe7, 0x39, 0xf7, 0x76, 0x49, 0x92, 0xf3, 0x0b, 0xe2, 0x4a, 0x9b, 0x25, 0xdd,
    0xed, 0xc3, 0xd6, 0x83, 0x88, 0xc6]

/-- tests/v2/test_packets.py:255. -/
def encDump1 : Bytes :=
  [0x06, 0x00, 0xbe, 0x35, 0x52, 0xa3, 0x08, 0xcd, 0x05, 0xaf, 0xd2, 0x94, 0x30, 0x30, 0xa5, 0xa5, 0x82, 0x25, 0x98, 0x75, 0xd0, 0x0a, 0xb3, 0x13,
    0xa7, 0xf6, 0xd8, 0xa8, 0xfc, 0x6b, 0xf3, 0xaf, 0x47, 0x32, 0x49, 0x1c, 0xbc, 0x6d, 0x62, 0x35, 0x1b, 0x39, 0x6c, 0x81, 0x21, 0xa0, 0x77, 0xe7,
    0x39, 0xf7, 0x76, 0x49, 0x92, 0xf3, 0x0b, 0xe2, 0x4a, 0x9b, 0x25, 0xdd, 0xed, 0xc3, 0xd6, 0x83, 0x88, 0xc6]

/-- tests/v2/test_packets.py:279. -/
def encDump2 : Bytes :=
  [0x06, 0x80, 0xbe, 0x35, 0x52, 0xa3, 0x08, 0xcd, 0x05, 0xaf, 0xd2, 0x94, 0x30, 0x30, 0xa5, 0xa5, 0x82, 0x25, 0x98, 0x75, 0xd0, 0x0a, 0xb3, 0x13,
    0xa7, 0xf6, 0xd8, 0xa8, 0xfc, 0x6b, 0xf3, 0xaf, 0x47, 0x32, 0x49, 0x1c, 0xbc, 0x6d, 0x62, 0x35, 0x1b, 0x39, 0x6c, 0x81, 0x21, 0xa0, 0x77, 0xe7,
    0x39, 0xf7, 0x76, 0x49, 0x92, 0xf3, 0x0b, 0xe2, 0x4a, 0x9b, 0x25, 0xdd, 0xed, 0xc3, 0xd6, 0x83, 0x88, 0xc6]

/-- tests/v2/test_packets.py:364. -/
def multiDump : Bytes :=
  [0x0b, 0x00, 0x0d, 0xf0, 0xad, 0x7b, 0x02, 0x00, 0x01, 0x00, 0x04, 0x02, 0x00, 0x05, 0x05]

/-- tests/a1a2/test_packets.py:68. -/
def a1Dump1 : Bytes :=
  [0x08, 0x00, 0x00, 0x00, 0x00]

/-- tests/a1a2/test_packets.py:90. -/
def a1Dump2 : Bytes :=
  [0x08, 0x00, 0x01, 0x20, 0x00, 0x55, 0x29, 0xce, 0x8c, 0xcf, 0x68, 0xc0, 0xb8, 0xac, 0x19, 0xd4, 0x37, 0xab, 0x0f, 0x5b, 0x32, 0x72, 0x37, 0x82,
    0x60, 0x8e, 0x93, 0xc6, 0x26, 0x4f, 0x18, 0x4b, 0xa1, 0x52, 0xc2, 0x35, 0x7b]

/-- tests/a1a2/test_packets.py:205. -/
def a2Dump1 : Bytes :=
  [0x09, 0x81, 0x00]

/-- tests/a1a2/test_packets.py:230. -/
def a2Dump2 : Bytes :=
  [0x09, 0x80, 0x01, 0x53, 0x43, 0x76, 0x32, 0x2d, 0x2d, 0x2d, 0x2d, 0x2d, 0x2d, 0x2d, 0x2d, 0x2d, 0x2d, 0x2d, 0x2d, 0x2d, 0x2d, 0x2d, 0x2d]

/-- tests/a1a2/test_packets.py:257. -/
def a2Dump3 : Bytes :=
  [0x09, 0x80, 0x02, 0x53, 0x43, 0x76, 0x32, 0x2d, 0x2d, 0x2d, 0x2d, 0x2d, 0x2d, 0x4d, 0x79, 0x50, 0x72, 0x6f, 0x74, 0x56, 0x33, 0x2d, 0x2d, 0x53,
    0x43, 0x76, 0x32, 0x2d, 0x2d, 0x2d, 0x2d, 0x2d, 0x2d, 0x4e, 0x61, 0x74, 0x61, 0x6c, 0x69, 0x61, 0x56, 0x32, 0x2d]

/-! ### tests/v2/test_packets.py -/

/-- test_M1_properties, :26-38.  `TicketIncluded` is not a field: assigning it changes nothing, and `Ticket`
becomes an ordinary attribute. -/
example : (do
    let m1 ← M1.setClientEncKey M1.fresh aEnc.pub
    if M1.clientEncKey m1 ≠ aEnc.pub then .error .runtimeError
    let m1 := M1.createOptFields (M1.setServerSigKeyIncluded m1 1)
    let m1 ← M1.setServerSigKey m1 bSig.pub
    let k ← M1.serverSigKey m1
    let o : AttrObj := { ty := .m1, packet := m1, added := [] }
    let o ← o.set "Ticket" (.raw random32a)
    let t ← o.get "Ticket"
    return (k, t)) = (.ok (bSig.pub, .raw random32a) : Except Err (Bytes × AttrVal)) := by decide +kernel

/-- test_M1_dumps_case1, :42-66, the packet made from fields. -/
def m1a : Except Err Packet := M1.setClientEncKey (M1.setTime M1.fresh dumpTime) aEnc.pub

example : m1a.map Packet.size = .ok 42 ∧ m1a.map Packet.toBytes = .ok m1Dump1 := by decide +kernel

/-- The packet made from bytes. -/
def m1b : Except Err Packet := M1.fromBytes M1.fresh m1Dump1

example : m1b.map Packet.size = .ok 42 ∧ m1b.map Packet.toBytes = .ok m1Dump1 ∧
    m1a.map (fun p => getLE p.data 4 1) = .ok PacketType.m1.value ∧ m1b.map M1.time = m1a.map M1.time ∧
    m1b.map M1.clientEncKey = m1a.map M1.clientEncKey := by decide +kernel

/-- test_M1_dumps_case2, :70-97. -/
def m1c : Except Err Packet := do
  let p := M1.setTime (M1.setServerSigKeyIncluded M1.fresh 1) dumpTime
  let p ← M1.setClientEncKey p aEnc.pub
  M1.setServerSigKey (M1.createOptFields p) bSig.pub

/-- The packet made from bytes. -/
def m1d : Except Err Packet := M1.fromBytes M1.fresh m1Dump2

example : m1c.map Packet.size = .ok 74 ∧ m1c.map Packet.toBytes = .ok m1Dump2 ∧
    m1d.map Packet.size = .ok 74 ∧ m1d.map Packet.toBytes = .ok m1Dump2 ∧
    m1c.map (fun p => getLE p.data 4 1) = .ok PacketType.m1.value ∧
    m1c.map M1.serverSigKeyIncluded = m1d.map M1.serverSigKeyIncluded ∧
    m1c.map M1.time = m1d.map M1.time ∧ m1c.map M1.clientEncKey = m1d.map M1.clientEncKey ∧
    (m1c >>= M1.serverSigKey) = (m1d >>= M1.serverSigKey) := by decide +kernel

/-- test_M2_properties, :101-105. -/
example : (M2.setServerEncKey M2.fresh aEnc.pub).map M2.serverEncKey = .ok aEnc.pub := by decide +kernel

/-- test_M2_dumps_case1, :109-133. -/
def m2a : Except Err Packet := M2.setServerEncKey (M2.setTime (M2.setNoSuchServer M2.fresh 0) dumpTime) bEnc.pub

/-- The packet made from bytes. -/
def m2b : Except Err Packet := M2.fromBytes M2.fresh m2Dump1

example : m2a.map Packet.size = .ok 38 ∧ m2a.map M2.toBytes = .ok m2Dump1 ∧ m2b.map Packet.size = .ok 38 ∧
    m2b.map M2.toBytes = .ok m2Dump1 ∧ m2a.map M2.packetType = .ok PacketType.m2.value ∧
    m2a.map M2.noSuchServer = m2b.map M2.noSuchServer ∧ m2a.map M2.time = m2b.map M2.time ∧
    m2a.map M2.serverEncKey = m2b.map M2.serverEncKey := by decide +kernel

/-- test_M2_dumps_noSuchServerLastFlag, :137-162. -/
def m2c : Packet := M2.setTime (M2.setNoSuchServer M2.fresh 1) dumpTime

/-- The packet made from bytes. -/
def m2d : Except Err Packet := M2.fromBytes M2.fresh m2Dump2

example : m2c.size = 38 ∧ M2.toBytes m2c = m2Dump2 ∧ m2d.map Packet.size = .ok 38 ∧ m2d.map M2.toBytes = .ok m2Dump2 ∧
    M2.packetType m2c = PacketType.m2.value ∧ m2d.map M2.noSuchServer = .ok (M2.noSuchServer m2c) ∧
    m2d.map M2.time = .ok (M2.time m2c) ∧ m2d.map M2.serverEncKey = .ok (M2.serverEncKey m2c) ∧
    m2d.map M2.lastFlag = .ok 1 := by decide +kernel

/-- test_M3_properties and test_M4_properties, :166-173, :204-211. -/
example : (M34.setSigKey (M34.fresh .m3) bSig.pub).map M34.sigKey = .ok bSig.pub ∧
    (M34.setSignature (M34.fresh .m3) random64a).map M34.signature = .ok random64a ∧
    (M34.setSigKey (M34.fresh .m4) aSig.pub).map M34.sigKey = .ok aSig.pub ∧
    (M34.setSignature (M34.fresh .m4) random64a).map M34.signature = .ok random64a := by decide +kernel

/-- test_M3_dumps_case1 and test_M4_dumps_case1, :175-200, :213-238. -/
def m34 (t : PacketType) (key : Bytes) : Except Err Packet := do
  let p ← M34.setSigKey (M34.setTime (M34.fresh t) dumpTime) key
  M34.setSignature p random64a

example : (m34 .m3 bSig.pub).map Packet.size = .ok 102 ∧ (m34 .m3 bSig.pub).map Packet.toBytes = .ok m3Dump ∧
    M34.fromBytes .m3 (M34.fresh .m3) m3Dump = m34 .m3 bSig.pub := by decide +kernel

example : (m34 .m4 aSig.pub).map Packet.size = .ok 102 ∧ (m34 .m4 aSig.pub).map Packet.toBytes = .ok m4Dump ∧
    M34.fromBytes .m4 (M34.fresh .m4) m4Dump = m34 .m4 aSig.pub := by decide +kernel

/-- test_EncryptedPacket_properties, :242-246. -/
example : EncPkt.body (EncPkt.setBody EncPkt.fresh random64a) = .ok random64a := rfl

/-- The 24 bytes of test_EncryptedPacket_from_bytes and test_AppPacket_from_bytes. -/
def body24 : Bytes := [0x11, 0x22, 0x33, 0x44, 0x55, 0x66, 0x77, 0x88, 0x99, 0x11, 0x22, 0x33, 0x44, 0x55, 0x66, 0x77,
  0x88, 0x99, 0xaa, 0xbb, 0xcc, 0xdd, 0xee, 0xff]

/-- test_EncryptedPacket_from_bytes, :248-250. -/
example : (EncPkt.ctor ([0x06, 0x00] ++ body24) >>= EncPkt.body) = .ok body24 := by decide +kernel

/-- test_EncryptedPacket_dumps_case1 and _case2, :252-298. -/
def enc (last : Nat) : Packet := EncPkt.setLastFlag (EncPkt.setBody EncPkt.fresh random64a) last

example : (enc 0).size = 66 ∧ (enc 0).toBytes = encDump1 ∧ EncPkt.fromBytes EncPkt.fresh encDump1 = .ok (enc 0) ∧
    (enc 1).size = 66 ∧ (enc 1).toBytes = encDump2 ∧ EncPkt.fromBytes EncPkt.fresh encDump2 = .ok (enc 1) ∧
    EncPkt.lastFlag (enc 0) = 0 ∧ EncPkt.lastFlag (enc 1) = 1 := by decide +kernel

/-- test_AppPacket_properties, test_AppPacket_from_bytes and test_AppPacket_invalid_input, :303-319. -/
example : AppPkt.payload (AppPkt.setPayload AppPkt.fresh random64a) = .ok random64a ∧
    (AppPkt.ctor ([0x05, 0, 0, 0, 0, 0] ++ body24) >>= AppPkt.payload) = .ok body24 ∧
    AppPkt.fromBytes AppPkt.fresh (zeros 1) true = .error .badPeer ∧
    AppPkt.fromBytes AppPkt.fresh (zeros 5) true = .error .badPeer := by decide +kernel

/-- The messages of test_MultiAppPacket_properties1 and _serialization. -/
def msgs5 : List Bytes := [[0x31, 0x32], [0x33, 0x34, 0x35, 0x36], [], [0], [0x37]]

/-- test_MultiAppPacket_properties1 and test_MultiAppPacket_serialization, :324-359. -/
def multi5 : MultiApp := MultiApp.createOptFields (MultiApp.setCount MultiApp.fresh 5) msgs5

example : multi5.opt = some msgs5 ∧
    (MultiApp.fromBytes MultiApp.fresh multi5.toBytes).map (·.opt) = .ok (some msgs5) := by decide +kernel

/-- test_MultiAppPacket_dumps_case1, :361-389. -/
def multi2 : MultiApp :=
  MultiApp.createOptFields (MultiApp.setCount (MultiApp.setTime MultiApp.fresh dumpTime) 2) [[4], [5, 5]]

/-- The packet made from bytes. -/
def multi2b : Except Err MultiApp := MultiApp.fromBytes MultiApp.fresh multiDump

example : multi2.size = 15 ∧ multi2.toBytes = multiDump ∧ multi2b.map MultiApp.size = .ok 15 ∧
    multi2b.map MultiApp.toBytes = .ok multiDump ∧ getLE multi2.data 0 1 = PacketType.multiApp.value ∧
    multi2b.map MultiApp.time = .ok dumpTime ∧ multi2b.map MultiApp.count = .ok 2 ∧
    multi2b.map (·.opt) = .ok (some [[4], [5, 5]]) := by decide +kernel

/-! ### tests/a1a2/test_packets.py -/

/-- test_A1_prop_valid, :23-37, with the same object read into twice. -/
example : (do
    let a1c ← A1.fromBytes A1.fresh A1.fresh.toBytes
    let a1 := A1.setAddress (A1.createOptFields (A1.setAddressSize (A1.setAddressType A1.fresh 1) 32)) aSig.pub
    let a1c' ← A1.fromBytes a1c a1.toBytes
    let ad ← A1.address a1c'
    return (a1c.toBytes == A1.fresh.toBytes, a1c'.toBytes == a1.toBytes, ad))
    = (.ok (true, true, aSig.pub) : Except Err (Bool × Bool × Bytes)) := by decide +kernel

/-- test_A1_prop_invalid, :39-60. -/
example : A1.fromBytes A1.fresh (A1.setAddressSize (A1.setAddressType A1.fresh 0) 1).toBytes = .error .badPeer ∧
    A1.fromBytes A1.fresh
      (A1.setAddress (A1.setAddressSize (A1.setAddressType A1.fresh 1) 32) [0x31, 0x32, 0x33]).toBytes
      = .error .badPeer ∧
    A1.fromBytes A1.fresh (A1.setAddress (A1.setAddressSize (A1.setAddressType A1.fresh 2) 32) aSig.pub).toBytes
      = .error .badPeer := by decide +kernel

/-- test_A1_dumps_case1 and _case2, :65-110. -/
def a1Key : Packet :=
  A1.setAddress (A1.createOptFields (A1.setAddressSize (A1.setAddressType A1.fresh 1) aSig.pub.length)) aSig.pub

example : A1.fresh.size = 5 ∧ A1.fresh.toBytes = a1Dump1 ∧
    (A1.fromBytes A1.fresh a1Dump1).map Packet.size = .ok 5 ∧
    (A1.fromBytes A1.fresh a1Dump1).map Packet.toBytes = .ok a1Dump1 ∧
    a1Key.size = 37 ∧ a1Key.toBytes = a1Dump2 ∧ A1.fromBytes A1.fresh a1Dump2 = .ok a1Key ∧
    A1.addressType a1Key = 1 ∧ A1.address a1Key = .ok aSig.pub := by decide +kernel

/-- No non-ASCII character occurs in the tests; whether Python would take one for a letter does not matter. -/
def uw : Nat → Bool := fun _ => false

/-- What the tests look at in an A2: NoSuchServer, LastFlag, Count and the names. -/
def a2View (p : Packet) : Nat × Nat × Int × List Bytes :=
  (A2.noSuchServer p, A2.lastFlag p, A2.count p, A2.entries (A2.protCount p) p.optBytes)

/-- test_A2_prop_nosuchserver and test_A2_dumps_case1, :115-125, :202-222. -/
example : (A2.ofCase .noSuchServer).size = 3 ∧ (A2.ofCase .noSuchServer).toBytes = a2Dump1 ∧
    (A2.fromBytes uw A2.fresh a2Dump1).map Packet.size = .ok 3 ∧
    (A2.fromBytes uw A2.fresh a2Dump1).map Packet.toBytes = .ok a2Dump1 ∧
    (A2.fromBytes uw A2.fresh a2Dump1).map a2View = .ok (1, 1, 0, []) := by decide +kernel

/-- test_A2_prop_valid1, :127-137. -/
example : (A2.fromBytes uw A2.fresh A2.fresh.toBytes).map Packet.toBytes = .ok A2.fresh.toBytes ∧
    (A2.fromBytes uw A2.fresh A2.fresh.toBytes).map a2View = .ok (0, 1, 0, []) := by decide +kernel

/-- An A2 made as in the tests: Count, create_opt_fields, then the names one by one. -/
def a2Of (names : List (Bytes × Bytes)) : Except Err Packet :=
  names.zipIdx.foldlM (fun p n => do
    let p ← A2.setProtName p n.2 false n.1.1
    A2.setProtName p n.2 true n.1.2) (A2.createOptFields (A2.setCount A2.fresh names.length) names.length)

/-- test_A2_prop_valid2, :139-158. -/
example : (do
    let a2 ← a2Of [(A2.sc2ProtString, A2.unspecifiedProtString)]
    let a2c ← A2.fromBytes uw A2.fresh a2.toBytes
    return (a2c.toBytes == a2.toBytes, a2View a2c == (0, 1, 1, [A2.sc2ProtString ++ A2.unspecifiedProtString]))) =
    (.ok (true, true) : Except Err (Bool × Bool)) := by decide +kernel

/-- P1_TEST_VALID, `b'A01b_3-de_'`, :161. -/
def p1Valid : Bytes := [0x41, 0x30, 0x31, 0x62, 0x5f, 0x33, 0x2d, 0x64, 0x65, 0x5f]
/-- P2_TEST_VALID, :162: dots, dashes, slashes, underscores, `0x`. -/
def p2Valid : Bytes := [0x2e, 0x2e, 0x2d, 0x2d, 0x2f, 0x2f, 0x5f, 0x5f, 0x30, 0x78]

/-- test_A2_prop_valid3, :160-187. -/
example : (do
    let a2 ← a2Of [(A2.sc2ProtString, A2.unspecifiedProtString), (p1Valid, p2Valid)]
    let a2c ← A2.fromBytes uw A2.fresh a2.toBytes
    return (a2c.toBytes == a2.toBytes,
      a2View a2c == (0, 1, 2, [A2.sc2ProtString ++ A2.unspecifiedProtString, p1Valid ++ p2Valid]))) =
    (.ok (true, true) : Except Err (Bool × Bool)) := by decide +kernel

/-- test_A2_prop_invalid2, :189-198: the names `b':+@)(`#^&*'` and `b'_ _\t><=~12'`. -/
example : (do
    let a2 ← a2Of [([0x3a, 0x2b, 0x40, 0x29, 0x28, 0x60, 0x23, 0x5e, 0x26, 0x2a],
      [0x5f, 0x20, 0x5f, 0x09, 0x3e, 0x3c, 0x3d, 0x7e, 0x31, 0x32])]
    A2.fromBytes uw A2.fresh a2.toBytes) = .error .badPeer := by decide +kernel

/-- test_A2_dumps_case2, :227-250. -/
example : (A2.ofCase .default).size = 23 ∧ (A2.ofCase .default).toBytes = a2Dump2 ∧
    A2.fromBytes uw A2.fresh a2Dump2 = .ok (A2.ofCase .default) ∧
    a2View (A2.ofCase .default) = (0, 1, 1, [A2.sc2ProtString ++ A2.unspecifiedProtString]) := by decide +kernel

/-- `b'MyProtV3--'`, :260. -/
def pCustom1 : Bytes := [0x4d, 0x79, 0x50, 0x72, 0x6f, 0x74, 0x56, 0x33, 0x2d, 0x2d]
/-- `b'NataliaV2-'`, :261. -/
def pCustom2 : Bytes := [0x4e, 0x61, 0x74, 0x61, 0x6c, 0x69, 0x61, 0x56, 0x32, 0x2d]

/-- test_A2_dumps_case3, :254-289. -/
def a2Two : Except Err Packet := a2Of [(A2.sc2ProtString, pCustom1), (A2.sc2ProtString, pCustom2)]

example : a2Two.map Packet.size = .ok 43 ∧ a2Two.map Packet.toBytes = .ok a2Dump3 ∧
    A2.fromBytes uw A2.fresh a2Dump3 = a2Two ∧
    a2Two.map a2View = .ok (0, 1, 2, [A2.sc2ProtString ++ pCustom1, A2.sc2ProtString ++ pCustom2]) := by
  decide +kernel

/-! ### tests/saltlib/test_saltlib.py -/

/-- test_crypto_hash_emptymsg and test_crypto_hash_abc, :42-69 (the test runs the other backends, whose hash is
SHA-512 by assumption; here is the pure Python one). -/
example : Pure.hash (some []) = .ok (Spec.digitsBE 64 0xcf83e1357eefb8bdf1542850d66d8007d620e4050b5715dc83f4a921d36ce9ce47d0d13c5d85f2b0ff8318d2877eec2f63b931bd47417a81a538327af927da3e) ∧
    Pure.hash (some [0x61, 0x62, 0x63]) = .ok (Spec.digitsBE 64 0xddaf35a193617abacc417349ae20413112e6fa4e89a97ea20a9eeee64b55d39a2192992a274fc1a836ba3c23a3feebbd454d4423643ce80e2a9ac94fa54ca49f) := by
  rw [(C80_hash _ (by simp)).1, (C80_hash _ (by simp)).1]
  constructor <;>
  · congr 1
    decide +kernel

end Salt.Props.UnitTests
