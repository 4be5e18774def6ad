import Verif.Model.Packets

/-!
# A1 / A2 packets (saltchannel/a1a2/packets.py)
-/

namespace Salt

/-! ### A1 (a1a2/packets.py:7-73) -/

namespace A1

/-- `A1Packet()`, a1a2/packets.py:32-37.  Layout (:16-21): PacketType 0, reserved 1, AddressType 2,
AddressSize 3..5. -/
def fresh : Packet := { data := setLE (zeros 5) 0 1 PacketType.a1.value, opt := none }

/-- `data.AddressType`. -/
def addressType (p : Packet) : Nat := getLE p.data 2 1
/-- `data.AddressType = v`. -/
def setAddressType (p : Packet) (v : Nat) : Packet := { p with data := setLE p.data 2 1 v }
/-- `data.AddressSize`. -/
def addressSize (p : Packet) : Nat := getLE p.data 3 2
/-- `data.AddressSize = v`. -/
def setAddressSize (p : Packet) (v : Nat) : Packet := { p with data := setLE p.data 3 2 v }

/-- `Address` getter, a1a2/packets.py:66-68. -/
def address (p : Packet) : Except Err Bytes :=
  match p.opt with
  | none => .error .attributeError
  | some b => .ok b

/-- `Address = v`, a1a2/packets.py:70-73. -/
def setAddress (p : Packet) (v : Bytes) : Packet := { p with opt := some v }

/-- `a1.AddressType` (without `.data`): resolved by `Packet.__getattr__` (util/packets.py:78-80) as
`bytes(self.data.AddressType)`, i.e. `bytes(n)` for an int `n`: `n` zero bytes. -/
def addressTypeAttr (p : Packet) : Bytes := zeros (addressType p)

/-- `A1Packet.validate`, a1a2/packets.py:48-64. -/
def validate (p : Packet) : Except Err Unit := do
  p.validateType 0 .a1
  let addr ← address p
  if addressSize p ≠ addr.length then .error .badPeer
  else if addressSize p > 65535 then .error .badPeer
  else if addressType p = 0 then
    if addressSize p ≠ 0 then .error .badPeer else .ok ()
  else if addressType p = 1 then
    if addressSize p ≠ 32 then .error .badPeer else .ok ()
  else .error .badPeer

/-- `A1Packet.from_bytes`, a1a2/packets.py:41-46; `c_uint8 * (len(src) - 5)` raises ValueError when
negative (:27-29). -/
def fromBytes (p : Packet) (src : Bytes) : Except Err Packet := do
  let p := { p with data := structFromBytes p.data src }
  if src.length < 5 then .error .valueError
  else
    let p := { p with opt := some (structFromBytes (zeros (src.length - 5)) (src.drop 5)) }
    validate p
    return p

/-- `A1Packet(src_buf=src)`, a1a2/packets.py:32-39. -/
def ctor (src : Bytes) : Except Err Packet :=
  if src.isEmpty then .ok fresh else fromBytes fresh src

end A1

/-! ### A2 (a1a2/packets.py:76-173) -/

/-- CPython's strict UTF-8 decoder (`bytes.decode()`), as a list of code points; `none` stands for
UnicodeDecodeError. -/
def utf8Decode : Bytes → Option (List Nat)
  | [] => some []
  | b0 :: t0 =>
    if b0.toNat < 0x80 then (utf8Decode t0).map (b0.toNat :: ·)
    else match t0 with
      | [] => none
      | b1 :: t1 =>
        if 0xC2 ≤ b0.toNat ∧ b0.toNat ≤ 0xDF then
          if 0x80 ≤ b1.toNat ∧ b1.toNat ≤ 0xBF then
            (utf8Decode t1).map (((b0.toNat - 0xC0) * 64 + (b1.toNat - 0x80)) :: ·)
          else none
        else match t1 with
          | [] => none
          | b2 :: t2 =>
            if 0xE0 ≤ b0.toNat ∧ b0.toNat ≤ 0xEF then
              if (if b0.toNat = 0xE0 then 0xA0 else 0x80) ≤ b1.toNat ∧
                  b1.toNat ≤ (if b0.toNat = 0xED then 0x9F else 0xBF) ∧
                  0x80 ≤ b2.toNat ∧ b2.toNat ≤ 0xBF then
                (utf8Decode t2).map (((b0.toNat - 0xE0) * 4096 + (b1.toNat - 0x80) * 64
                  + (b2.toNat - 0x80)) :: ·)
              else none
            else match t2 with
              | [] => none
              | b3 :: t3 =>
                if 0xF0 ≤ b0.toNat ∧ b0.toNat ≤ 0xF4 then
                  if (if b0.toNat = 0xF0 then 0x90 else 0x80) ≤ b1.toNat ∧
                      b1.toNat ≤ (if b0.toNat = 0xF4 then 0x8F else 0xBF) ∧
                      0x80 ≤ b2.toNat ∧ b2.toNat ≤ 0xBF ∧ 0x80 ≤ b3.toNat ∧ b3.toNat ≤ 0xBF then
                    (utf8Decode t3).map (((b0.toNat - 0xF0) * 262144 + (b1.toNat - 0x80) * 4096
                      + (b2.toNat - 0x80) * 64 + (b3.toNat - 0x80)) :: ·)
                  else none
                else none

namespace A2

/-- The character class `[-./\w]` of a1a2/packets.py:106 for a `str` pattern.  `\w` matches ASCII
letters, digits, `_`, and every non-ASCII alphanumeric code point; which of those exist is the
parameter `uw` (Python's Unicode tables are not modelled). -/
def nameChar (uw : Nat → Bool) (c : Nat) : Bool :=
  c = 0x2d || c = 0x2e || c = 0x2f ||
  (0x30 ≤ c && c ≤ 0x39) || (0x41 ≤ c && c ≤ 0x5a) || c = 0x5f || (0x61 ≤ c && c ≤ 0x7a) ||
  (0x80 ≤ c && uw c)

/-- `re.compile(r'^[-./\w]+$').match(s)` is not None: one or more class characters, then the end of
the string or (Python's `$`) a single final newline. a1a2/packets.py:106. -/
def nameMatch (uw : Nat → Bool) (s : List Nat) : Bool :=
  let body := if s.getLast? = some 0x0a then s.dropLast else s
  !body.isEmpty && body.all (nameChar uw)

/-- `proto_re.match(bytes(P).decode())`, a1a2/packets.py:111-112: UnicodeDecodeError or a verdict. -/
def nameValid (uw : Nat → Bool) (p : Bytes) : Except Err Bool :=
  match utf8Decode p with
  | none => .error .unicodeDecodeError
  | some s => .ok (nameMatch uw s)

/-- `_A2Prot.validate`, a1a2/packets.py:108-112, on the 20 bytes of one (P1, P2) entry.
The length test (:109-110) is vacuous: both arrays have 10 elements by type. `and` short-circuits. -/
def protValid (uw : Nat → Bool) (entry : Bytes) : Except Err Bool := do
  let v1 ← nameValid uw (slice entry 0 10)
  if v1 then nameValid uw (slice entry 10 20) else .ok false

/-- `b'SCv2------'`, a1a2/packets.py:84. -/
def sc2ProtString : Bytes := [0x53, 0x43, 0x76, 0x32, 0x2d, 0x2d, 0x2d, 0x2d, 0x2d, 0x2d]
/-- `b'----------'`, a1a2/packets.py:85. -/
def unspecifiedProtString : Bytes := [0x2d, 0x2d, 0x2d, 0x2d, 0x2d, 0x2d, 0x2d, 0x2d, 0x2d, 0x2d]

/-- `A2Packet.Case`, a1a2/packets.py:77-80. -/
inductive Case | none | noSuchServer | default
  deriving DecidableEq, Repr

/-- `data.Header.NoSuchServer`. -/
def noSuchServer (p : Packet) : Nat := getBit p.data 1 0
/-- `data.Header.LastFlag`. -/
def lastFlag (p : Packet) : Nat := getBit p.data 1 7
/-- `data.Count`, a `c_int8` (signed), a1a2/packets.py:97. -/
def count (p : Packet) : Int :=
  if getLE p.data 2 1 < 128 then (getLE p.data 2 1 : Int) else (getLE p.data 2 1 : Int) - 256
/-- `data.Count = v`. -/
def setCount (p : Packet) (v : Nat) : Packet := { p with data := setLE p.data 2 1 v }

/-- `A2Packet(case=NONE)` without source, a1a2/packets.py:120-125.  Layout (:90-97): PacketType 0,
flags 1 (bit 0 NoSuchServer, bit 7 LastFlag), Count 2. -/
def fresh : Packet :=
  { data := setBit (setLE (zeros 3) 0 1 PacketType.a2.value) 1 7 1, opt := .none }

/-- `A2Packet(case=...)` without source, a1a2/packets.py:120-134. -/
def ofCase : Case → Packet
  | .none => fresh
  | .noSuchServer => { fresh with data := setBit fresh.data 1 0 1 }
  | .default =>
    { data := setLE fresh.data 2 1 1, opt := some (sc2ProtString ++ unspecifiedProtString) }

/-- `self.opt.Prot` as the list of its 20-byte entries (`_A2Prot * n`, a1a2/packets.py:114-116). -/
def entries : Nat → Bytes → List Bytes
  | 0, _ => []
  | n + 1, b => b.take 20 :: entries n (b.drop 20)

/-- `len(self.opt.Prot)` for an optional part of `n` entries. -/
def protCount (p : Packet) : Nat := p.optBytes.length / 20

/-- The loop of `A2Packet.validate` over the entries, a1a2/packets.py:162-164. -/
def validateEntries (uw : Nat → Bool) : List Bytes → Except Err Unit
  | [] => .ok ()
  | e :: es => do
    let v ← protValid uw e
    if v then validateEntries uw es else .error .badPeer

/-- `A2Packet.validate`, a1a2/packets.py:145-164 (on an object with a `Prot` field). -/
def validate (uw : Nat → Bool) (p : Packet) : Except Err Unit := do
  p.validateType 0 .a2
  if noSuchServer p ≠ 0 ∧ (count p ≠ 0 ∨ protCount p ≠ 0) then .error .badPeer
  else if lastFlag p = 0 then .error .badPeer
  else if ¬ (0 ≤ count p ∧ count p ≤ 127) then .error .badPeer
  else if (protCount p : Int) ≠ count p then .error .badPeer
  else validateEntries uw (entries (protCount p) p.optBytes)

/-- `A2Packet.from_bytes`, a1a2/packets.py:138-143: `prot_count = (len(src) - 3) // 20` (floor);
a negative array length raises ValueError. -/
def fromBytes (uw : Nat → Bool) (p : Packet) (src : Bytes) : Except Err Packet := do
  let p := { p with data := structFromBytes p.data src }
  if src.length < 3 then .error .valueError
  else
    let n := (src.length - 3) / 20
    let p := { p with opt := some (structFromBytes (zeros (20 * n)) (src.drop 3)) }
    validate uw p
    return p

/-- `A2Packet(src_buf=src)`, a1a2/packets.py:120-136. -/
def ctor (uw : Nat → Bool) (src : Bytes) : Except Err Packet :=
  if src.isEmpty then .ok fresh else fromBytes uw fresh src

end A2

end Salt
