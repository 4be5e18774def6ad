import Verif.Model.A1A2

/-!
# Attributes of packet objects (saltchannel/util/packets.py:78-88)

`Packet.__getattr__` and `Packet.__setattr__` forward names that are not found in the ordinary way to
the structure `self.data`.  Modelled for names that are neither defined in the class (methods,
constants, properties) nor `data` or `opt`; the properties have their own definitions
(`M1.serverSigKey`, `EncPkt.body`, `AppPkt.payload`, `A1.address`, `Packet.size`).
-/

namespace Salt

/-- The types of the fields of the structures `self.data`. -/
inductive FieldTy
  /-- `c_uint8`, `c_uint16`, `c_uint32` of `w` bytes -/
  | uint (off w : Nat)
  /-- `c_int8` -/
  | int8 (off : Nat)
  /-- `c_uint8 * n` -/
  | arr (off n : Nat)
  /-- a nested structure of `n` bytes -/
  | struct (off n : Nat)
  deriving DecidableEq, Repr

/-- The `_fields_` of the structure `self.data` of each class, v2/packets.py:19-22, 88-90, 121-124,
146-149, 173, 225-226, 274-276, a1a2/packets.py:19-21, 96-97. -/
def attrFields : PacketType → List (String × FieldTy)
  | .m1 => [("ProtocolIndicator", .arr 0 4), ("Header", .struct 4 2), ("Time", .uint 6 4),
      ("ClientEncKey", .arr 10 32)]
  | .m2 => [("Header", .struct 0 2), ("Time", .uint 2 4), ("ServerEncKey", .arr 6 32)]
  | .m3 => [("Header", .struct 0 2), ("Time", .uint 2 4), ("ServerSigKey", .arr 6 32),
      ("Signature1", .arr 38 64)]
  | .m4 => [("Header", .struct 0 2), ("Time", .uint 2 4), ("ClientSigKey", .arr 6 32),
      ("Signature2", .arr 38 64)]
  | .app => [("Header", .struct 0 2), ("Time", .uint 2 4)]
  | .encrypted => [("Header", .struct 0 2)]
  | .a1 => [("Header", .struct 0 2), ("AddressType", .uint 2 1), ("AddressSize", .uint 3 2)]
  | .a2 => [("Header", .struct 0 2), ("Count", .int8 2)]
  | .multiApp => [("Header", .struct 0 2), ("Time", .uint 2 4), ("Count", .uint 6 2)]

/-- Python values that occur here: ints, and objects by their bytes (`bytes`, arrays, structures). -/
inductive AttrVal
  | int (z : Int)
  | raw (b : Bytes)
  deriving DecidableEq, Repr

/-- `getattr(self.data, name)` for a field (ctypes). -/
def FieldTy.get (data : Bytes) : FieldTy → AttrVal
  | .uint off w => .int (getLE data off w)
  | .int8 off =>
    .int (if getLE data off 1 < 128 then (getLE data off 1 : Int) else (getLE data off 1 : Int) - 256)
  | .arr off n => .raw (getArr data off n)
  | .struct off n => .raw (getArr data off n)

/-- Python `bytes(v)`: `n` zero bytes for an int `n`, ValueError for a negative one. -/
def AttrVal.toBytes : AttrVal → Except Err Bytes
  | .int z => if z < 0 then .error .valueError else .ok (zeros z.toNat)
  | .raw b => .ok b

/-- `util.cbytes(v)`, util/__init__.py:7-10: `len(bytes(v))` first, then `from_buffer_copy`, which
raises TypeError for an int. -/
def AttrVal.cbytes : AttrVal → Except Err Bytes
  | .int z => if z < 0 then .error .valueError else .error .typeError
  | .raw b => .ok b

/-- A packet object together with the names that ordinary Python attribute assignment has added to
`self.data` (a ctypes structure accepts any). -/
structure AttrObj where
  ty : PacketType
  packet : Packet
  added : List (String × Bytes)
  deriving DecidableEq, Repr

namespace AttrObj

/-- `packet.name`: `Packet.__getattr__`, util/packets.py:78-80. -/
def get (o : AttrObj) (name : String) : Except Err AttrVal :=
  match (attrFields o.ty).lookup name with
  | some f => (f.get o.packet.data).toBytes.map .raw
  | none =>
    match o.added.lookup name with
    | some b => .ok (.raw b)
    | none => .error .attributeError

/-- `packet.name = v`: `Packet.__setattr__`, util/packets.py:84-88.  ctypes raises TypeError when an array
is assigned to an integer or structure field, or to an array of another length. -/
def set (o : AttrObj) (name : String) (v : AttrVal) : Except Err AttrObj := do
  let b ← v.cbytes
  match (attrFields o.ty).lookup name with
  | some (.arr off n) =>
    let d ← setArr o.packet.data off n b
    return { o with packet := { o.packet with data := d } }
  | some _ => .error .typeError
  | none => return { o with added := (name, b) :: o.added }

end AttrObj

/-! ### `A2Packet.Prot` -/

/-- `A1Packet.create_opt_fields()`, util/packets.py:57-58 with a1a2/packets.py:23-30: an empty `Address`. -/
def A1.createOptFields (p : Packet) : Packet := { p with opt := some [] }

/-- What may be assigned to `A2Packet.Prot`: the `Prot` of another packet, some other sequence, or a
tuple, of which it matters whether each item is the empty tuple. -/
inductive ProtVal
  | array (n : Nat)
  | seq (n : Nat)
  | tuple (emptyTuple : List Bool)
  deriving DecidableEq, Repr

/-- `len(value)`. -/
def ProtVal.len : ProtVal → Nat
  | .array n => n
  | .seq n => n
  | .tuple l => l.length

namespace A2

/-- `create_opt_fields(prot_count=n)`, util/packets.py:57-58 with a1a2/packets.py:99-118. -/
def createOptFields (p : Packet) (n : Nat) : Packet := { p with opt := some (zeros (20 * n)) }

/-- `Prot = value`, a1a2/packets.py:170-173: the optional part is replaced first; then the assignment of
the ctypes array.  The classes `_A2Prot` and `_A2Prot * n` are made anew by each call of `_opt_factory`
(:103-118), so no existing array or entry is an instance of them: TypeError, or RuntimeError from
within the conversion of a tuple.  An empty tuple is converted to a zero entry (`SmartStructure.__init__`
takes no positional arguments, util/packets.py:25).  Returns the packet also if the assignment raises. -/
def setProt (p : Packet) (v : ProtVal) : Packet × Except Err Unit :=
  (createOptFields p v.len,
    match v with
    | .array _ => .error .typeError
    | .seq _ => .error .typeError
    | .tuple l => if l.all id then .ok () else .error .runtimeError)

/-- `a2.Prot[i].P1 = util.cbytes(v)` (`P2` if `second`), a1a2/packets.py:103-105, 166-168. -/
def setProtName (p : Packet) (i : Nat) (second : Bool) (v : Bytes) : Except Err Packet :=
  match p.opt with
  | .none => .error .attributeError
  | some o =>
    if o.length / 20 ≤ i then .error .indexError
    else match setArr o (20 * i + if second then 10 else 0) 10 v with
      | .ok o' => .ok { p with opt := some o' }
      | .error e => .error e

end A2

end Salt
