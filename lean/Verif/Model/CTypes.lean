import Verif.Model.Basic

/-!
# ctypes structures as byte buffers

`SmartStructure` (saltchannel/util/packets.py:22-45) is a packed `LittleEndianStructure`: a byte
buffer of fixed size with typed accessors at fixed offsets.  A structure value is modelled by the
contents of its buffer; field `f` is an (offset, width) pair.  Simplification: a little-endian host
(the plain `c_uint16` used in v2/packets.py:297,306 is native-endian).
-/

namespace Salt

/-- `SmartStructure.from_bytes`, util/packets.py:35-37:
`if src: memmove(addressof(self), src, min(len(src), sizeof(self)))`. -/
def structFromBytes (self src : Bytes) : Bytes :=
  if src.isEmpty then self
  else src.take (min src.length self.length) ++ self.drop (min src.length self.length)

/-- Read an unsigned little-endian field (`c_uint8`/`c_uint16`/`c_uint32`) of `w` bytes. -/
def getLE (self : Bytes) (off w : Nat) : Nat := leNat (slice self off (off + w))

/-- Overwrite the bytes at `off`. -/
def setBytes (self : Bytes) (off : Nat) (v : Bytes) : Bytes :=
  self.take off ++ v ++ self.drop (off + v.length)

/-- Store a Python int into an unsigned field: ctypes truncates modulo `256^w`. -/
def setLE (self : Bytes) (off w v : Nat) : Bytes := setBytes self off (leBytes w v)

/-- Read a one-bit `c_uint8` bit-field: bit `k` of byte `off` (LSB first on little-endian). -/
def getBit (self : Bytes) (off k : Nat) : Nat := (getLE self off 1 / 2 ^ k) % 2

/-- Store an int into a one-bit bit-field (only its lowest bit is kept). -/
def setBit (self : Bytes) (off k v : Nat) : Bytes :=
  setLE self off 1 (getLE self off 1 - getBit self off k * 2 ^ k + (v % 2) * 2 ^ k)

/-- Read an array field `c_uint8 * n` as bytes. -/
def getArr (self : Bytes) (off n : Nat) : Bytes := slice self off (off + n)

/-- Assign `util.cbytes(v)` (saltchannel/util/__init__.py:7-10) to an array field `c_uint8 * n`:
ctypes raises TypeError unless the lengths agree. -/
def setArr (self : Bytes) (off n : Nat) (v : Bytes) : Except Err Bytes :=
  if v.length = n then .ok (setBytes self off v) else .error .typeError

end Salt
