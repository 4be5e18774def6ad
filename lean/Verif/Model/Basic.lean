/-!
# Python basics used by the model

Bytes, exceptions as values, slices.  Nothing here is specific to salt-channel; it records the part of
Python's semantics the model relies on.
-/

namespace Salt

/-- Python `bytes` / `bytearray` / ctypes `c_uint8 * n` arrays (by content). -/
abbrev Bytes := List UInt8

/-- The exception classes that the modelled code can raise.
`badPeer`, `noSuchServer`, `timeException`, `comException`: saltchannel/exceptions.py:6-18.
`badSignature`, `badEncryptedData`, `noSuchLib`: saltchannel/saltlib/exceptions.py:7-16.
The remaining ones are Python built-ins. -/
inductive Err
  | badPeer | noSuchServer | timeException | comException
  | badSignature | badEncryptedData | noSuchLib
  | valueError | typeError | attributeError | assertionError | overflowError
  | unicodeDecodeError | indexError | structError | runtimeError | incompleteReadError | nameError
  deriving DecidableEq, Repr

/-- `isinstance(e, ComException)`: saltchannel/exceptions.py:6-18. -/
def Err.isCom : Err → Bool
  | .badPeer | .noSuchServer | .timeException | .comException => true
  | _ => false

deriving instance DecidableEq for Except

/-- Python `b[i:j]` for `0 ≤ i`, `0 ≤ j` (clamped, never raises). -/
def slice {α : Type} (b : List α) (i j : Nat) : List α := (b.take j).drop i

/-- Python `bytes(n)`: `n` zero bytes. -/
def zeros (n : Nat) : Bytes := List.replicate n 0

/-- Little-endian encoding of `n` on `w` bytes, truncating modulo `256^w`
(what storing a Python int into a ctypes unsigned field does). -/
def leBytes : Nat → Nat → Bytes
  | 0, _ => []
  | w + 1, n => UInt8.ofNat (n % 256) :: leBytes w (n / 256)

/-- Value of a little-endian byte string. -/
def leNat : Bytes → Nat
  | [] => 0
  | b :: t => b.toNat + 256 * leNat t

end Salt
