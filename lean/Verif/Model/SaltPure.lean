import Verif.Model.ChkSalsa
import Verif.Model.ChkField
import Verif.Model.ChkSha
import Verif.Model.ChkSign

/-!
# The methods of `SaltLibPure` (saltchannel/saltlib/saltlib_pure.py)

`SaltLibPure` cannot be instantiated (it lacks the abstract method `randombytes`, saltlib_base.py:58), and
`SaltLib.lib_map` leaves it out (saltlib.py:26-31); the methods are modelled as functions.  The parameter `w` is the width of `u32`
(TInt.lean).
-/

namespace Salt.Pure

open Salt.Tweet (intArray ofBytes toBytes Pt)

/-- The abstract methods of `SaltLibBase`, saltlib_base.py:33-58. -/
def abstractMethods : List String :=
  ["crypto_sign_keypair_not_random", "crypto_sign", "crypto_sign_open", "crypto_box_keypair_not_random",
   "crypto_box_beforenm", "crypto_box_afternm", "crypto_box_open_afternm", "crypto_hash", "randombytes"]

/-- The methods that `SaltLibPure` defines, saltlib_pure.py:9-95. -/
def methods : List String :=
  ["isAvailable", "crypto_sign_keypair_not_random", "crypto_sign", "crypto_sign_open", "crypto_box_keypair_not_random",
   "crypto_box_beforenm", "crypto_box_afternm", "crypto_box_open_afternm", "crypto_hash"]

/-- `SaltLibPure()`: an abstract base class refuses to be instantiated (TypeError) as long as an abstract method is
not overridden. -/
def new : Except Err Unit := if abstractMethods.all (methods.contains ·) then .ok () else .error .typeError

/-- `crypto_box_afternm`, saltlib_pure.py:69-73. -/
def boxAfternm (w : Nat) (m n k : Bytes) : Except Err Bytes := do
  let padded := zeros 32 ++ m
  let (_, c) ← Chk.secretbox w (intArray .u8 padded.length) (ofBytes padded) padded.length (ofBytes n) (ofBytes k)
  let c ← toBytes c
  pure (c.drop 16)

/-- `crypto_box_open_afternm`, saltlib_pure.py:77-86.  The name `BadEncryptedDataException` is not defined in the
module, so that both `raise` statements end with NameError. -/
def boxOpenAfternm (w : Nat) (c n k : Bytes) : Except Err Bytes :=
  let body : Except Err Bytes := do
    let padded := zeros 16 ++ c
    let (res, m) ← Chk.secretboxOpen w (intArray .u8 padded.length) (ofBytes padded) padded.length (ofBytes n) (ofBytes k)
    if res ≠ 0 then throw .nameError
    let m ← toBytes m
    pure (m.drop 32)
  match body with
  | .ok m => .ok m
  | .error _ => .error .nameError

/-- `crypto_hash`, saltlib_pure.py:90-95; the argument may be `None`. -/
def hash (m : Option Bytes) : Except Err Bytes :=
  match m with
  | none => .error .valueError
  | some m => do toBytes (← Chk.hashSha512 (intArray .u8 64) (ofBytes m) m.length)

/-- `crypto_box_keypair_not_random`, saltlib_pure.py:53-58. -/
def boxKeypair (sk : Bytes) : Except Err (Bytes × Bytes) := do
  if sk.length ≠ 32 then throw .valueError
  let pk ← toBytes (← Chk.scalarmultCurveBase (intArray .u8 32) (ofBytes sk))
  pure (pk, sk)

/-- `crypto_box_beforenm`, saltlib_pure.py:62-65. -/
def boxBeforenm (w : Nat) (pk sk : Bytes) : Except Err Bytes := do
  toBytes (← Chk.boxBeforenm w (intArray .u8 32) (ofBytes pk) (ofBytes sk))

/-- `crypto_sign_keypair_not_random`, saltlib_pure.py:19-32. -/
def signKeypair (seed : Bytes) : Except Err (Bytes × Bytes) := do
  if seed.length ≠ 32 then throw .valueError
  let d ← Chk.hashSha512 (intArray .u8 64) (ofBytes seed) 32
  let d ← Chk.clampHash d
  let p ← Chk.scalarbase Pt.new d
  let pk ← toBytes (← Chk.pack .list (intArray .u8 32) p)
  pure (pk, seed ++ pk)

/-- `crypto_sign`, saltlib_pure.py:36-40. -/
def sign (m sk : Bytes) : Except Err Bytes := do
  toBytes (← Chk.sign (ofBytes (zeros (m.length + 64))) (ofBytes m) m.length (ofBytes sk))

/-- `crypto_sign_open`, saltlib_pure.py:44-50.  The name `BadSignatureException` is not defined in the module, so that
the `raise` statement ends with NameError. -/
def signOpen (w : Nat) (sm pk : Bytes) : Except Err Bytes := do
  let (res, m) ← Chk.signOpen w (ofBytes (zeros sm.length)) (ofBytes sm) sm.length (ofBytes pk)
  if res ≠ 0 then throw .nameError
  let m ← toBytes m
  pure (m.take (sm.length - 64))

end Salt.Pure
