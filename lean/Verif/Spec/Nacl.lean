import Verif.Spec.Saltlib
import Verif.Spec.Ed25519

/-!
# Specification: libsodium with the standard algorithms

The functions that `SaltLibNative` calls, with XSalsa20-Poly1305, X25519, Ed25519 and SHA-512 (the algorithms as specified in
Salsa20.lean, X25519.lean, Ed25519.lean and Sha512.lean) and NaCl's conventions for padding.
-/

namespace Salt.Spec

open Salt

/-- Opening a box of XSalsa20-Poly1305. -/
def secretboxOpen (k n c : Bytes) : Option Bytes :=
  if 16 ≤ c.length ∧ c.take 16 = poly1305 (xsalsaStream k n 32) (c.drop 16) then
    some (xorBytes (c.drop 16) ((xsalsaStream k n (32 + (c.length - 16))).drop 32))
  else none

open Classical in
/-- The functions of libsodium.  The equation in signature verification is multiplied with `cofactor` (RFC 8032 leaves the
choice of 1 and 8).  `check` tells whether `crypto_box_beforenm` fails for a shared secret of zeros (newer
versions do). -/
noncomputable def naclSodium (cofactor : Nat) (check : Bool) : Sodium where
  named := true
  signSeedKeypair seed := (0, edPublic seed, seed ++ edPublic seed)
  sign m len sk := (0, edSign (sk.take 32) (sk.drop 32) (m.take len) ++ m.take len)
  signOpen sm len pk :=
    if EdValid cofactor pk ((sm.take len).drop 64) ((sm.take len).take 64) then (0, (sm.take len).drop 64, len - 64) else (-1, [], 0)
  scalarmultBase sk := (0, x25519 sk base9)
  boxBeforenm pk sk :=
    if check ∧ x25519 sk pk = zeros 32 then (-1, []) else (0, hsalsa20 (x25519 sk pk) (zeros 16))
  boxAfternm m len n k := if len < 32 then (-1, []) else (0, zeros 16 ++ secretbox k n ((m.take len).drop 32))
  boxOpenAfternm c len n k :=
    if len < 32 then (-1, []) else
      match secretboxOpen k n ((c.take len).drop 16) with
      | none => (-1, [])
      | some m => (0, zeros 32 ++ m)
  sha512Bytes := 64
  sha512 m len := (0, sha512 (m.take len))

end Salt.Spec
