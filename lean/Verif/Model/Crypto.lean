import Verif.Model.Prog

/-!
# The crypto API seen by the protocol code

The primitives (libsodium, PyNaCl, tweetnacl) are foreign code: calls into them are operations of the
environment.  A concrete library enters as a record of functions answering them.
-/

namespace Salt

/-- `KeyPair`, saltchannel/util/key_pair.py:4. -/
structure KeyPair where
  sec : Bytes
  pub : Bytes
  deriving DecidableEq, Repr

/-- `crypto_sign_BYTES`, saltlib/saltlib_base.py:11. -/
def signBytes : Nat := 64
/-- `crypto_box_SECRETKEYBYTES`, saltlib/saltlib_base.py:15. -/
def boxSecretKeyBytes : Nat := 32
/-- `crypto_box_PUBLICKEYBYTES`, saltlib/saltlib_base.py:14. -/
def boxPublicKeyBytes : Nat := 32

/-- `SaltLib.compute_shared_key`, saltlib/saltlib.py:76-81. -/
def computeSharedKey {σ : Type} (mySk peerPk : Bytes) : Py env σ Bytes :=
  if mySk.length ≠ boxSecretKeyBytes then Py.raise .valueError
  else if peerPk.length ≠ boxPublicKeyBytes then Py.raise .valueError
  else Py.env (.beforenm peerPk mySk)

/-- A crypto library: the `SaltLibBase` methods the protocol code calls
(saltlib/saltlib_base.py:36-55). -/
structure Lib where
  /-- `crypto_sign(m, sk)`: the signed message. -/
  sign : Bytes → Bytes → Except Err Bytes
  /-- `crypto_sign_open(sm, pk)`: the message; BadSignatureException when not valid. -/
  signOpen : Bytes → Bytes → Except Err Bytes
  /-- `crypto_hash(m)`. -/
  hash : Bytes → Except Err Bytes
  /-- `crypto_box_beforenm(pk, sk)`. -/
  beforenm : Bytes → Bytes → Except Err Bytes
  /-- `crypto_box_afternm(m, n, k)`. -/
  box : Bytes → Bytes → Bytes → Except Err Bytes
  /-- `crypto_box_open_afternm(c, n, k)`: BadEncryptedDataException when not authentic. -/
  boxOpen : Bytes → Bytes → Bytes → Except Err Bytes

/-- Run a program with library `L`: crypto operations are answered by `L`, the others remain. -/
def withLib (L : Lib) {β : Type} : IT env β → IT env β
  | .ret b => .ret b
  | .op (.sign m sk) k => withLib L (k (L.sign m sk))
  | .op (.signOpen sm pk) k => withLib L (k (L.signOpen sm pk))
  | .op (.hash m) k => withLib L (k (L.hash m))
  | .op (.beforenm pk sk) k => withLib L (k (L.beforenm pk sk))
  | .op (.box m n key) k => withLib L (k (L.box m n key))
  | .op (.boxOpen c n key) k => withLib L (k (L.boxOpen c n key))
  | .op .read k => .op (S := env) .read fun r => withLib L (k r)
  | .op (.write ms l) k => .op (S := env) (.write ms l) fun r => withLib L (k r)
  | .op .firstTime k => .op (S := env) .firstTime fun r => withLib L (k r)
  | .op .time k => .op (S := env) .time fun r => withLib L (k r)
  | .op (.report t) k => .op (S := env) (.report t) fun r => withLib L (k r)
  | .op (.check t) k => .op (S := env) (.check t) fun r => withLib L (k r)

end Salt
