import Verif.Model.Crypto

/-!
# Selection of a crypto library and the wrappers around the foreign ones (saltchannel/saltlib)

The foreign functions (libsodium through ctypes, the `nacl` and `tweetnacl` packages) are parameters:
records of arbitrary functions.  What a C function leaves in an output buffer is a byte string written
from its start; writing beyond the end of the buffer (memory corruption) is not modelled, nor is what a
C function reads beyond the end of a key or nonce that is too short.
-/

namespace Salt

/-! ### Buffers -/

/-- `ctypes.create_string_buffer(n)` filled by a C function writing `w` at its start, then `.raw`:
the buffer has `n` zero bytes before. -/
def bufferRaw (n : Nat) (w : Bytes) : Bytes := (w ++ zeros n).take n

/-! ### libsodium -/

/-- The functions of libsodium called by `SaltLibNative`: return code and what is written to the output
buffers. -/
structure Sodium where
  /-- `sodium._name` is set. -/
  named : Bool
  /-- `crypto_sign_seed_keypair(pk, sk, seed)`. -/
  signSeedKeypair : Bytes → Int × Bytes × Bytes
  /-- `crypto_sign(sm, &smlen, m, mlen, sk)`. -/
  sign : Bytes → Nat → Bytes → Int × Bytes
  /-- `crypto_sign_open(m, &mlen, sm, smlen, pk)`; the last component is `mlen`. -/
  signOpen : Bytes → Nat → Bytes → Int × Bytes × Nat
  /-- `crypto_scalarmult_base(pk, sk)`. -/
  scalarmultBase : Bytes → Int × Bytes
  /-- `crypto_box_beforenm(k, pk, sk)`. -/
  boxBeforenm : Bytes → Bytes → Int × Bytes
  /-- `crypto_box_afternm(c, m, mlen, n, k)`. -/
  boxAfternm : Bytes → Nat → Bytes → Bytes → Int × Bytes
  /-- `crypto_box_open_afternm(m, c, clen, n, k)`. -/
  boxOpenAfternm : Bytes → Nat → Bytes → Bytes → Int × Bytes
  /-- `crypto_hash_sha512_bytes()`. -/
  sha512Bytes : Nat
  /-- `crypto_hash_sha512(h, m, mlen)`. -/
  sha512 : Bytes → Nat → Int × Bytes

/-- `wrap`, saltlib/saltlib_native.py:11-13. -/
def Native.wrap (code : Int) : Except Err Unit :=
  if code ≠ 0 then .error .valueError else .ok ()

namespace Native

/-- `isAvailable`, saltlib/saltlib_native.py:22-24. -/
def isAvailable (S : Sodium) : Bool := if ¬ S.named then false else true

/-- `crypto_sign_keypair_not_random`, saltlib/saltlib_native.py:26-42: (pk, sk). -/
def signKeypair (S : Sodium) (seed : Bytes) : Except Err (Bytes × Bytes) :=
  if seed.length ≠ 32 then .error .valueError
  else do
    let (code, pk, sk) := S.signSeedKeypair seed
    wrap code
    return (bufferRaw 32 pk, bufferRaw 64 sk)

/-- `crypto_sign`, saltlib/saltlib_native.py:44-59. -/
def sign (S : Sodium) (m sk : Bytes) : Except Err Bytes := do
  let (code, sm) := S.sign m m.length sk
  wrap code
  return bufferRaw (m.length + 64) sm

/-- `crypto_sign_open`, saltlib/saltlib_native.py:61-79. -/
def signOpen (S : Sodium) (sm pk : Bytes) : Except Err Bytes :=
  let (res, m, mlen) := S.signOpen sm sm.length pk
  if res ≠ 0 then .error .badSignature
  else .ok ((bufferRaw sm.length m).take mlen)

/-- `crypto_box_keypair_not_random`, saltlib/saltlib_native.py:81-96: (pk, sk). -/
def boxKeypair (S : Sodium) (sk : Bytes) : Except Err (Bytes × Bytes) :=
  if sk.length ≠ 32 then .error .valueError
  else do
    let (code, pk) := S.scalarmultBase sk
    wrap code
    return (bufferRaw 32 pk, sk)

/-- `crypto_box_beforenm`, saltlib/saltlib_native.py:98-113. -/
def boxBeforenm (S : Sodium) (pk sk : Bytes) : Except Err Bytes := do
  let (code, k) := S.boxBeforenm pk sk
  wrap code
  return bufferRaw 32 k

/-- `crypto_box_afternm`, saltlib/saltlib_native.py:115-132. -/
def boxAfternm (S : Sodium) (m n k : Bytes) : Except Err Bytes := do
  let padded := zeros 32 ++ m
  let (code, c) := S.boxAfternm padded padded.length n k
  wrap code
  return (bufferRaw padded.length c).drop 16

/-- `crypto_box_open_afternm`, saltlib/saltlib_native.py:134-155. -/
def boxOpenAfternm (S : Sodium) (c n k : Bytes) : Except Err Bytes :=
  let padded := zeros 16 ++ c
  let (res, m) := S.boxOpenAfternm padded padded.length n k
  if res ≠ 0 then .error .badEncryptedData
  else .ok ((bufferRaw padded.length m).drop 32)

/-- `crypto_hash`, saltlib/saltlib_native.py:157-171.  The digest is written into a `bytes` object
(`.raw` of a fresh buffer); the model takes this as writing into a buffer. -/
def hash (S : Sodium) (m : Bytes) : Except Err Bytes := do
  let (code, h) := S.sha512 m m.length
  wrap code
  return bufferRaw S.sha512Bytes h

end Native

/-- An object of a class derived from `SaltLibBase` (saltlib/saltlib_base.py:7-58): the library calls of
the protocol code, the key generation functions and `isAvailable`. -/
structure Api extends Lib where
  available : Bool
  /-- `crypto_sign_keypair_not_random(seed)`: (pk, sk). -/
  signKeypair : Bytes → Except Err (Bytes × Bytes)
  /-- `crypto_box_keypair_not_random(sk)`: (pk, sk). -/
  boxKeypair : Bytes → Except Err (Bytes × Bytes)

/-- `SaltLibNative`, saltlib/saltlib_native.py:16-175 (`randombytes` is not modelled). -/
def nativeApi (S : Sodium) : Api where
  available := Native.isAvailable S
  sign := Native.sign S
  signOpen := Native.signOpen S
  hash := Native.hash S
  beforenm := Native.boxBeforenm S
  box := Native.boxAfternm S
  boxOpen := Native.boxOpenAfternm S
  signKeypair := Native.signKeypair S
  boxKeypair := Native.boxKeypair S

/-! ### The packages `nacl` and `tweetnacl`

`SaltLibPyNaCl` (saltlib/saltlib_pynacl.py:12-69) and `SaltLibTweetNaClExt`
(saltlib/saltlib_tweetnaclext.py:8-57) have the same shape: they pass the arguments on and turn every
exception of the two opening functions into their own. -/

/-- The foreign functions used by `SaltLibPyNaCl` and `SaltLibTweetNaClExt`; they may raise. -/
structure Bindings where
  sign : Bytes → Bytes → Except Err Bytes
  signOpen : Bytes → Bytes → Except Err Bytes
  hash : Bytes → Except Err Bytes
  beforenm : Bytes → Bytes → Except Err Bytes
  box : Bytes → Bytes → Bytes → Except Err Bytes
  boxOpen : Bytes → Bytes → Bytes → Except Err Bytes
  seedKeypair : Bytes → Except Err (Bytes × Bytes)
  scalarmultBase : Bytes → Except Err Bytes

/-- `try: x  except Exception as e: raise E(e)`. -/
def reraise {α : Type} (E : Err) : Except Err α → Except Err α
  | .ok a => .ok a
  | .error _ => .error E

/-- `SaltLibPyNaCl`, saltlib/saltlib_pynacl.py:12-69, and `SaltLibTweetNaClExt`,
saltlib/saltlib_tweetnaclext.py:8-57.  `crypto_sign_keypair_not_random` of the former works on the C
functions (saltlib_pynacl.py:22-30); here it is one foreign function like in the latter
(saltlib_tweetnaclext.py:18). -/
def bindingsApi (B : Bindings) : Api where
  available := true
  sign := B.sign
  signOpen sm pk := reraise .badSignature (B.signOpen sm pk)
  hash := B.hash
  beforenm := B.beforenm
  box := B.box
  boxOpen c n k := reraise .badEncryptedData (B.boxOpen c n k)
  signKeypair seed := if seed.length ≠ 32 then .error .valueError else B.seedKeypair seed
  boxKeypair sk :=
    if sk.length ≠ 32 then .error .valueError
    else (B.scalarmultBase sk).map fun pk => (pk, sk)

/-! ### `SaltLib` -/

/-- `LibType`, saltlib/saltlib.py:13-18. -/
inductive LibType
  | best | native | pynacl | tweetnaclExt
  deriving DecidableEq, Repr

/-- The values of the enumeration, saltlib/saltlib.py:14-17. -/
def LibType.value : LibType → Nat
  | .best => 0 | .native => 1 | .pynacl => 2 | .tweetnaclExt => 3

/-- `SaltLib.lib_map`, saltlib/saltlib.py:26-31: keyed by the values of the enumeration, here given in
the order of the keys, as `sorted(lib_map.items())` returns them (the keys are different, so the objects
are not compared). -/
def libMap {α : Type} (native pynacl tweetnacl : α) : List (Nat × α) :=
  [(LibType.native.value, native), (LibType.pynacl.value, pynacl),
   (LibType.tweetnaclExt.value, tweetnacl)]

/-- The `for` loop of `SaltLib.getLib` with its `else`, saltlib/saltlib.py:41-47: the body returns or
raises in its first iteration; the `else` part, reached only without items, looks up the enumeration
member itself, which is not a key (KeyError, a LookupError like IndexError). -/
def getLibLoop {α : Type} (avail : α → Bool) : List (Nat × α) → Except Err (Option α)
  | (_, api) :: _ => if avail api then .ok (some api) else .error .noSuchLib
  | [] => .error .indexError

/-- `SaltLib.getLib`, saltlib/saltlib.py:37-47: for any other type than `LIB_TYPE_BEST` the method ends
without `return`, so its value is `None`. -/
def getLib {α : Type} (avail : α → Bool) (m : List (Nat × α)) (t : LibType) :
    Except Err (Option α) :=
  if t = .best then getLibLoop avail m else .ok none

/-- Calling a method of `self.api`, which may be `None` (AttributeError). -/
def onApi {α : Type} (api : Option Api) (f : Api → Except Err α) : Except Err α :=
  match api with
  | none => .error .attributeError
  | some a => f a

namespace SaltLib

/-- `create_enc_keys_from_sec`, saltlib/saltlib.py:56-58. -/
def createEncKeysFromSec (api : Option Api) (sec : Bytes) : Except Err KeyPair :=
  onApi api fun a => do
    let (pk, sk) ← a.boxKeypair sec
    return { sec := sk, pub := pk }

/-- `create_enc_keys`, saltlib/saltlib.py:53-54; `rand n` is `random_bytes(n)`. -/
def createEncKeys (api : Option Api) (rand : Nat → Bytes) : Except Err KeyPair :=
  onApi api fun _ => createEncKeysFromSec api (rand 32)

/-- `create_sig_keys_from_sec`, saltlib/saltlib.py:63-65. -/
def createSigKeysFromSec (api : Option Api) (sec : Bytes) : Except Err KeyPair :=
  onApi api fun a => do
    let (pk, sk) ← a.signKeypair (slice sec 0 32)
    return { sec := sk, pub := pk }

/-- `create_sig_keys`, saltlib/saltlib.py:60-61. -/
def createSigKeys (api : Option Api) (rand : Nat → Bytes) : Except Err KeyPair :=
  onApi api fun _ => createSigKeysFromSec api (rand 32)

/-- `compute_shared_key`, saltlib/saltlib.py:76-81, on the object level (the sessions use
`computeSharedKey`, where the backend is the environment). -/
def computeSharedKey (api : Option Api) (mySk peerPk : Bytes) : Except Err Bytes :=
  onApi api fun a =>
    if mySk.length ≠ boxSecretKeyBytes then .error .valueError
    else if peerPk.length ≠ boxPublicKeyBytes then .error .valueError
    else a.beforenm peerPk mySk

/-- `sign`, saltlib/saltlib.py:67-68. -/
def sign (api : Option Api) (msg sk : Bytes) : Except Err Bytes := onApi api fun a => a.sign msg sk

/-- `sign_open`, saltlib/saltlib.py:70-71. -/
def signOpen (api : Option Api) (smsg pk : Bytes) : Except Err Bytes :=
  onApi api fun a => a.signOpen smsg pk

/-- `sha512`, saltlib/saltlib.py:73-74. -/
def sha512 (api : Option Api) (msg : Bytes) : Except Err Bytes := onApi api fun a => a.hash msg

/-- `encrypt`, saltlib/saltlib.py:83-84. -/
def encrypt (api : Option Api) (key nonce msg : Bytes) : Except Err Bytes :=
  onApi api fun a => a.box msg nonce key

/-- `decrypt`, saltlib/saltlib.py:86-87. -/
def decrypt (api : Option Api) (key nonce encrypted : Bytes) : Except Err Bytes :=
  onApi api fun a => a.boxOpen encrypted nonce key

end SaltLib

end Salt
