import Verif.Model.ChkSalsa
import Verif.Model.ChkSign
import Verif.Model.TweetBox

/-!
# Random key pairs, `crypto_box` and `crypto_box_open` of pure_pynacl (tweetnacl.py)

Functions of the pure Python library that `SaltLibPure` does not use, with IndexError, see Arrays.lean.  The argument `r`
stands for what `os.urandom` returns.
-/

namespace Salt.Chk

open Salt.Tweet (V intArray u8 Pt randombytes)

/-- `crypto_box_curve25519xsalsa20poly1305_tweet_keypair`, tweetnacl.py:534-537, with the 32 random bytes `r`: the new
contents of `y` and `x`. -/
def boxKeypair (y x : List V) (r : Bytes) : Except Err (List V × List V) := do
  let x := randombytes x r
  let y ← scalarmultCurveBase y x
  pure (y, x)

/-- `crypto_box_curve25519xsalsa20poly1305_tweet`, tweetnacl.py:557-561, with
`crypto_box_curve25519xsalsa20poly1305_tweet_afternm` (:547-549): the return value and the new contents of `c`. -/
def box (w : Nat) (c m : List V) (d : Nat) (n y x : List V) : Except Err (Int × List V) := do
  let k ← boxBeforenm w (intArray .u8 32) y x
  secretbox w c m d n k

/-- `crypto_box_curve25519xsalsa20poly1305_tweet_open`, tweetnacl.py:564-568, with
`crypto_box_curve25519xsalsa20poly1305_tweet_open_afternm` (:552-554): the return value and the new contents of `m`. -/
def boxOpen (w : Nat) (m c : List V) (d : Nat) (n y x : List V) : Except Err (Int × List V) := do
  let k ← boxBeforenm w (intArray .u8 32) y x
  secretboxOpen w m c d n k

/-- `crypto_sign_ed25519_tweet_keypair`, tweetnacl.py:780-795, with the 32 random bytes `r`: the new contents of the lists
`pk` and `sk`. -/
def signKeypair (pk sk : List V) (r : Bytes) : Except Err (List V × List V) := do
  let sk := randombytes sk r
  let d ← hashSha512 (intArray .u8 64) sk 32
  let d ← clampHash d
  let p ← scalarbase Pt.new d
  let pk ← pack .list pk p
  let sk ← loop 32 sk fun i sk => do put sk (32 + i) (← get pk i)
  pure (pk, sk)

end Salt.Chk
