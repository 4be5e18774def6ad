import Verif.Model.TweetSalsa
import Verif.Model.TweetSha
import Verif.Model.TweetField
import Verif.Model.TweetSign

/-!
# Random key pairs, `crypto_box` and `crypto_box_open` of pure_pynacl (tweetnacl.py)

Functions of the pure Python library that `SaltLibPure` does not use.  The argument `r` stands for what
`os.urandom` returns.

Constants and functions on integers are part of the model.  The functions on arrays ignore indices out of range; they
are used in proofs, and the model of the code are the functions of the same names in ChkKeys.lean (see Arrays.lean).
-/

namespace Salt.Tweet

/-- `randombytes(c, s)`, tweetnacl.py:61-68, where `r` is `os.urandom(s)`: the new contents of `c`. -/
def randombytes (c : List V) (r : Bytes) : List V := ofBytes r ++ c.drop r.length

/-- `crypto_box_curve25519xsalsa20poly1305_tweet_keypair`, tweetnacl.py:534-537, with the 32 random bytes `r`: the new
contents of `y` and `x`. -/
def boxKeypair (y x : List V) (r : Bytes) : List V × List V :=
  let x := randombytes x r
  (scalarmultCurveBase y x, x)

/-- `crypto_box_curve25519xsalsa20poly1305_tweet`, tweetnacl.py:557-561, with
`crypto_box_curve25519xsalsa20poly1305_tweet_afternm` (:547-549): the return value and the new contents of `c`. -/
def box (w : Nat) (c m : List V) (d : Nat) (n y x : List V) : Int × List V :=
  secretbox w c m d n (boxBeforenm w (intArray .u8 32) y x)

/-- `crypto_box_curve25519xsalsa20poly1305_tweet_open`, tweetnacl.py:564-568, with
`crypto_box_curve25519xsalsa20poly1305_tweet_open_afternm` (:552-554): the return value and the new contents of `m`. -/
def boxOpen (w : Nat) (m c : List V) (d : Nat) (n y x : List V) : Int × List V :=
  secretboxOpen w m c d n (boxBeforenm w (intArray .u8 32) y x)

/-- `crypto_sign_ed25519_tweet_keypair`, tweetnacl.py:780-795, with the 32 random bytes `r`: the new contents of `pk`
and `sk`. -/
def signKeypair (pk sk : List V) (r : Bytes) : List V × List V :=
  let sk := randombytes sk r
  let d := clampHash (hashSha512 (intArray .u8 64) sk 32)
  let pk := pack pk (scalarbase Pt.new d)
  (pk, (List.range 32).foldl (fun sk i => sk.set (32 + i) (at' pk i)) sk)

end Salt.Tweet
