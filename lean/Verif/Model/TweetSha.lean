import Verif.Model.TInt

/-!
# SHA-512 (saltchannel/saltlib/pure_pynacl/tweetnacl.py:97-101, 110-113, 571-705)

Functions that fill an array passed as an argument return the new contents of that array here.

Constants and functions on integers are part of the model.  The functions on arrays ignore indices out of range; they
are used in proofs, and the model of the code are the functions of the same names in ChkSha.lean (see Arrays.lean).
-/

namespace Salt.Tweet

/-- `dl64`, tweetnacl.py:97-101. -/
def dl64 (x : List V) : V := forRange 8 ⟨.u64, 0⟩ fun i u => (u <<< 8) ||| u8 (at' x i)

/-- `ts64`, tweetnacl.py:110-113; the index `i` runs from 7 down to 0. -/
def ts64 (x : List V) (u : V) : List V :=
  (forRange 8 (x, u) fun i (x, u) => (x.set (7 - i) (u8 u), u >>> 8)).1

/-- `R`, tweetnacl.py:571-573. -/
def R64 (x : V) (c : Nat) : V := (u64 x >>> c) ||| (u64 x <<< (64 - c))

/-- `Ch`, tweetnacl.py:576-578. -/
def Ch (x y z : V) : V := (u64 x &&& u64 y) ^^^ ((u64 x).inv &&& u64 z)

/-- `Maj`, tweetnacl.py:581-583. -/
def Maj (x y z : V) : V := ((u64 x &&& u64 y) ^^^ (u64 x &&& u64 z)) ^^^ (u64 y &&& u64 z)

/-- `Sigma0`, tweetnacl.py:586-588. -/
def bigSigma0 (x : V) : V := (R64 x 28 ^^^ R64 x 34) ^^^ R64 x 39

/-- `Sigma1`, tweetnacl.py:591-593. -/
def bigSigma1 (x : V) : V := (R64 x 14 ^^^ R64 x 18) ^^^ R64 x 41

/-- `sigma0`, tweetnacl.py:596-598. -/
def smallSigma0 (x : V) : V := (R64 x 1 ^^^ R64 x 8) ^^^ (x >>> 7)

/-- `sigma1`, tweetnacl.py:601-603. -/
def smallSigma1 (x : V) : V := (R64 x 19 ^^^ R64 x 61) ^^^ (x >>> 6)

/-- `K`, tweetnacl.py:606-627. -/
def K512 : List V :=
  intArrayOf .u64 [
    0x428a2f98d728ae22, 0x7137449123ef65cd, 0xb5c0fbcfec4d3b2f, 0xe9b5dba58189dbbc,
    0x3956c25bf348b538, 0x59f111f1b605d019, 0x923f82a4af194f9b, 0xab1c5ed5da6d8118,
    0xd807aa98a3030242, 0x12835b0145706fbe, 0x243185be4ee4b28c, 0x550c7dc3d5ffb4e2,
    0x72be5d74f27b896f, 0x80deb1fe3b1696b1, 0x9bdc06a725c71235, 0xc19bf174cf692694,
    0xe49b69c19ef14ad2, 0xefbe4786384f25e3, 0x0fc19dc68b8cd5b5, 0x240ca1cc77ac9c65,
    0x2de92c6f592b0275, 0x4a7484aa6ea6e483, 0x5cb0a9dcbd41fbd4, 0x76f988da831153b5,
    0x983e5152ee66dfab, 0xa831c66d2db43210, 0xb00327c898fb213f, 0xbf597fc7beef0ee4,
    0xc6e00bf33da88fc2, 0xd5a79147930aa725, 0x06ca6351e003826f, 0x142929670a0e6e70,
    0x27b70a8546d22ffc, 0x2e1b21385c26c926, 0x4d2c6dfc5ac42aed, 0x53380d139d95b3df,
    0x650a73548baf63de, 0x766a0abb3c77b2a8, 0x81c2c92e47edaee6, 0x92722c851482353b,
    0xa2bfe8a14cf10364, 0xa81a664bbc423001, 0xc24b8b70d0f89791, 0xc76c51a30654be30,
    0xd192e819d6ef5218, 0xd69906245565a910, 0xf40e35855771202a, 0x106aa07032bbd1b8,
    0x19a4c116b8d2d0c8, 0x1e376c085141ab53, 0x2748774cdf8eeb99, 0x34b0bcb5e19b48a8,
    0x391c0cb3c5c95a63, 0x4ed8aa4ae3418acb, 0x5b9cca4f7763e373, 0x682e6ff3d6b2b8a3,
    0x748f82ee5defb2fc, 0x78a5636f43172f60, 0x84c87814a1f0ab72, 0x8cc702081a6439ec,
    0x90befffa23631e28, 0xa4506cebde82bde9, 0xbef9a3f7b2c67915, 0xc67178f2e372532b,
    0xca273eceea26619c, 0xd186b8c721c0c207, 0xeada7dd6cde0eb1e, 0xf57d4f7fee6ed178,
    0x06f067aa72176fba, 0x0a637dc5a2c898a6, 0x113f9804bef90dae, 0x1b710b35131c471b,
    0x28db77f523047d84, 0x32caab7b40c72493, 0x3c9ebe0a15c9bebc, 0x431d67c49c100d4c,
    0x4cc5d4becb3e42b6, 0x597f299cfc657e2a, 0x5fcb6fab3ad6faec, 0x6c44198c4a475817]

/-- `iv`, tweetnacl.py:666-675. -/
def iv512 : List V :=
  intArrayOf .u8 [
    0x6a, 0x09, 0xe6, 0x67, 0xf3, 0xbc, 0xc9, 0x08,
    0xbb, 0x67, 0xae, 0x85, 0x84, 0xca, 0xa7, 0x3b,
    0x3c, 0x6e, 0xf3, 0x72, 0xfe, 0x94, 0xf8, 0x2b,
    0xa5, 0x4f, 0xf5, 0x3a, 0x5f, 0x1d, 0x36, 0xf1,
    0x51, 0x0e, 0x52, 0x7f, 0xad, 0xe6, 0x82, 0xd1,
    0x9b, 0x05, 0x68, 0x8c, 0x2b, 0x3e, 0x6c, 0x1f,
    0x1f, 0x83, 0xd9, 0xab, 0xfb, 0x41, 0xbd, 0x6b,
    0x5b, 0xe0, 0xcd, 0x19, 0x13, 0x7e, 0x21, 0x79]

/-- The arrays `a`, `b` and `w` of `crypto_hashblocks_sha512_tweet`. -/
structure ShaState where
  a : List V
  b : List V
  w : List V

/-- The new words `w` after 16 rounds, tweetnacl.py:652-653. -/
def shaWords (w : List V) : List V :=
  forRange 16 w fun j w =>
    w.set j (at' w j + (at' w ((j + 9) % 16) + smallSigma0 (at' w ((j + 1) % 16)) + smallSigma1 (at' w ((j + 14) % 16))))

/-- The body of the loop over the 80 rounds, tweetnacl.py:645-653. -/
def shaRound (i : Nat) (s : ShaState) : ShaState :=
  let a := s.a
  let b := forRange 8 s.b fun j b => b.set j (at' a j)
  let t := at' a 7 + bigSigma1 (at' a 4) + Ch (at' a 4) (at' a 5) (at' a 6) + at' K512 i + at' s.w (i % 16)
  let b := b.set 7 (t + bigSigma0 (at' a 0) + Maj (at' a 0) (at' a 1) (at' a 2))
  let b := b.set 3 (at' b 3 + t)
  let a := forRange 8 a fun j a => a.set ((j + 1) % 8) (at' b j)
  ⟨a, b, if i % 16 = 15 then shaWords s.w else s.w⟩

/-- One pass of the loop over the blocks, tweetnacl.py:642-656; `m` is `m[m_off:]`.  The new contents of `z` and the
arrays. -/
def shaBlock (m z : List V) (s : ShaState) : List V × ShaState :=
  let w := forRange 16 s.w fun i w => w.set i (dl64 (m.drop (8 * i)))
  let s := forRange 80 { s with w := w } shaRound
  let (a, z) := forRange 8 (s.a, z) fun i (a, z) =>
    let a := a.set i (at' a i + at' z i)
    (a, z.set i (at' a i))
  (z, { s with a := a })

/-- The loop over the blocks, tweetnacl.py:640-659; the new contents of `z`. -/
def shaLoop (m z : List V) (s : ShaState) (n : Nat) : List V :=
  if 128 ≤ n then
    let r := shaBlock m z s
    shaLoop (m.drop 128) r.1 r.2 (n - 128)
  else z
termination_by n
decreasing_by omega

/-- `crypto_hashblocks_sha512_tweet`, tweetnacl.py:630-663; the new contents of `x`. -/
def hashblocks (x m : List V) (n : Nat) : List V :=
  let z := forRange 8 (intArray .u64 8) fun i z => z.set i (dl64 (x.drop (8 * i)))
  let z := shaLoop m z ⟨z, intArray .u64 8, intArray .u64 16⟩ n
  forRange 8 x fun i x => x.take (8 * i) ++ ts64 (x.drop (8 * i)) (at' z i)

/-- The last one or two blocks in `crypto_hash_sha512_tweet`, tweetnacl.py:682, 687-697, and their length. -/
def shaLast (m : List V) (len : Nat) : List V × Nat :=
  let b := u64 ⟨.plain, (len : Int)⟩
  let n := len % 128
  let off := len - n
  let x := intArray .u8 256
  let x := forRange n x fun i x => x.set i (at' m (i + off))
  let x := x.set n 128
  let n := 256 - 128 * (if n < 112 then 1 else 0)
  let x := x.set (n - 9) (b >>> 61)
  (x.take (n - 8) ++ ts64 (x.drop (n - 8)) (b <<< 3), n)

/-- `crypto_hash_sha512_tweet`, tweetnacl.py:678-702; the new contents of `out`. -/
def hashSha512 (out m : List V) (n : Nat) : List V :=
  let h := forRange 64 (intArray .u8 64) fun i h => h.set i (at' iv512 i)
  let h := hashblocks h m n
  let x := shaLast m n
  let h := hashblocks h x.1 x.2
  forRange 64 out fun i out => out.set i (at' h i)

end Salt.Tweet
