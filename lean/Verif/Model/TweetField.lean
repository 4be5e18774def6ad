import Verif.Model.TweetSalsa

/-!
# Arithmetic modulo 2^255 - 19 and X25519 (saltchannel/saltlib/pure_pynacl/tweetnacl.py:56-58, 72-81, 338-570)

Functions that fill an array passed as an argument return the new contents of that array here.  Some calls
pass the same array twice (`Z(a, a, c)`, `M(c, c, i)`); every function reads an item before it writes it, and the
writes of `M` come after all its reads, so that the model may read the old contents.

Constants and functions on integers are part of the model.  The functions on arrays ignore indices out of range; they
are used in proofs, and the model of the code are the functions of the same names in ChkField.lean (see Arrays.lean).
-/

namespace Salt.Tweet

/-- `gf(init)`, tweetnacl.py:56-58. -/
def gf (init : List Int) : List V := intArrayOf .i64 init ++ intArray .i64 (16 - init.length)

/-- `_9`, tweetnacl.py:72. -/
def nine : List V := intArrayOf .u8 [9] ++ intArray .u8 31

/-- `_121665`, tweetnacl.py:76. -/
def c121665 : List V := gf [0xDB41, 1]

/-- `set25519`, tweetnacl.py:339-341. -/
def set25519 (r a : List V) : List V := forRange 16 r fun i r => r.set i (at' a i)

/-- The body of the loop of `car25519`, tweetnacl.py:347-351; `i < 15` and `i == 15` are used as numbers. -/
def carStep (i : Nat) (o : List V) : List V :=
  let o := o.set i (at' o i + (⟨.i64, 1⟩ : V) <<< 16)
  let c := at' o i >>> 16
  let j := if i < 15 then i + 1 else 0
  let o := o.set j (at' o j + ((c - 1) + 37 * (c - 1) * (if i = 15 then 1 else 0)))
  o.set i (at' o i - c <<< 16)

/-- `car25519`, tweetnacl.py:344-351. -/
def car25519 (o : List V) : List V := forRange 16 o carStep

/-- `sel25519`, tweetnacl.py:354-362. -/
def sel25519 (p q : List V) (b : V) : List V × List V :=
  let c := i64 (b - 1).inv
  forRange 16 (p, q) fun i (p, q) =>
    let t := c &&& (at' p i ^^^ at' q i)
    (p.set i (at' p i ^^^ t), q.set i (at' q i ^^^ t))

/-- The body of the loop over `i` in `pack25519`, tweetnacl.py:378-380; `i` here is the index minus 1. -/
def packStep (t : List V) (i : Nat) (m : List V) : List V :=
  let m := m.set (i + 1) (at' t (i + 1) - (0xffff : V) - ((at' m i >>> 16) &&& (1 : V)))
  m.set i (at' m i &&& 0xffff)

/-- The body of the loop over `j` in `pack25519`, tweetnacl.py:376-386, on the arrays `t` and `m`. -/
def packRound (s : List V × List V) : List V × List V :=
  let (t, m) := s
  let m := m.set 0 (at' t 0 - 0xffed)
  let m := forRange 14 m (packStep t)
  let m := m.set 15 (at' t 15 - (0x7fff : V) - ((at' m 14 >>> 16) &&& (1 : V)))
  let b := (at' m 15 >>> 16) &&& 1
  let m := m.set 14 (at' m 14 &&& 0xffff)
  sel25519 t m (1 - b)

/-- `pack25519`, tweetnacl.py:365-390. -/
def pack25519 (o n : List V) : List V :=
  let m := gf []
  let t := forRange 16 (gf []) fun i t => t.set i (at' n i)
  let t := car25519 (car25519 (car25519 t))
  let (t, _) := packRound (packRound (t, m))
  forRange 16 o fun i o => (o.set (2 * i) (at' t i &&& 0xff)).set (2 * i + 1) (at' t i >>> 8)

/-- `neq25519`, tweetnacl.py:393-399. -/
def neq25519 (w : Nat) (a b : List V) : V :=
  verify32 w (pack25519 (intArray .u8 32) a) (pack25519 (intArray .u8 32) b)

/-- `par25519`, tweetnacl.py:402-406. -/
def par25519 (a : List V) : V := at' (pack25519 (intArray .u8 32) a) 0 &&& 1

/-- `unpack25519`, tweetnacl.py:409-412. -/
def unpack25519 (o n : List V) : List V :=
  let o := forRange 16 o fun i o => o.set i (at' n (2 * i) + i64 (at' n (2 * i + 1)) <<< 8)
  o.set 15 (at' o 15 &&& 0x7fff)

/-- `A`, tweetnacl.py:415-417. -/
def A (o a b : List V) : List V := forRange 16 o fun i o => o.set i (at' a i + at' b i)

/-- `Z`, tweetnacl.py:420-422. -/
def Z (o a b : List V) : List V := forRange 16 o fun i o => o.set i (at' a i - at' b i)

/-- The products of `M`, tweetnacl.py:427-429. -/
def mulTable (a b : List V) : List V :=
  forRange 16 (intArray .i64 31) fun i t =>
    forRange 16 t fun j t => t.set (i + j) (at' t (i + j) + at' a i * at' b j)

/-- `M`, tweetnacl.py:425-436. -/
def M (o a b : List V) : List V :=
  let t := mulTable a b
  let t := forRange 15 t fun i t => t.set i (at' t i + 38 * at' t (i + 16))
  let o := forRange 16 o fun i o => o.set i (at' t i)
  car25519 (car25519 o)

/-- `S`, tweetnacl.py:439-441. -/
def S (o a : List V) : List V := M o a a

/-- `inv25519`, tweetnacl.py:444-454; the index `a` runs from 253 down to 0. -/
def inv25519 (o i : List V) : List V :=
  let c := forRange 16 (gf []) fun a c => c.set a (at' i a)
  let c := forRange 254 c fun k c =>
    let a := 253 - k
    let c := S c c
    if a ≠ 2 ∧ a ≠ 4 then M c c i else c
  forRange 16 o fun a o => o.set a (at' c a)

/-- `pow2523`, tweetnacl.py:457-465; the index `a` runs from 250 down to 0. -/
def pow2523 (o i : List V) : List V :=
  let c := forRange 16 (gf []) fun a c => c.set a (at' i a)
  let c := forRange 251 c fun k c =>
    let a := 250 - k
    let c := S c c
    if a ≠ 1 then M c c i else c
  forRange 16 o fun a o => o.set a (at' c a)

/-- The arrays `a` to `f` of `crypto_scalarmult_curve25519_tweet`. -/
structure Ladder where
  a : List V
  b : List V
  c : List V
  d : List V
  e : List V
  f : List V

/-- The body of the main loop of `crypto_scalarmult_curve25519_tweet`, tweetnacl.py:493-516. -/
def ladderStep (z x : List V) (i : Nat) (s : Ladder) : Ladder :=
  let ⟨a, b, c, d, e, f⟩ := s
  let r := (at' z (i >>> 3) >>> (i &&& 7)) &&& 1
  let (a, b) := sel25519 a b r
  let (c, d) := sel25519 c d r
  let e := A e a c
  let a := Z a a c
  let c := A c b d
  let b := Z b b d
  let d := S d e
  let f := S f a
  let a := M a c a
  let c := M c b e
  let e := A e a c
  let a := Z a a c
  let b := S b a
  let c := Z c d f
  let a := M a c c121665
  let a := A a a d
  let c := M c c a
  let a := M a d f
  let d := M d b x
  let b := S b e
  let (a, b) := sel25519 a b r
  let (c, d) := sel25519 c d r
  ⟨a, b, c, d, e, f⟩

/-- The clamped scalar `z`, tweetnacl.py:470, 481-483. -/
def clampScalar (n : List V) : List V :=
  let z := forRange 31 (intArray .u8 32) fun i z => z.set i (at' n i)
  let z := z.set 31 ((at' n 31 &&& 127) ||| 64)
  z.set 0 (at' z 0 &&& 248)

/-- `crypto_scalarmult_curve25519_tweet`, tweetnacl.py:468-526; the new contents of `q`. -/
def scalarmultCurve (q n p : List V) : List V :=
  let z := clampScalar n
  let x := unpack25519 (intArray .i64 80) p
  let s : Ladder := ⟨gf [], gf [], gf [], gf [], gf [], gf []⟩
  let s := forRange 16 s fun i s =>
    { s with b := s.b.set i (at' x i), d := s.d.set i 0, a := s.a.set i 0, c := s.c.set i 0 }
  let s := { s with a := s.a.set 0 1, d := s.d.set 0 1 }
  let s := forRange 255 s fun k s => ladderStep z x (254 - k) s
  let x := forRange 16 x fun i x =>
    (((x.set (i + 16) (at' s.a i)).set (i + 32) (at' s.c i)).set (i + 48) (at' s.b i)).set (i + 64) (at' s.d i)
  let x := x.take 32 ++ inv25519 (x.drop 32) (x.drop 32)
  let x := x.take 16 ++ M (x.drop 16) (x.drop 16) (x.drop 32)
  pack25519 q (x.drop 16)

/-- `crypto_scalarmult_curve25519_tweet_base`, tweetnacl.py:529-531. -/
def scalarmultCurveBase (q n : List V) : List V := scalarmultCurve q n nine

/-- `crypto_box_curve25519xsalsa20poly1305_tweet_beforenm`, tweetnacl.py:540-544. -/
def boxBeforenm (w : Nat) (k y x : List V) : List V :=
  let s := scalarmultCurve (intArray .u8 32) x y
  core w k (intArray .u8 16) s sigma true

end Salt.Tweet
