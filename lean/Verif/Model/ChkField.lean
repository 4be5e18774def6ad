import Verif.Model.ChkSalsa
import Verif.Model.TweetField

/-!
# Arithmetic modulo 2^255 - 19 and X25519 (saltchannel/saltlib/pure_pynacl/tweetnacl.py:339-568)

With IndexError, see Arrays.lean.  Functions that fill an array passed as an argument return the new contents of that
array here.  Some calls pass the same array twice (`Z(a, a, c)`, `M(c, c, i)`); every function reads an item before it
writes it, and the writes of `M` come after all its reads, so that the model may read the old contents.
-/

namespace Salt.Chk

open Salt.Tweet (V at' intArray u8 i64 gf nine c121665 sigma Ladder)

/-- `set25519`, tweetnacl.py:339-341. -/
def set25519 (r a : List V) : Except Err (List V) := loop 16 r fun i r => do put r i (← get a i)

/-- The body of the loop of `car25519`, tweetnacl.py:347-351; `i < 15` and `i == 15` are used as numbers. -/
def carStep (i : Nat) (o : List V) : Except Err (List V) := do
  let o ← put o i ((← get o i) + (⟨.i64, 1⟩ : V) <<< 16)
  let c := (← get o i) >>> 16
  let j := if i < 15 then i + 1 else 0
  let o ← put o j ((← get o j) + ((c - 1) + 37 * (c - 1) * (if i = 15 then 1 else 0)))
  put o i ((← get o i) - c <<< 16)

/-- `car25519`, tweetnacl.py:344-351. -/
def car25519 (o : List V) : Except Err (List V) := loop 16 o carStep

/-- `sel25519`, tweetnacl.py:354-362. -/
def sel25519 (p q : List V) (b : V) : Except Err (List V × List V) :=
  let c := i64 (b - 1).inv
  loop 16 (p, q) fun i s => do
    let x ← get s.1 i
    let y ← get s.2 i
    let t := c &&& (x ^^^ y)
    let p ← put s.1 i (x ^^^ t)
    let q ← put s.2 i (y ^^^ t)
    pure (p, q)

/-- The body of the loop over `i` in `pack25519`, tweetnacl.py:378-380; `i` here is the index minus 1. -/
def packStep (t : List V) (i : Nat) (m : List V) : Except Err (List V) := do
  let a ← get t (i + 1)
  let m ← put m (i + 1) (a - (0xffff : V) - (((← get m i) >>> 16) &&& (1 : V)))
  put m i ((← get m i) &&& 0xffff)

/-- The body of the loop over `j` in `pack25519`, tweetnacl.py:376-386, on the arrays `t` and `m`. -/
def packRound (s : List V × List V) : Except Err (List V × List V) := do
  let m ← put s.2 0 ((← get s.1 0) - 0xffed)
  let m ← loop 14 m (packStep s.1)
  let a ← get s.1 15
  let m ← put m 15 (a - (0x7fff : V) - (((← get m 14) >>> 16) &&& (1 : V)))
  let b := ((← get m 15) >>> 16) &&& 1
  let m ← put m 14 ((← get m 14) &&& 0xffff)
  sel25519 s.1 m (1 - b)

/-- `pack25519`, tweetnacl.py:365-390; `o` is a list or a `bytearray`. -/
def pack25519 (kind : Kind) (o n : List V) : Except Err (List V) := do
  let t ← loop 16 (gf []) fun i t => do put t i (← get n i)
  let t ← car25519 t
  let t ← car25519 t
  let t ← car25519 t
  let s ← packRound (t, gf [])
  let s ← packRound s
  loop 16 o fun i o => do
    let o ← kind.put o (2 * i) ((← get s.1 i) &&& 0xff)
    kind.put o (2 * i + 1) ((← get s.1 i) >>> 8)

/-- `neq25519`, tweetnacl.py:393-399. -/
def neq25519 (w : Nat) (a b : List V) : Except Err V := do
  let c ← pack25519 .list (intArray .u8 32) a
  let d ← pack25519 .list (intArray .u8 32) b
  verify32 w c d

/-- `par25519`, tweetnacl.py:402-406. -/
def par25519 (a : List V) : Except Err V := do
  let d ← pack25519 .list (intArray .u8 32) a
  pure ((← get d 0) &&& 1)

/-- `unpack25519`, tweetnacl.py:409-412. -/
def unpack25519 (o n : List V) : Except Err (List V) := do
  let o ← loop 16 o fun i o => do
    let a ← get n (2 * i)
    let b ← get n (2 * i + 1)
    put o i (a + i64 b <<< 8)
  put o 15 ((← get o 15) &&& 0x7fff)

/-- `A`, tweetnacl.py:415-417. -/
def A (o a b : List V) : Except Err (List V) :=
  loop 16 o fun i o => do
    let x ← get a i
    put o i (x + (← get b i))

/-- `Z`, tweetnacl.py:420-422. -/
def Z (o a b : List V) : Except Err (List V) :=
  loop 16 o fun i o => do
    let x ← get a i
    put o i (x - (← get b i))

/-- The products of `M`, tweetnacl.py:427-429. -/
def mulTable (a b : List V) : Except Err (List V) :=
  loop 16 (intArray .i64 31) fun i t =>
    loop 16 t fun j t => do
      let x ← get t (i + j)
      let y ← get a i
      put t (i + j) (x + y * (← get b j))

/-- `M`, tweetnacl.py:425-436. -/
def M (o a b : List V) : Except Err (List V) := do
  let t ← mulTable a b
  let t ← loop 15 t fun i t => do
    let x ← get t i
    put t i (x + 38 * (← get t (i + 16)))
  let o ← loop 16 o fun i o => do put o i (← get t i)
  let o ← car25519 o
  car25519 o

/-- `S`, tweetnacl.py:439-441. -/
def S (o a : List V) : Except Err (List V) := M o a a

/-- `inv25519`, tweetnacl.py:444-454; the index `a` runs from 253 down to 0. -/
def inv25519 (o i : List V) : Except Err (List V) := do
  let c ← loop 16 (gf []) fun a c => do put c a (← get i a)
  let c ← loop 254 c fun k c => do
    let a := 253 - k
    let c ← S c c
    if a ≠ 2 ∧ a ≠ 4 then M c c i else pure c
  loop 16 o fun a o => do put o a (← get c a)

/-- `pow2523`, tweetnacl.py:457-465; the index `a` runs from 250 down to 0. -/
def pow2523 (o i : List V) : Except Err (List V) := do
  let c ← loop 16 (gf []) fun a c => do put c a (← get i a)
  let c ← loop 251 c fun k c => do
    let a := 250 - k
    let c ← S c c
    if a ≠ 1 then M c c i else pure c
  loop 16 o fun a o => do put o a (← get c a)

/-- The body of the main loop of `crypto_scalarmult_curve25519_tweet`, tweetnacl.py:493-516. -/
def ladderStep (z x : List V) (i : Nat) (s : Ladder) : Except Err Ladder := do
  let ⟨a, b, c, d, e, f⟩ := s
  let r := ((← get z (i >>> 3)) >>> (i &&& 7)) &&& 1
  let (a, b) ← sel25519 a b r
  let (c, d) ← sel25519 c d r
  let e ← A e a c
  let a ← Z a a c
  let c ← A c b d
  let b ← Z b b d
  let d ← S d e
  let f ← S f a
  let a ← M a c a
  let c ← M c b e
  let e ← A e a c
  let a ← Z a a c
  let b ← S b a
  let c ← Z c d f
  let a ← M a c c121665
  let a ← A a a d
  let c ← M c c a
  let a ← M a d f
  let d ← M d b x
  let b ← S b e
  let (a, b) ← sel25519 a b r
  let (c, d) ← sel25519 c d r
  pure ⟨a, b, c, d, e, f⟩

/-- The clamped scalar `z`, tweetnacl.py:470, 481-483. -/
def clampScalar (n : List V) : Except Err (List V) := do
  let z ← loop 31 (intArray .u8 32) fun i z => do put z i (← get n i)
  let z ← put z 31 (((← get n 31) &&& 127) ||| 64)
  put z 0 ((← get z 0) &&& 248)

/-- The arrays `a` to `f` before the main loop, tweetnacl.py:474-479, 487-491. -/
def ladderStart (x : List V) : Except Err Ladder := do
  let s : Ladder := ⟨gf [], gf [], gf [], gf [], gf [], gf []⟩
  let s ← loop 16 s fun i s => do
    let b ← put s.b i (← get x i)
    let d ← put s.d i 0
    let a ← put s.a i 0
    let c ← put s.c i 0
    pure { s with b := b, d := d, a := a, c := c }
  let a ← put s.a 0 1
  let d ← put s.d 0 1
  pure { s with a := a, d := d }

/-- `crypto_scalarmult_curve25519_tweet`, tweetnacl.py:468-526; the new contents of `q`. -/
def scalarmultCurve (q n p : List V) : Except Err (List V) := do
  let z ← clampScalar n
  let x ← unpack25519 (intArray .i64 80) p
  let s ← ladderStart x
  let s ← loop 255 s fun k s => ladderStep z x (254 - k) s
  let x ← loop 16 x fun i x => do
    let x ← put x (i + 16) (← get s.a i)
    let x ← put x (i + 32) (← get s.c i)
    let x ← put x (i + 48) (← get s.b i)
    put x (i + 64) (← get s.d i)
  let t ← inv25519 (x.drop 32) (x.drop 32)
  let x := x.take 32 ++ t
  let t ← M (x.drop 16) (x.drop 16) (x.drop 32)
  let x := x.take 16 ++ t
  pack25519 .list q (x.drop 16)

/-- `crypto_scalarmult_curve25519_tweet_base`, tweetnacl.py:529-531. -/
def scalarmultCurveBase (q n : List V) : Except Err (List V) := scalarmultCurve q n nine

/-- `crypto_box_curve25519xsalsa20poly1305_tweet_beforenm`, tweetnacl.py:540-544. -/
def boxBeforenm (w : Nat) (k y x : List V) : Except Err (List V) := do
  let s ← scalarmultCurve (intArray .u8 32) x y
  core w k (intArray .u8 16) s sigma true

end Salt.Chk
