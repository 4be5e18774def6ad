import Verif.Model.Arrays
import Verif.Model.TweetSalsa

/-!
# Salsa20, Poly1305 and the secret box (saltchannel/saltlib/pure_pynacl/tweetnacl.py:84-336)

With IndexError, see Arrays.lean.  Functions that fill an array passed as an argument return the new contents of that
array here (together with the return value, unless it is always 0).  `w` is the width of `u32` (see TInt.lean).
-/

namespace Salt.Chk

open Salt.Tweet (V at' intArray u8 u32 L32 sigma minusp)

/-- `ld32`, tweetnacl.py:89-94. -/
def ld32 (w : Nat) (x : List V) : Except Err V := do
  let u := u32 w (← get x 3)
  let u := (u <<< 8) ||| u32 w (← get x 2)
  let u := (u <<< 8) ||| u32 w (← get x 1)
  pure ((u <<< 8) ||| u32 w (← get x 0))

/-- `st32`, tweetnacl.py:104-107. -/
def st32 (x : List V) (u : V) : Except Err (List V) := do
  let s ← loop 4 (x, u) fun i s => do
    let x ← put s.1 i (u8 s.2)
    pure (x, s.2 >>> 8)
  pure s.1

/-- `vn`, tweetnacl.py:116-120. -/
def vn (w : Nat) (x y : List V) (n : Nat) : Except Err V := do
  let d ← loop n ⟨.u32 w, 0⟩ fun i d => do
    let a ← get x i
    let b ← get y i
    pure (d ||| (a ^^^ b))
  pure (((1 : V) &&& ((d - 1) >>> 8)) - 1)

/-- `crypto_verify_16_tweet`, tweetnacl.py:123-125. -/
def verify16 (w : Nat) (x y : List V) : Except Err V := vn w x y 16

/-- `crypto_verify_32_tweet`, tweetnacl.py:128-130. -/
def verify32 (w : Nat) (x y : List V) : Except Err V := vn w x y 32

/-- The first loop of `core`, tweetnacl.py:140-144. -/
def coreInput (w : Nat) (in_ k c : List V) : Except Err (List V) :=
  loop 4 (intArray (.u32 w) 16) fun i x => do
    let x ← put x (5 * i) (← ld32 w (c.drop (4 * i)))
    let x ← put x (1 + i) (← ld32 w (k.drop (4 * i)))
    let x ← put x (6 + i) (← ld32 w (in_.drop (4 * i)))
    put x (11 + i) (← ld32 w (k.drop (16 + 4 * i)))

/-- The copy `y` of `x`, tweetnacl.py:146. -/
def coreCopy (w : Nat) (x : List V) : Except Err (List V) :=
  loop 16 (intArray (.u32 w) 16) fun i y => do put y i (← get x i)

/-- The body of the loop over `j` in `core`, tweetnacl.py:150-155; the new contents of `w` (`out` here).
Simplification: the four items of `t` are variables. -/
def coreColumn (w : Nat) (x : List V) (j : Nat) (out : List V) : Except Err (List V) := do
  let t0 ← get x ((5 * j + 4 * 0) % 16)
  let t1 ← get x ((5 * j + 4 * 1) % 16)
  let t2 ← get x ((5 * j + 4 * 2) % 16)
  let t3 ← get x ((5 * j + 4 * 3) % 16)
  let t1 := t1 ^^^ L32 w (t0 + t3) 7
  let t2 := t2 ^^^ L32 w (t1 + t0) 9
  let t3 := t3 ^^^ L32 w (t2 + t1) 13
  let t0 := t0 ^^^ L32 w (t3 + t2) 18
  let out ← put out (4 * j + (j + 0) % 4) t0
  let out ← put out (4 * j + (j + 1) % 4) t1
  let out ← put out (4 * j + (j + 2) % 4) t2
  put out (4 * j + (j + 3) % 4) t3

/-- The body of the loop over the 20 rounds in `core`, tweetnacl.py:149-156, on the arrays `x` and `w`. -/
def coreRound (w : Nat) (s : List V × List V) : Except Err (List V × List V) := do
  let out ← loop 4 s.2 fun j out => coreColumn w s.1 j out
  let x ← loop 16 s.1 fun m x => do put x m (← get out m)
  pure (x, out)

/-- The 20 rounds in `core`, tweetnacl.py:148-156. -/
def coreRounds (w : Nat) (x : List V) : Except Err (List V) := do
  let s ← loop 20 (x, intArray (.u32 w) 16) fun _ s => coreRound w s
  pure s.1

/-- `core`, tweetnacl.py:133-168. -/
def core (w : Nat) (out in_ k c : List V) (h : Bool) : Except Err (List V) := do
  let x ← coreInput w in_ k c
  let y ← coreCopy w x
  let x ← coreRounds w x
  if h then
    let x ← loop 16 x fun i x => do
      let a ← get x i
      put x i (a + (← get y i))
    let x ← loop 4 x fun i x => do
      let a ← get x (5 * i)
      let x ← put x (5 * i) (a - (← ld32 w (c.drop (4 * i))))
      let a ← get x (6 + i)
      put x (6 + i) (a - (← ld32 w (in_.drop (4 * i))))
    loop 4 out fun i out => do
      let t ← st32 (out.drop (4 * i)) (← get x (5 * i))
      let out := out.take (4 * i) ++ t
      let t ← st32 (out.drop (16 + 4 * i)) (← get x (6 + i))
      pure (out.take (16 + 4 * i) ++ t)
  else
    loop 16 out fun i out => do
      let a ← get x i
      let t ← st32 (out.drop (4 * i)) (a + (← get y i))
      pure (out.take (4 * i) ++ t)

/-- The assignments to `c` in the loops of `crypto_stream_salsa20_tweet_xor`, tweetnacl.py:198, 210; an empty `m` stands
for zeros, and is not read. -/
def xorBlock (c : List V) (off : Nat) (m : List V) (moff : Nat) (x : List V) (n : Nat) : Except Err (List V) :=
  loop n c fun i c => do
    let a ← if m.isEmpty then pure (0 : V) else get m (i + moff)
    put c (i + off) (a ^^^ (← get x i))

/-- The increment of the block counter in `crypto_stream_salsa20_tweet_xor`, tweetnacl.py:199-203. -/
def bumpCounter (w : Nat) (z : List V) : Except Err (List V) := do
  let s ← loop 8 (z, Tweet.cast (.u32 w) 1) fun i s => do
    let u := s.2 + u32 w (← get s.1 (i + 8))
    let z ← put s.1 (i + 8) u
    pure (z, u >>> 8)
  pure s.1

/-- The loop and the final part of `crypto_stream_salsa20_tweet_xor`, tweetnacl.py:196-210. -/
def streamLoop (w : Nat) (c m : List V) (b : Nat) (off moff : Nat) (z k x : List V) : Except Err (List V) :=
  if 64 ≤ b then do
    let x ← core w x z k sigma false
    let c ← xorBlock c off m moff x 64
    let z ← bumpCounter w z
    streamLoop w c m (b - 64) (off + 64) (if m.isEmpty then moff else moff + 64) z k x
  else if 0 < b then do
    let x ← core w x z k sigma false
    xorBlock c off m moff x b
  else pure c
termination_by b

/-- `crypto_stream_salsa20_tweet_xor`, tweetnacl.py:186-212; the new contents of `c`. -/
def streamSalsaXor (w : Nat) (c m : List V) (b : Nat) (n k : List V) : Except Err (List V) :=
  if b = 0 then pure c
  else do
    let z ← loop 8 (intArray .u8 16) fun i z => do put z i (← get n i)
    streamLoop w c m b 0 0 z k (intArray .u8 64)

/-- `crypto_stream_salsa20_tweet`, tweetnacl.py:215-217. -/
def streamSalsa (w : Nat) (c : List V) (d : Nat) (n k : List V) : Except Err (List V) := streamSalsaXor w c [] d n k

/-- `crypto_stream_xsalsa20_tweet`, tweetnacl.py:220-224. -/
def streamXsalsa (w : Nat) (c : List V) (d : Nat) (n k : List V) : Except Err (List V) := do
  let s ← core w (intArray .u8 32) n k sigma true
  streamSalsa w c d (n.drop 16) s

/-- `crypto_stream_xsalsa20_tweet_xor`, tweetnacl.py:227-231. -/
def streamXsalsaXor (w : Nat) (c m : List V) (d : Nat) (n k : List V) : Except Err (List V) := do
  let s ← core w (intArray .u8 32) n k sigma true
  streamSalsaXor w c m d (n.drop 16) s

/-- `add1305`, tweetnacl.py:234-240; the new contents of `h`. -/
def add1305 (w : Nat) (h c : List V) : Except Err (List V) := do
  let s ← loop 17 (h, (⟨.u32 w, 0⟩ : V)) fun j s => do
    let a ← get s.1 j
    let u := s.2 + u32 w (a + (← get c j))
    let h ← put s.1 j (u &&& 255)
    pure (h, u >>> 8)
  pure s.1

/-- `r[j] &= a`, tweetnacl.py:257-263. -/
def andItem (r : List V) (j : Nat) (a : V) : Except Err (List V) := do put r j ((← get r j) &&& a)

/-- The clamped `r` of `crypto_onetimeauth_poly1305_tweet`, tweetnacl.py:256-263. -/
def polyR (w : Nat) (k : List V) : Except Err (List V) := do
  let r ← loop 16 (intArray (.u32 w) 17) fun j r => do put r j (← get k j)
  let r ← andItem r 3 15
  let r ← andItem r 4 252
  let r ← andItem r 7 15
  let r ← andItem r 8 252
  let r ← andItem r 11 15
  let r ← andItem r 12 252
  andItem r 15 15

/-- The filling of `c` with the next block, tweetnacl.py:266-271; `j` is the number of bytes taken. -/
def polyBlock (w : Nat) (m : List V) (j : Nat) : Except Err (List V) := do
  let c ← loop j (intArray (.u32 w) 17) fun i c => do put c i (← get m i)
  put c j 1

/-- The multiplication by `r`, tweetnacl.py:275-279; the new contents of `h`.  Simplification: the array `x` is a new one
for each block (all its items are assigned before they are read), and the sum `x[i]` is formed before it is stored. -/
def polyMul (w : Nat) (h r : List V) : Except Err (List V) := do
  let x ← loop 17 (intArray (.u32 w) 17) fun i x => do
    let a ← loop 17 (0 : V) fun j a => do
      let b ← get h j
      if j ≤ i then pure (a + b * (← get r (i - j))) else pure (a + b * (320 * (← get r (i + 17 - j))))
    put x i a
  loop 17 h fun i h => do put h i (← get x i)

/-- One of the carry loops, tweetnacl.py:282-285, 290-293: the new contents of `h` and `u`. -/
def polyCarry (h : List V) (u : V) : Except Err (List V × V) :=
  loop 16 (h, u) fun j s => do
    let u := s.2 + (← get s.1 j)
    let h ← put s.1 j (u &&& 255)
    pure (h, u >>> 8)

/-- The reduction after the multiplication, tweetnacl.py:280-295. -/
def polyReduce (h : List V) : Except Err (List V) := do
  let s ← polyCarry h 0
  let u := s.2 + (← get s.1 16)
  let h ← put s.1 16 (u &&& 3)
  let u := (5 : V) * (u >>> 2)
  let s ← polyCarry h u
  let u := s.2 + (← get s.1 16)
  put s.1 16 u

/-- The loop over the blocks, tweetnacl.py:265-295. -/
def polyLoop (w : Nat) (h r m : List V) (n : Nat) : Except Err (List V) :=
  if n = 0 then pure h
  else do
    let j := min n 16
    let h ← add1305 w h (← polyBlock w m j)
    let h ← polyReduce (← polyMul w h r)
    polyLoop w h r (m.drop j) (n - j)
termination_by n

/-- `crypto_onetimeauth_poly1305_tweet`, tweetnacl.py:246-307; the new contents of `out`. -/
def poly1305 (w : Nat) (out m : List V) (n : Nat) (k : List V) : Except Err (List V) := do
  let r ← polyR w k
  let h ← polyLoop w (intArray (.u32 w) 17) r m n
  let g ← loop 17 (intArray (.u32 w) 17) fun j g => do put g j (← get h j)
  let h ← add1305 w h (minusp w)
  let s := -((← get h 16) >>> 7)
  let h ← loop 17 h fun j h => do
    let a ← get h j
    let b ← get g j
    put h j (a ^^^ (s &&& (b ^^^ a)))
  let c ← loop 16 (intArray (.u32 w) 17) fun j c => do put c j (← get k (j + 16))
  let c ← put c 16 0
  let h ← add1305 w h c
  loop 16 out fun j out => do put out j (← get h j)

/-- `crypto_onetimeauth_poly1305_tweet_verify`, tweetnacl.py:310-314. -/
def polyVerify (w : Nat) (h m : List V) (n : Nat) (k : List V) : Except Err V := do
  let x ← poly1305 w (intArray .u8 16) m n k
  verify16 w h x

/-- `crypto_secretbox_xsalsa20poly1305_tweet`, tweetnacl.py:317-325: the return value and the new contents of
`c`. -/
def secretbox (w : Nat) (c m : List V) (d : Nat) (n k : List V) : Except Err (Int × List V) :=
  if d < 32 then pure (-1, c)
  else do
    let c ← streamXsalsaXor w c m d n k
    let cOut ← poly1305 w (c.drop 16) (c.drop 32) (d - 32) c
    let c := c.take 16 ++ cOut
    pure (0, intArray .u8 16 ++ c.drop 16)

/-- `crypto_secretbox_xsalsa20poly1305_tweet_open`, tweetnacl.py:328-336: the return value and the new contents of
`m`, all of which the last assignment replaces by 32 zeros. -/
def secretboxOpen (w : Nat) (m c : List V) (d : Nat) (n k : List V) : Except Err (Int × List V) :=
  if d < 32 then pure (-1, m)
  else do
    let x ← streamXsalsa w (intArray .u8 32) 32 n k
    let ok ← polyVerify w (c.drop 16) (c.drop 32) (d - 32) x
    if ok.v ≠ 0 then pure (-1, m)
    else
      let _m ← streamXsalsaXor w m c d n k
      pure (0, intArray .u8 32)

end Salt.Chk
