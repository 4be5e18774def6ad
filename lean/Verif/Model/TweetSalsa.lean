import Verif.Model.TInt

/-!
# Salsa20, Poly1305 and the secret box (saltchannel/saltlib/pure_pynacl/tweetnacl.py:71-336)

Functions that fill an array passed as an argument return the new contents of that array here (together with
the return value, unless it is always 0).  `w` is the width of `u32` (see TInt.lean).

Constants and functions on integers are part of the model.  The functions on arrays ignore indices out of range; they
are used in proofs, and the model of the code are the functions of the same names in ChkSalsa.lean (see Arrays.lean).
-/

namespace Salt.Tweet

/-- `L32`, tweetnacl.py:84-86. -/
def L32 (w : Nat) (x : V) (c : Nat) : V := (u32 w x <<< c) ||| ((u32 w x &&& 0xffffffff) >>> (32 - c))

/-- `ld32`, tweetnacl.py:89-94. -/
def ld32 (w : Nat) (x : List V) : V :=
  let u := u32 w (at' x 3)
  let u := (u <<< 8) ||| u32 w (at' x 2)
  let u := (u <<< 8) ||| u32 w (at' x 1)
  (u <<< 8) ||| u32 w (at' x 0)

/-- `st32`, tweetnacl.py:104-107. -/
def st32 (x : List V) (u : V) : List V :=
  (forRange 4 (x, u) fun i (x, u) => (x.set i (u8 u), u >>> 8)).1

/-- `vn`, tweetnacl.py:116-120. -/
def vn (w : Nat) (x y : List V) (n : Nat) : V :=
  let d := forRange n ⟨.u32 w, 0⟩ fun i d => d ||| (at' x i ^^^ at' y i)
  ((1 : V) &&& ((d - 1) >>> 8)) - 1

/-- `crypto_verify_16_tweet`, tweetnacl.py:123-125. -/
def verify16 (w : Nat) (x y : List V) : V := vn w x y 16

/-- `crypto_verify_32_tweet`, tweetnacl.py:128-130. -/
def verify32 (w : Nat) (x y : List V) : V := vn w x y 32

/-- The first loop of `core`, tweetnacl.py:140-144. -/
def coreInput (w : Nat) (in_ k c : List V) : List V :=
  forRange 4 (intArray (.u32 w) 16) fun i x =>
    let x := x.set (5 * i) (ld32 w (c.drop (4 * i)))
    let x := x.set (1 + i) (ld32 w (k.drop (4 * i)))
    let x := x.set (6 + i) (ld32 w (in_.drop (4 * i)))
    x.set (11 + i) (ld32 w (k.drop (16 + 4 * i)))

/-- The body of the loop over `j` in `core`, tweetnacl.py:150-155; the new contents of `w` (`out` here). -/
def coreColumn (w : Nat) (x : List V) (j : Nat) (out : List V) : List V :=
  let t0 := at' x ((5 * j + 4 * 0) % 16)
  let t1 := at' x ((5 * j + 4 * 1) % 16)
  let t2 := at' x ((5 * j + 4 * 2) % 16)
  let t3 := at' x ((5 * j + 4 * 3) % 16)
  let t1 := t1 ^^^ L32 w (t0 + t3) 7
  let t2 := t2 ^^^ L32 w (t1 + t0) 9
  let t3 := t3 ^^^ L32 w (t2 + t1) 13
  let t0 := t0 ^^^ L32 w (t3 + t2) 18
  (((out.set (4 * j + (j + 0) % 4) t0).set (4 * j + (j + 1) % 4) t1).set (4 * j + (j + 2) % 4) t2).set
    (4 * j + (j + 3) % 4) t3

/-- The body of the loop over the 20 rounds in `core`, tweetnacl.py:149-156, on the arrays `x` and `w`. -/
def coreRound (w : Nat) (s : List V × List V) : List V × List V :=
  let out := forRange 4 s.2 fun j out => coreColumn w s.1 j out
  (forRange 16 s.1 fun m x => x.set m (at' out m), out)

/-- The 20 rounds in `core`, tweetnacl.py:148-156. -/
def coreRounds (w : Nat) (x : List V) : List V :=
  (forRange 20 (x, intArray (.u32 w) 16) fun _ s => coreRound w s).1

/-- `core`, tweetnacl.py:133-168. -/
def core (w : Nat) (out in_ k c : List V) (h : Bool) : List V :=
  let y := coreInput w in_ k c
  let x := coreRounds w y
  if h then
    let x := forRange 16 x fun i x => x.set i (at' x i + at' y i)
    let x := forRange 4 x fun i x =>
      let x := x.set (5 * i) (at' x (5 * i) - ld32 w (c.drop (4 * i)))
      x.set (6 + i) (at' x (6 + i) - ld32 w (in_.drop (4 * i)))
    forRange 4 out fun i out =>
      let out := out.take (4 * i) ++ st32 (out.drop (4 * i)) (at' x (5 * i))
      out.take (16 + 4 * i) ++ st32 (out.drop (16 + 4 * i)) (at' x (6 + i))
  else
    forRange 16 out fun i out => out.take (4 * i) ++ st32 (out.drop (4 * i)) (at' x i + at' y i)

/-- `sigma`, tweetnacl.py:183: the ASCII codes of `expand 32-byte k`. -/
def sigma : List V :=
  intArrayOf .u8 [0x65, 0x78, 0x70, 0x61, 0x6e, 0x64, 0x20, 0x33, 0x32, 0x2d, 0x62, 0x79, 0x74, 0x65, 0x20, 0x6b]

/-- The assignments to `c` in the loops of `crypto_stream_salsa20_tweet_xor`, tweetnacl.py:198, 210; `m` is `m[m_off:]`
(an empty array stands for zeros). -/
def xorBlock (c : List V) (off : Nat) (m x : List V) (empty : Bool) (n : Nat) : List V :=
  forRange n c fun i c => c.set (i + off) ((if empty then 0 else at' m i) ^^^ at' x i)

/-- The increment of the block counter in `crypto_stream_salsa20_tweet_xor`, tweetnacl.py:199-203. -/
def bumpCounter (w : Nat) (z : List V) : List V :=
  (forRange 8 (z, cast (.u32 w) 1) fun i (z, u) =>
    let u := u + u32 w (at' z (i + 8))
    (z.set (i + 8) u, u >>> 8)).1

/-- The loop and the final part of `crypto_stream_salsa20_tweet_xor`, tweetnacl.py:196-210. -/
def streamLoop (w : Nat) (c m : List V) (b : Nat) (off : Nat) (z k : List V) (x : List V) : List V :=
  if 64 ≤ b then
    let x := core w x z k sigma false
    let c := xorBlock c off (m.drop off) x m.isEmpty 64
    streamLoop w c m (b - 64) (off + 64) (bumpCounter w z) k x
  else if 0 < b then
    let x := core w x z k sigma false
    xorBlock c off (m.drop off) x m.isEmpty b
  else c
termination_by b

/-- `crypto_stream_salsa20_tweet_xor`, tweetnacl.py:186-212; the new contents of `c`. -/
def streamSalsaXor (w : Nat) (c m : List V) (b : Nat) (n k : List V) : List V :=
  if b = 0 then c
  else
    let z := forRange 8 (intArray .u8 16) fun i z => z.set i (at' n i)
    streamLoop w c m b 0 z k (intArray .u8 64)

/-- `crypto_stream_salsa20_tweet`, tweetnacl.py:215-217. -/
def streamSalsa (w : Nat) (c : List V) (d : Nat) (n k : List V) : List V := streamSalsaXor w c [] d n k

/-- `crypto_stream_xsalsa20_tweet`, tweetnacl.py:220-224. -/
def streamXsalsa (w : Nat) (c : List V) (d : Nat) (n k : List V) : List V :=
  let s := core w (intArray .u8 32) n k sigma true
  streamSalsa w c d (n.drop 16) s

/-- `crypto_stream_xsalsa20_tweet_xor`, tweetnacl.py:227-231. -/
def streamXsalsaXor (w : Nat) (c m : List V) (d : Nat) (n k : List V) : List V :=
  let s := core w (intArray .u8 32) n k sigma true
  streamSalsaXor w c m d (n.drop 16) s

/-- `add1305`, tweetnacl.py:234-240; the new contents of `h`. -/
def add1305 (w : Nat) (h c : List V) : List V :=
  (forRange 17 (h, (⟨.u32 w, 0⟩ : V)) fun j (h, u) =>
    let u := u + u32 w (at' h j + at' c j)
    (h.set j (u &&& 255), u >>> 8)).1

/-- `minusp`, tweetnacl.py:243. -/
def minusp (w : Nat) : List V := intArrayOf (.u32 w) [5, 0, 0, 0, 0, 0, 0, 0, 0, 0, 0, 0, 0, 0, 0, 0, 252]

/-- The clamped `r` of `crypto_onetimeauth_poly1305_tweet`, tweetnacl.py:256-263. -/
def polyR (w : Nat) (k : List V) : List V :=
  let r := forRange 16 (intArray (.u32 w) 17) fun j r => r.set j (at' k j)
  let r := r.set 3 (at' r 3 &&& 15)
  let r := r.set 4 (at' r 4 &&& 252)
  let r := r.set 7 (at' r 7 &&& 15)
  let r := r.set 8 (at' r 8 &&& 252)
  let r := r.set 11 (at' r 11 &&& 15)
  let r := r.set 12 (at' r 12 &&& 252)
  r.set 15 (at' r 15 &&& 15)

/-- The filling of `c` with the next block, tweetnacl.py:266-271; `j` is the number of bytes taken. -/
def polyBlock (w : Nat) (m : List V) (j : Nat) : List V :=
  let c := forRange j (intArray (.u32 w) 17) fun i c => c.set i (at' m i)
  c.set j 1

/-- The multiplication by `r`, tweetnacl.py:275-279; the new contents of `h`. -/
def polyMul (h r : List V) : List V :=
  let x := (List.range 17).map fun i =>
    forRange 17 (0 : V) fun j x => x + at' h j * (if j ≤ i then at' r (i - j) else 320 * at' r (i + 17 - j))
  forRange 17 h fun i h => h.set i (at' x i)

/-- One of the carry loops, tweetnacl.py:282-285, 290-293: the new contents of `h` and `u`. -/
def polyCarry (h : List V) (u : V) : List V × V :=
  forRange 16 (h, u) fun j (h, u) =>
    let u := u + at' h j
    (h.set j (u &&& 255), u >>> 8)

/-- The reduction after the multiplication, tweetnacl.py:280-295. -/
def polyReduce (h : List V) : List V :=
  let (h, u) := polyCarry h 0
  let u := u + at' h 16
  let h := h.set 16 (u &&& 3)
  let u := (5 : V) * (u >>> 2)
  let (h, u) := polyCarry h u
  let u := u + at' h 16
  h.set 16 u

/-- The loop over the blocks, tweetnacl.py:265-295. -/
def polyLoop (w : Nat) (h r m : List V) (n : Nat) : List V :=
  if n = 0 then h
  else
    let j := min n 16
    let h := add1305 w h (polyBlock w m j)
    polyLoop w (polyReduce (polyMul h r)) r (m.drop j) (n - j)
termination_by n

/-- `crypto_onetimeauth_poly1305_tweet`, tweetnacl.py:246-307; the new contents of `out`. -/
def poly1305 (w : Nat) (out m : List V) (n : Nat) (k : List V) : List V :=
  let g := polyLoop w (intArray (.u32 w) 17) (polyR w k) m n
  let h := add1305 w g (minusp w)
  let s := -(at' h 16 >>> 7)
  let h := forRange 17 h fun j h => h.set j (at' h j ^^^ (s &&& (at' g j ^^^ at' h j)))
  let c := forRange 16 (intArray (.u32 w) 17) fun j c => c.set j (at' k (j + 16))
  let c := c.set 16 0
  let h := add1305 w h c
  forRange 16 out fun j out => out.set j (at' h j)

/-- `crypto_onetimeauth_poly1305_tweet_verify`, tweetnacl.py:310-314. -/
def polyVerify (w : Nat) (h m : List V) (n : Nat) (k : List V) : V :=
  verify16 w h (poly1305 w (intArray .u8 16) m n k)

/-- `crypto_secretbox_xsalsa20poly1305_tweet`, tweetnacl.py:317-325: the return value and the new contents of
`c`. -/
def secretbox (w : Nat) (c m : List V) (d : Nat) (n k : List V) : Int × List V :=
  if d < 32 then (-1, c)
  else
    let c := streamXsalsaXor w c m d n k
    let cOut := poly1305 w (c.drop 16) (c.drop 32) (d - 32) c
    let c := c.take 16 ++ cOut
    (0, intArray .u8 16 ++ c.drop 16)

/-- `crypto_secretbox_xsalsa20poly1305_tweet_open`, tweetnacl.py:328-336: the return value and the new contents of
`m`, all of which the last assignment replaces by 32 zeros. -/
def secretboxOpen (w : Nat) (m c : List V) (d : Nat) (n k : List V) : Int × List V :=
  if d < 32 then (-1, m)
  else
    let x := streamXsalsa w (intArray .u8 32) 32 n k
    if (polyVerify w (c.drop 16) (c.drop 32) (d - 32) x).v ≠ 0 then (-1, m)
    else
      let _m := streamXsalsaXor w m c d n k
      (0, intArray .u8 32)

end Salt.Tweet
