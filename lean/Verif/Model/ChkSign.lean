import Verif.Model.ChkField
import Verif.Model.ChkSha
import Verif.Model.TweetSign

/-!
# Ed25519 (saltchannel/saltlib/pure_pynacl/tweetnacl.py:705-953)

With IndexError, see Arrays.lean.  Functions that fill an array passed as an argument return the new contents of that
array here (together with the return value, unless it is always 0).  A point is a list of four field elements in Python,
`Pt` here.  In `add(p, p)` both arguments are the same; all reads come before the first write, so that the model may read
the old contents.  The arguments `sm` of `crypto_sign_ed25519_tweet` and `m` of `crypto_sign_ed25519_tweet_open` are
`bytearray`s, whose items must be in range(256).
-/

namespace Salt.Chk

open Salt.Tweet (V at' intArray u8 u64 gf gf0 gf1 cD cD2 cX cY cI cL Pt)

/-- `add`, tweetnacl.py:705-735; the new contents of `p`. -/
def add (p q : Pt) : Except Err Pt := do
  let a ← Z (gf []) p.p1 p.p0
  let t ← Z (gf []) q.p1 q.p0
  let a ← M a a t
  let b ← A (gf []) p.p0 p.p1
  let t ← A t q.p0 q.p1
  let b ← M b b t
  let c ← M (gf []) p.p3 q.p3
  let c ← M c c cD2
  let d ← M (gf []) p.p2 q.p2
  let d ← A d d d
  let e ← Z (gf []) b a
  let f ← Z (gf []) d c
  let g ← A (gf []) d c
  let h ← A (gf []) b a
  let p0 ← M p.p0 e f
  let p1 ← M p.p1 h g
  let p2 ← M p.p2 g f
  let p3 ← M p.p3 e h
  pure ⟨p0, p1, p2, p3⟩

/-- `cswap`, tweetnacl.py:738-741. -/
def cswap (p q : Pt) (b : V) : Except Err (Pt × Pt) := do
  let r0 ← sel25519 p.p0 q.p0 b
  let r1 ← sel25519 p.p1 q.p1 b
  let r2 ← sel25519 p.p2 q.p2 b
  let r3 ← sel25519 p.p3 q.p3 b
  pure (⟨r0.1, r1.1, r2.1, r3.1⟩, ⟨r0.2, r1.2, r2.2, r3.2⟩)

/-- `pack`, tweetnacl.py:744-753; `r` is a list or a `bytearray`. -/
def pack (kind : Kind) (r : List V) (p : Pt) : Except Err (List V) := do
  let zi ← inv25519 (gf []) p.p2
  let tx ← M (gf []) p.p0 zi
  let ty ← M (gf []) p.p1 zi
  let r ← pack25519 kind r ty
  let a ← get r 31
  kind.put r 31 (a ^^^ (← par25519 tx) <<< 7)

/-- The body of the loop of `scalarmult`, tweetnacl.py:763-767, on the points `p` and `q`. -/
def multStep (s : List V) (i : Nat) (x : Pt × Pt) : Except Err (Pt × Pt) := do
  let b := u8 (((← get s (i / 8)) >>> (i &&& 7)) &&& 1)
  let (p, q) ← cswap x.1 x.2 b
  let q ← add q p
  let p ← add p p
  cswap p q b

/-- `scalarmult`, tweetnacl.py:756-767; the new contents of `p` (`q` is not used afterwards by any caller).  The index
`i` runs from 255 down to 0. -/
def scalarmult (p q : Pt) (s : List V) : Except Err Pt := do
  let p0 ← set25519 p.p0 gf0
  let p1 ← set25519 p.p1 gf1
  let p2 ← set25519 p.p2 gf1
  let p3 ← set25519 p.p3 gf0
  let x ← loop 256 ((⟨p0, p1, p2, p3⟩ : Pt), q) fun k x => multStep s (255 - k) x
  pure x.1

/-- `scalarbase`, tweetnacl.py:770-777. -/
def scalarbase (p : Pt) (s : List V) : Except Err Pt := do
  let q0 ← set25519 (gf []) cX
  let q1 ← set25519 (gf []) cY
  let q2 ← set25519 (gf []) gf1
  let q3 ← M (gf []) cX cY
  scalarmult p ⟨q0, q1, q2, q3⟩ s

/-- The body of the inner of the first loops of `modL`, tweetnacl.py:808-811; `t` is `j - (i - 32)`. -/
def modLCol (i t : Nat) (s : List V × V) : Except Err (List V × V) := do
  let j := i - 32 + t
  let a ← get s.1 j
  let b ← get s.1 i
  let x ← put s.1 j (a + (s.2 - 16 * b * (← get cL t)))
  let carry := ((← get x j) + 128) >>> 8
  let x ← put x j ((← get x j) - carry <<< 8)
  pure (x, carry)

/-- The body of the outer of the first loops of `modL`, tweetnacl.py:807-814. -/
def modLRow (i : Nat) (x : List V) : Except Err (List V) := do
  let s ← loop 20 (x, 0) (modLCol i)
  let x ← put s.1 (i - 12) ((← get s.1 (i - 12)) + s.2)
  put x i 0

/-- The body of the second loop of `modL`, tweetnacl.py:818-820. -/
def modLTop (j : Nat) (s : List V × V) : Except Err (List V × V) := do
  let a ← get s.1 j
  let b ← get s.1 31
  let x ← put s.1 j (a + (s.2 - (b >>> 4) * (← get cL j)))
  let carry := (← get x j) >>> 8
  let x ← put x j ((← get x j) &&& 255)
  pure (x, carry)

/-- `modL`, tweetnacl.py:803-827; the new contents of `r`, a list or a `bytearray`.  The index `i` of the first loop runs
from 63 down to 32. -/
def modL (kind : Kind) (r x : List V) : Except Err (List V) := do
  let x ← loop 32 x fun k x => modLRow (63 - k) x
  let s ← loop 32 (x, 0) modLTop
  let x ← loop 32 s.1 fun j x => do
    let a ← get x j
    put x j (a - s.2 * (← get cL j))
  let s ← loop 32 (x, r) fun i s => do
    let a ← get s.1 (i + 1)
    let x ← put s.1 (i + 1) (a + (← get s.1 i) >>> 8)
    let r ← kind.put s.2 i ((← get x i) &&& 255)
    pure (x, r)
  pure s.2

/-- `reduce`, tweetnacl.py:830-835. -/
def reduce (r : List V) : Except Err (List V) := do
  let x ← loop 64 (intArray .i64 64) fun i x => do put x i (u64 (← get r i))
  modL .list (intArray .u8 64) x

/-- The bits set and cleared in the secret scalar, tweetnacl.py:787-789, 847-849; saltlib_pure.py:27-29. -/
def clampHash (d : List V) : Except Err (List V) := do
  let d ← put d 0 ((← get d 0) &&& 248)
  let d ← put d 31 ((← get d 31) &&& 127)
  put d 31 ((← get d 31) ||| 64)

/-- The product of `h` and `d` added to `x`, tweetnacl.py:870-871. -/
def mulAdd (x h d : List V) : Except Err (List V) :=
  loop 32 x fun i x => loop 32 x fun j x => do
    let a ← get x (i + j)
    let b ← get h i
    put x (i + j) (a + b * u64 (← get d j))

/-- `crypto_sign_ed25519_tweet`, tweetnacl.py:838-874; the new contents of `sm`. -/
def sign (sm m : List V) (n : Nat) (sk : List V) : Except Err (List V) := do
  let d ← hashSha512 (intArray .u8 64) sk 32
  let d ← clampHash d
  let sm ← loop n sm fun i sm => do putByte sm (64 + i) (← get m i)
  let sm ← loop 32 sm fun i sm => do putByte sm (32 + i) (← get d (32 + i))
  let r ← hashSha512 (intArray .u8 64) (sm.drop 32) (n + 32)
  let r ← reduce r
  let p ← scalarbase Pt.new r
  let sm ← pack .bytearray sm p
  let sm ← loop 32 sm fun i sm => do putByte sm (i + 32) (← get sk (i + 32))
  let h ← hashSha512 (intArray .u8 64) sm (n + 64)
  let h ← reduce h
  let x ← loop 64 (intArray .i64 64) fun i x => put x i 0
  let x ← loop 32 x fun i x => do put x i (u64 (← get r i))
  let x ← mulAdd x h d
  let t ← modL .bytearray (sm.drop 32) x
  pure (sm.take 32 ++ t)

/-- `unpackneg`, tweetnacl.py:877-917: the return value and the new contents of `r`. -/
def unpackneg (w : Nat) (r : Pt) (p : List V) : Except Err (Int × Pt) := do
  let r2 ← set25519 r.p2 gf1
  let r1 ← unpack25519 r.p1 p
  let num ← S (gf []) r1
  let den ← M (gf []) num cD
  let num ← Z num num r2
  let den ← A den r2 den
  let den2 ← S (gf []) den
  let den4 ← S (gf []) den2
  let den6 ← M (gf []) den4 den2
  let t ← M (gf []) den6 num
  let t ← M t t den
  let t ← pow2523 t t
  let t ← M t t num
  let t ← M t t den
  let t ← M t t den
  let r0 ← M r.p0 t den
  let chk ← S (gf []) r0
  let chk ← M chk chk den
  let r0 ← (if (← neq25519 w chk num).v ≠ 0 then M r0 r0 cI else pure r0)
  let chk ← S chk r0
  let chk ← M chk chk den
  if (← neq25519 w chk num).v ≠ 0 then pure (-1, ⟨r0, r1, r2, r.p3⟩)
  else
    let b ← par25519 r0
    let c ← get p 31
    let r0 ← (if b.v = (c >>> 7).v then Z r0 gf0 r0 else pure r0)
    let r3 ← M r.p3 r0 r1
    pure (0, ⟨r0, r1, r2, r3⟩)

/-- `crypto_sign_ed25519_tweet_open`, tweetnacl.py:920-953: the return value and the new contents of `m`. -/
def signOpen (w : Nat) (m sm : List V) (n : Nat) (pk : List V) : Except Err (Int × List V) :=
  if n < 64 then pure (-1, m)
  else do
    let (res, q) ← unpackneg w Pt.new pk
    if res ≠ 0 then pure (-1, m)
    else
      let m ← loop n m fun i m => do putByte m i (← get sm i)
      let m ← loop 32 m fun i m => do putByte m (i + 32) (← get pk i)
      let h ← hashSha512 (intArray .u8 64) m n
      let h ← reduce h
      let p ← scalarmult Pt.new q h
      let q ← scalarbase q (sm.drop 32)
      let p ← add p q
      let t ← pack .list (intArray .u8 32) p
      let n := n - 64
      if (← verify32 w sm t).v ≠ 0 then do
        let m ← loop n m fun i m => putByte m i 0
        pure (-1, m)
      else do
        let m ← loop n m fun i m => do putByte m i (← get sm (i + 64))
        pure (0, m)

end Salt.Chk
