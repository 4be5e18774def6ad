import Verif.Model.Arrays
import Verif.Model.TweetSha

/-!
# SHA-512 (saltchannel/saltlib/pure_pynacl/tweetnacl.py:97-101, 110-113, 630-702)

With IndexError, see Arrays.lean.  Functions that fill an array passed as an argument return the new contents of that
array here.
-/

namespace Salt.Chk

open Salt.Tweet (V at' intArray u8 u64 ShaState K512 iv512 smallSigma0 smallSigma1 bigSigma0 bigSigma1 Ch Maj)

/-- `dl64`, tweetnacl.py:97-101. -/
def dl64 (x : List V) : Except Err V := loop 8 ⟨.u64, 0⟩ fun i u => do pure ((u <<< 8) ||| u8 (← get x i))

/-- `ts64`, tweetnacl.py:110-113; the index `i` runs from 7 down to 0. -/
def ts64 (x : List V) (u : V) : Except Err (List V) := do
  let s ← loop 8 (x, u) fun i s => do
    let x ← put s.1 (7 - i) (u8 s.2)
    pure (x, s.2 >>> 8)
  pure s.1

/-- The new words `w` after 16 rounds, tweetnacl.py:652-653. -/
def shaWords (w : List V) : Except Err (List V) :=
  loop 16 w fun j w => do
    let a ← get w j
    let b ← get w ((j + 9) % 16)
    let c ← get w ((j + 1) % 16)
    let d ← get w ((j + 14) % 16)
    put w j (a + (b + smallSigma0 c + smallSigma1 d))

/-- The body of the loop over the 80 rounds, tweetnacl.py:645-653. -/
def shaRound (i : Nat) (s : ShaState) : Except Err ShaState := do
  let a := s.a
  let b ← loop 8 s.b fun j b => do put b j (← get a j)
  let a0 ← get a 0
  let a1 ← get a 1
  let a2 ← get a 2
  let a4 ← get a 4
  let a5 ← get a 5
  let a6 ← get a 6
  let a7 ← get a 7
  let k ← get K512 i
  let wi ← get s.w (i % 16)
  let t := a7 + bigSigma1 a4 + Ch a4 a5 a6 + k + wi
  let b ← put b 7 (t + bigSigma0 a0 + Maj a0 a1 a2)
  let b ← put b 3 ((← get b 3) + t)
  let a ← loop 8 a fun j a => do put a ((j + 1) % 8) (← get b j)
  let w ← if i % 16 = 15 then shaWords s.w else pure s.w
  pure ⟨a, b, w⟩

/-- One pass of the loop over the blocks, tweetnacl.py:642-656; `off` is `m_off`.  The new contents of `z` and the
arrays. -/
def shaBlock (m : List V) (off : Nat) (z : List V) (s : ShaState) : Except Err (List V × ShaState) := do
  let w ← loop 16 s.w fun i w => do put w i (← dl64 (m.drop (8 * i + off)))
  let s ← loop 80 { s with w := w } shaRound
  let (a, z) ← loop 8 (s.a, z) fun i p => do
    let x ← get p.1 i
    let a ← put p.1 i (x + (← get p.2 i))
    let z ← put p.2 i (← get a i)
    pure (a, z)
  pure (z, { s with a := a })

/-- The loop over the blocks, tweetnacl.py:640-659; the new contents of `z`. -/
def shaLoop (m : List V) (off : Nat) (z : List V) (s : ShaState) (n : Nat) : Except Err (List V) :=
  if 128 ≤ n then do
    let r ← shaBlock m off z s
    shaLoop m (off + 128) r.1 r.2 (n - 128)
  else pure z
termination_by n
decreasing_by omega

/-- `crypto_hashblocks_sha512_tweet`, tweetnacl.py:630-663; the new contents of `x`. -/
def hashblocks (x m : List V) (n : Nat) : Except Err (List V) := do
  let (z, a) ← loop 8 (intArray .u64 8, intArray .u64 8) fun i p => do
    let t ← dl64 (x.drop (8 * i))
    let z ← put p.1 i t
    let a ← put p.2 i t
    pure (z, a)
  let z ← shaLoop m 0 z ⟨a, intArray .u64 8, intArray .u64 16⟩ n
  loop 8 x fun i x => do
    let t ← ts64 (x.drop (8 * i)) (← get z i)
    pure (x.take (8 * i) ++ t)

/-- The last one or two blocks in `crypto_hash_sha512_tweet`, tweetnacl.py:682, 687-697, and their length. -/
def shaLast (m : List V) (len : Nat) : Except Err (List V × Nat) := do
  let b := u64 ⟨.plain, (len : Int)⟩
  let n := len % 128
  let off := len - n
  let x ← loop n (intArray .u8 256) fun i x => do put x i (← get m (i + off))
  let x ← put x n 128
  let n := 256 - 128 * (if n < 112 then 1 else 0)
  let x ← put x (n - 9) (b >>> 61)
  let t ← ts64 (x.drop (n - 8)) (b <<< 3)
  pure (x.take (n - 8) ++ t, n)

/-- `crypto_hash_sha512_tweet`, tweetnacl.py:678-702; the new contents of `out`. -/
def hashSha512 (out m : List V) (n : Nat) : Except Err (List V) := do
  let h ← loop 64 (intArray .u8 64) fun i h => do put h i (← get iv512 i)
  let h ← hashblocks h m n
  let x ← shaLast m n
  let h ← hashblocks h x.1 x.2
  loop 64 out fun i out => do put out i (← get h i)

end Salt.Chk
