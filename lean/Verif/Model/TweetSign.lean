import Verif.Model.TweetField
import Verif.Model.TweetSha

/-!
# Ed25519 (saltchannel/saltlib/pure_pynacl/tweetnacl.py:74-81, 705-953)

Functions that fill an array passed as an argument return the new contents of that array here (together with the
return value, unless it is always 0).  A point is a list of four field elements in Python, `Pt` here.  In `add(p, p)`
both arguments are the same; all reads come before the first write, so that the model may read the old contents.

The arguments `sm` of `crypto_sign_ed25519_tweet` and `m` of `crypto_sign_ed25519_tweet_open` are `bytearray`s: what is
stored in them becomes a plain integer (`byteItem`).  Storing a number that is not in range(256) (in Python ValueError) goes
on here.

Constants and functions on integers are part of the model.  The functions on arrays ignore indices out of range; they
are used in proofs, and the model of the code are the functions of the same names in ChkSign.lean (see Arrays.lean).
-/

namespace Salt.Tweet

/-- `gf0`, tweetnacl.py:74. -/
def gf0 : List V := gf []
/-- `gf1`, tweetnacl.py:75. -/
def gf1 : List V := gf [1]
/-- `D`, tweetnacl.py:77. -/
def cD : List V := gf [0x78a3, 0x1359, 0x4dca, 0x75eb, 0xd8ab, 0x4141, 0x0a4d, 0x0070, 0xe898, 0x7779, 0x4079, 0x8cc7, 0xfe73, 0x2b6f, 0x6cee, 0x5203]
/-- `D2`, tweetnacl.py:78. -/
def cD2 : List V := gf [0xf159, 0x26b2, 0x9b94, 0xebd6, 0xb156, 0x8283, 0x149a, 0x00e0, 0xd130, 0xeef3, 0x80f2, 0x198e, 0xfce7, 0x56df, 0xd9dc, 0x2406]
/-- `X`, tweetnacl.py:79. -/
def cX : List V := gf [0xd51a, 0x8f25, 0x2d60, 0xc956, 0xa7b2, 0x9525, 0xc760, 0x692c, 0xdc5c, 0xfdd6, 0xe231, 0xc0a4, 0x53fe, 0xcd6e, 0x36d3, 0x2169]
/-- `Y`, tweetnacl.py:80. -/
def cY : List V := gf [0x6658, 0x6666, 0x6666, 0x6666, 0x6666, 0x6666, 0x6666, 0x6666, 0x6666, 0x6666, 0x6666, 0x6666, 0x6666, 0x6666, 0x6666, 0x6666]
/-- `I`, tweetnacl.py:81. -/
def cI : List V := gf [0xa0b0, 0x4a0e, 0x1b27, 0xc4ee, 0xe478, 0xad2f, 0x1806, 0x2f43, 0xd7a7, 0x3dfb, 0x0099, 0x2b4d, 0xdf0b, 0x4fc1, 0x2480, 0x2b83]

/-- A list `p` of four field elements. -/
structure Pt where
  p0 : List V
  p1 : List V
  p2 : List V
  p3 : List V

/-- `[gf() for i in range(4)]`, e.g. tweetnacl.py:772. -/
def Pt.new : Pt := ⟨gf [], gf [], gf [], gf []⟩

/-- `add`, tweetnacl.py:705-735; the new contents of `p`. -/
def add (p q : Pt) : Pt :=
  let a := Z (gf []) p.p1 p.p0
  let t := Z (gf []) q.p1 q.p0
  let a := M a a t
  let b := A (gf []) p.p0 p.p1
  let t := A t q.p0 q.p1
  let b := M b b t
  let c := M (gf []) p.p3 q.p3
  let c := M c c cD2
  let d := M (gf []) p.p2 q.p2
  let d := A d d d
  let e := Z (gf []) b a
  let f := Z (gf []) d c
  let g := A (gf []) d c
  let h := A (gf []) b a
  ⟨M p.p0 e f, M p.p1 h g, M p.p2 g f, M p.p3 e h⟩

/-- `cswap`, tweetnacl.py:738-741. -/
def cswap (p q : Pt) (b : V) : Pt × Pt :=
  let r0 := sel25519 p.p0 q.p0 b
  let r1 := sel25519 p.p1 q.p1 b
  let r2 := sel25519 p.p2 q.p2 b
  let r3 := sel25519 p.p3 q.p3 b
  (⟨r0.1, r1.1, r2.1, r3.1⟩, ⟨r0.2, r1.2, r2.2, r3.2⟩)

/-- `pack`, tweetnacl.py:744-753. -/
def pack (r : List V) (p : Pt) : List V :=
  let zi := inv25519 (gf []) p.p2
  let tx := M (gf []) p.p0 zi
  let ty := M (gf []) p.p1 zi
  let r := pack25519 r ty
  r.set 31 (at' r 31 ^^^ par25519 tx <<< 7)

/-- The body of the loop of `scalarmult`, tweetnacl.py:763-767, on the points `p` and `q`. -/
def multStep (s : List V) (i : Nat) (x : Pt × Pt) : Pt × Pt :=
  let (p, q) := x
  let b := u8 ((at' s (i / 8) >>> (i &&& 7)) &&& 1)
  let (p, q) := cswap p q b
  let q := add q p
  let p := add p p
  cswap p q b

/-- `scalarmult`, tweetnacl.py:756-767; the new contents of `p` (`q` is not used afterwards by any caller).  The index
`i` runs from 255 down to 0. -/
def scalarmult (p q : Pt) (s : List V) : Pt :=
  let p : Pt := ⟨set25519 p.p0 gf0, set25519 p.p1 gf1, set25519 p.p2 gf1, set25519 p.p3 gf0⟩
  (forRange 256 (p, q) fun k x => multStep s (255 - k) x).1

/-- `scalarbase`, tweetnacl.py:770-777. -/
def scalarbase (p : Pt) (s : List V) : Pt :=
  let q : Pt := ⟨set25519 (gf []) cX, set25519 (gf []) cY, set25519 (gf []) gf1, M (gf []) cX cY⟩
  scalarmult p q s

/-- `L`, tweetnacl.py:798-800. -/
def cL : List V :=
  intArrayOf .u64 [0xed, 0xd3, 0xf5, 0x5c, 0x1a, 0x63, 0x12, 0x58, 0xd6, 0x9c, 0xf7, 0xa2, 0xde, 0xf9, 0xde, 0x14,
    0, 0, 0, 0, 0, 0, 0, 0, 0, 0, 0, 0, 0, 0, 0, 0x10]

/-- The body of the inner of the first loops of `modL`, tweetnacl.py:808-811; `t` is `j - (i - 32)`. -/
def modLCol (i t : Nat) (s : List V × V) : List V × V :=
  let (x, carry) := s
  let j := i - 32 + t
  let x := x.set j (at' x j + (carry - 16 * at' x i * at' cL t))
  let carry := (at' x j + 128) >>> 8
  (x.set j (at' x j - carry <<< 8), carry)

/-- The body of the outer of the first loops of `modL`, tweetnacl.py:807-814. -/
def modLRow (i : Nat) (x : List V) : List V :=
  let (x, carry) := forRange 20 (x, 0) (modLCol i)
  let x := x.set (i - 12) (at' x (i - 12) + carry)
  x.set i 0

/-- The body of the second loop of `modL`, tweetnacl.py:818-820. -/
def modLTop (j : Nat) (s : List V × V) : List V × V :=
  let (x, carry) := s
  let x := x.set j (at' x j + (carry - (at' x 31 >>> 4) * at' cL j))
  let carry := at' x j >>> 8
  (x.set j (at' x j &&& 255), carry)

/-- `modL`, tweetnacl.py:803-827; the new contents of `r`.  The index `i` of the first loop runs from 63 down to
32. -/
def modL (r x : List V) : List V :=
  let x := forRange 32 x fun k x => modLRow (63 - k) x
  let (x, carry) := forRange 32 (x, 0) modLTop
  let x := forRange 32 x fun j x => x.set j (at' x j - carry * at' cL j)
  (forRange 32 (x, r) fun i (x, r) =>
    (x.set (i + 1) (at' x (i + 1) + at' x i >>> 8), r.set i (at' x i &&& 255))).2

/-- `reduce`, tweetnacl.py:830-835. -/
def reduce (r : List V) : List V :=
  let x := forRange 64 (intArray .i64 64) fun i x => x.set i (u64 (at' r i))
  modL (intArray .u8 64) x

/-- The bits set and cleared in the secret scalar, tweetnacl.py:787-789, 847-849; saltlib_pure.py:27-29. -/
def clampHash (d : List V) : List V :=
  let d := d.set 0 (at' d 0 &&& 248)
  let d := d.set 31 (at' d 31 &&& 127)
  d.set 31 (at' d 31 ||| 64)

/-- What an item of a `bytearray` is after it was assigned `a`. -/
def byteItem (a : V) : V := ⟨.plain, a.v⟩

/-- The product of `h` and `d` added to `x`, tweetnacl.py:870-871. -/
def mulAdd (x h d : List V) : List V :=
  forRange 32 x fun i x => forRange 32 x fun j x => x.set (i + j) (at' x (i + j) + at' h i * u64 (at' d j))

/-- `crypto_sign_ed25519_tweet`, tweetnacl.py:838-874; the new contents of `sm`. -/
def sign (sm m : List V) (n : Nat) (sk : List V) : List V :=
  let d := clampHash (hashSha512 (intArray .u8 64) sk 32)
  let sm := forRange n sm fun i sm => sm.set (64 + i) (byteItem (at' m i))
  let sm := forRange 32 sm fun i sm => sm.set (32 + i) (byteItem (at' d (32 + i)))
  let r := reduce (hashSha512 (intArray .u8 64) (sm.drop 32) (n + 32))
  let p := scalarbase Pt.new r
  let sm := (pack sm p).map byteItem
  let sm := forRange 32 sm fun i sm => sm.set (i + 32) (byteItem (at' sk (i + 32)))
  let h := reduce (hashSha512 (intArray .u8 64) sm (n + 64))
  let x := forRange 64 (intArray .i64 64) fun i x => x.set i 0
  let x := forRange 32 x fun i x => x.set i (u64 (at' r i))
  let x := mulAdd x h d
  sm.take 32 ++ (modL (sm.drop 32) x).map byteItem

/-- `unpackneg`, tweetnacl.py:877-917: the return value and the new contents of `r`. -/
def unpackneg (w : Nat) (r : Pt) (p : List V) : Int × Pt :=
  let r2 := set25519 r.p2 gf1
  let r1 := unpack25519 r.p1 p
  let num := S (gf []) r1
  let den := M (gf []) num cD
  let num := Z num num r2
  let den := A den r2 den
  let den2 := S (gf []) den
  let den4 := S (gf []) den2
  let den6 := M (gf []) den4 den2
  let t := M (gf []) den6 num
  let t := M t t den
  let t := pow2523 t t
  let t := M t t num
  let t := M t t den
  let t := M t t den
  let r0 := M r.p0 t den
  let chk := S (gf []) r0
  let chk := M chk chk den
  let r0 := if (neq25519 w chk num).v ≠ 0 then M r0 r0 cI else r0
  let chk := S chk r0
  let chk := M chk chk den
  if (neq25519 w chk num).v ≠ 0 then (-1, ⟨r0, r1, r2, r.p3⟩)
  else
    let r0 := if (par25519 r0).v = (at' p 31 >>> 7).v then Z r0 gf0 r0 else r0
    (0, ⟨r0, r1, r2, M r.p3 r0 r1⟩)

/-- `crypto_sign_ed25519_tweet_open`, tweetnacl.py:920-953: the return value and the new contents of `m`. -/
def signOpen (w : Nat) (m sm : List V) (n : Nat) (pk : List V) : Int × List V :=
  if n < 64 then (-1, m)
  else
    let (res, q) := unpackneg w Pt.new pk
    if res ≠ 0 then (-1, m)
    else
      let m := forRange n m fun i m => m.set i (byteItem (at' sm i))
      let m := forRange 32 m fun i m => m.set (i + 32) (byteItem (at' pk i))
      let h := reduce (hashSha512 (intArray .u8 64) m n)
      let p := scalarmult Pt.new q h
      let q := scalarbase q (sm.drop 32)
      let p := add p q
      let t := pack (intArray .u8 32) p
      let n := n - 64
      if (verify32 w sm t).v ≠ 0 then (-1, forRange n m fun i m => m.set i 0)
      else (0, forRange n m fun i m => m.set i (byteItem (at' sm (i + 64))))

end Salt.Tweet
