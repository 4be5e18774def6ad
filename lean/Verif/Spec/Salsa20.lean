import Verif.Model.Basic

/-!
# Specification: Salsa20, HSalsa20, XSalsa20, Poly1305 and the XSalsa20-Poly1305 secret box

After D. J. Bernstein, "Salsa20 specification", "Extending the Salsa20 nonce", "The Poly1305-AES message
authentication code" (in the form of RFC 8439, section 2.5) and "Cryptography in NaCl".  Independent of the model.
-/

namespace Salt.Spec

/-- The number with the given little-endian base 256 digits. -/
def num : Bytes → Nat
  | [] => 0
  | b :: t => b.toNat + 256 * num t

/-- The `n` lowest base 256 digits of a number, little endian. -/
def digits : Nat → Nat → Bytes
  | 0, _ => []
  | n + 1, x => UInt8.ofNat x :: digits n (x / 256)

/-- Rotation to the left. -/
def rotl (x : UInt32) (c : UInt32) : UInt32 := (x <<< c) ||| (x >>> (32 - c))

/-- "Salsa20 specification", section 3. -/
def quarterround (y0 y1 y2 y3 : UInt32) : UInt32 × UInt32 × UInt32 × UInt32 :=
  let z1 := y1 ^^^ rotl (y0 + y3) 7
  let z2 := y2 ^^^ rotl (z1 + y0) 9
  let z3 := y3 ^^^ rotl (z2 + z1) 13
  let z0 := y0 ^^^ rotl (z3 + z2) 18
  (z0, z1, z2, z3)

/-- "Salsa20 specification", section 4. -/
def rowround : List UInt32 → List UInt32
  | [y0, y1, y2, y3, y4, y5, y6, y7, y8, y9, y10, y11, y12, y13, y14, y15] =>
    let (z0, z1, z2, z3) := quarterround y0 y1 y2 y3
    let (z5, z6, z7, z4) := quarterround y5 y6 y7 y4
    let (z10, z11, z8, z9) := quarterround y10 y11 y8 y9
    let (z15, z12, z13, z14) := quarterround y15 y12 y13 y14
    [z0, z1, z2, z3, z4, z5, z6, z7, z8, z9, z10, z11, z12, z13, z14, z15]
  | _ => []

/-- "Salsa20 specification", section 5. -/
def columnround : List UInt32 → List UInt32
  | [x0, x1, x2, x3, x4, x5, x6, x7, x8, x9, x10, x11, x12, x13, x14, x15] =>
    let (y0, y4, y8, y12) := quarterround x0 x4 x8 x12
    let (y5, y9, y13, y1) := quarterround x5 x9 x13 x1
    let (y10, y14, y2, y6) := quarterround x10 x14 x2 x6
    let (y15, y3, y7, y11) := quarterround x15 x3 x7 x11
    [y0, y1, y2, y3, y4, y5, y6, y7, y8, y9, y10, y11, y12, y13, y14, y15]
  | _ => []

/-- "Salsa20 specification", section 6. -/
def doubleround (x : List UInt32) : List UInt32 := rowround (columnround x)

/-- Ten double rounds. -/
def tenDoublerounds (x : List UInt32) : List UInt32 := (List.range 10).foldl (fun x _ => doubleround x) x

/-- The little-endian words of a byte string. -/
def words : Bytes → List UInt32
  | b0 :: b1 :: b2 :: b3 :: t => UInt32.ofNat (num [b0, b1, b2, b3]) :: words t
  | _ => []

/-- The bytes of a list of words. -/
def unwords (x : List UInt32) : Bytes := x.flatMap fun a => digits 4 a.toNat

/-- "expand 32-byte k" in four parts, and the key and the nonce between them ("Salsa20 specification", section 9). -/
def salsaInput (k n : Bytes) : List UInt32 :=
  words ([101, 120, 112, 97] ++ k.take 16 ++ [110, 100, 32, 51] ++ n ++ [50, 45, 98, 121] ++ k.drop 16 ++
    [116, 101, 32, 107])

/-- The Salsa20 expansion of a 32-byte key and a 16-byte nonce, 64 bytes. -/
def salsa20 (k n : Bytes) : Bytes :=
  let x := salsaInput k n
  unwords (List.zipWith (· + ·) x (tenDoublerounds x))

/-- HSalsa20: 32 bytes. -/
def hsalsa20 (k n : Bytes) : Bytes :=
  match tenDoublerounds (salsaInput k n) with
  | [z0, _, _, _, _, z5, z6, z7, z8, z9, z10, _, _, _, _, z15] => unwords [z0, z5, z10, z15, z6, z7, z8, z9]
  | _ => []

/-- The first `len` bytes of the Salsa20 stream for a 32-byte key and an 8-byte nonce. -/
def salsaStream (k n : Bytes) (len : Nat) : Bytes :=
  ((List.range (len / 64 + 1)).flatMap fun i => salsa20 k (n ++ digits 8 i)).take len

/-- The first `len` bytes of the XSalsa20 stream for a 32-byte key and a 24-byte nonce. -/
def xsalsaStream (k n : Bytes) (len : Nat) : Bytes := salsaStream (hsalsa20 k (n.take 16)) (n.drop 16) len

/-- Bytewise exclusive or. -/
def xorBytes (a b : Bytes) : Bytes := List.zipWith (· ^^^ ·) a b

/-- Poly1305: the clamped `r` (RFC 8439, 2.5). -/
def polyClamp (r : Nat) : Nat := r &&& 0x0ffffffc0ffffffc0ffffffc0fffffff

/-- Poly1305: the accumulator after the message has been processed. -/
def polyAcc (r : Nat) (acc : Nat) (m : Bytes) : Nat :=
  match m with
  | [] => acc
  | b :: m =>
    let block := (b :: m).take 16
    polyAcc r ((acc + num block + 256 ^ block.length) * r % (2 ^ 130 - 5)) ((b :: m).drop 16)
termination_by m.length
decreasing_by simp [List.length_drop]; omega

/-- Poly1305 of a message under a 32-byte key: 16 bytes. -/
def poly1305 (k m : Bytes) : Bytes :=
  digits 16 (polyAcc (polyClamp (num (k.take 16))) 0 m + num (k.drop 16))

/-- The XSalsa20-Poly1305 box of a message: the authenticator and the ciphertext. -/
def secretbox (k n m : Bytes) : Bytes :=
  let s := xsalsaStream k n (32 + m.length)
  let c := xorBytes m (s.drop 32)
  poly1305 (s.take 32) c ++ c

end Salt.Spec
