import Verif.Model.Basic

/-!
# Specification: SHA-512

After FIPS 180-4.  Independent of the model.
-/

namespace Salt.Spec

/-- The rotation to the right of FIPS 180-4, 2.2.2. -/
def rotr (x : UInt64) (c : UInt64) : UInt64 := (x >>> c) ||| (x <<< (64 - c))

/-- FIPS 180-4, (4.8). -/
def ch (x y z : UInt64) : UInt64 := (x &&& y) ^^^ (~~~x &&& z)
/-- FIPS 180-4, (4.9). -/
def maj (x y z : UInt64) : UInt64 := (x &&& y) ^^^ (x &&& z) ^^^ (y &&& z)
/-- FIPS 180-4, (4.10). -/
def sum0 (x : UInt64) : UInt64 := rotr x 28 ^^^ rotr x 34 ^^^ rotr x 39
/-- FIPS 180-4, (4.11). -/
def sum1 (x : UInt64) : UInt64 := rotr x 14 ^^^ rotr x 18 ^^^ rotr x 41
/-- FIPS 180-4, (4.12). -/
def sigma0 (x : UInt64) : UInt64 := rotr x 1 ^^^ rotr x 8 ^^^ (x >>> 7)
/-- FIPS 180-4, (4.13). -/
def sigma1 (x : UInt64) : UInt64 := rotr x 19 ^^^ rotr x 61 ^^^ (x >>> 6)

/-- The constants of FIPS 180-4, 4.2.3: the first 64 bits of the fractional parts of the cube roots of the first eighty
primes (see `shaK_cube_roots`). -/
def shaK : List UInt64 :=
  [0x428a2f98d728ae22, 0x7137449123ef65cd, 0xb5c0fbcfec4d3b2f, 0xe9b5dba58189dbbc,
   0x3956c25bf348b538, 0x59f111f1b605d019, 0x923f82a4af194f9b, 0xab1c5ed5da6d8118,
   0xd807aa98a3030242, 0x12835b0145706fbe, 0x243185be4ee4b28c, 0x550c7dc3d5ffb4e2,
   0x72be5d74f27b896f, 0x80deb1fe3b1696b1, 0x9bdc06a725c71235, 0xc19bf174cf692694,
   0xe49b69c19ef14ad2, 0xefbe4786384f25e3, 0x0fc19dc68b8cd5b5, 0x240ca1cc77ac9c65,
   0x2de92c6f592b0275, 0x4a7484aa6ea6e483, 0x5cb0a9dcbd41fbd4, 0x76f988da831153b5,
   0x983e5152ee66dfab, 0xa831c66d2db43210, 0xb00327c898fb213f, 0xbf597fc7beef0ee4,
   0xc6e00bf33da88fc2, 0xd5a79147930aa725, 0x06ca6351e003826f, 0x142929670a0e6e70,
   0x27b70a8546d22ffc, 0x2e1b21385c26c926, 0x4d2c6dfc5ac42aed, 0x53380d139d95b3df,
   0x650a73548baf63de, 0x766a0abb3c77b2a8, 0x81c2c92e47edaee6, 0x92722c851482353b,
   0xa2bfe8a14cf10364, 0xa81a664bbc423001, 0xc24b8b70d0f89791, 0xc76c51a30654be30,
   0xd192e819d6ef5218, 0xd69906245565a910, 0xf40e35855771202a, 0x106aa07032bbd1b8,
   0x19a4c116b8d2d0c8, 0x1e376c085141ab53, 0x2748774cdf8eeb99, 0x34b0bcb5e19b48a8,
   0x391c0cb3c5c95a63, 0x4ed8aa4ae3418acb, 0x5b9cca4f7763e373, 0x682e6ff3d6b2b8a3,
   0x748f82ee5defb2fc, 0x78a5636f43172f60, 0x84c87814a1f0ab72, 0x8cc702081a6439ec,
   0x90befffa23631e28, 0xa4506cebde82bde9, 0xbef9a3f7b2c67915, 0xc67178f2e372532b,
   0xca273eceea26619c, 0xd186b8c721c0c207, 0xeada7dd6cde0eb1e, 0xf57d4f7fee6ed178,
   0x06f067aa72176fba, 0x0a637dc5a2c898a6, 0x113f9804bef90dae, 0x1b710b35131c471b,
   0x28db77f523047d84, 0x32caab7b40c72493, 0x3c9ebe0a15c9bebc, 0x431d67c49c100d4c,
   0x4cc5d4becb3e42b6, 0x597f299cfc657e2a, 0x5fcb6fab3ad6faec, 0x6c44198c4a475817]

/-- The initial hash value of FIPS 180-4, 5.3.5: the first 64 bits of the fractional parts of the square roots of the
first eight primes (see `shaIV_square_roots`). -/
def shaIV : List UInt64 :=
  [0x6a09e667f3bcc908, 0xbb67ae8584caa73b, 0x3c6ef372fe94f82b, 0xa54ff53a5f1d36f1,
   0x510e527fade682d1, 0x9b05688c2b3e6c1f, 0x1f83d9abfb41bd6b, 0x5be0cd19137e2179]

/-- The message schedule of FIPS 180-4, 6.4.2, step 1: 16 words of the message and `n` more. -/
def schedule (m : List UInt64) : Nat → List UInt64
  | 0 => m
  | n + 1 =>
    let w := schedule m n
    let t := 16 + n
    w ++ [sigma1 (w.getD (t - 2) 0) + w.getD (t - 7) 0 + sigma0 (w.getD (t - 15) 0) + w.getD (t - 16) 0]

/-- The working variables `a` to `h`. -/
abbrev Working := UInt64 × UInt64 × UInt64 × UInt64 × UInt64 × UInt64 × UInt64 × UInt64

/-- One round of FIPS 180-4, 6.4.2, step 3, with constant `k` and word `w`. -/
def shaStep (s : Working) (k w : UInt64) : Working :=
  let (a, b, c, d, e, f, g, h) := s
  let t1 := h + sum1 e + ch e f g + k + w
  let t2 := sum0 a + maj a b c
  (t1 + t2, a, b, c, d + t1, e, f, g)

/-- The 80 rounds. -/
def shaRounds (s : Working) (w : List UInt64) : Working := (List.zip shaK w).foldl (fun s kw => shaStep s kw.1 kw.2) s

/-- FIPS 180-4, 6.4.2: the new hash value after a block of 16 words. -/
def compress (h : List UInt64) (m : List UInt64) : List UInt64 :=
  match h with
  | [a, b, c, d, e, f, g, i] =>
    let (a', b', c', d', e', f', g', i') := shaRounds (a, b, c, d, e, f, g, i) (schedule m 64)
    [a' + a, b' + b, c' + c, d' + d, e' + e, f' + f, g' + g, i' + i]
  | h => h

/-- The number with the given big-endian base 256 digits. -/
def numBE (b : Bytes) : Nat := b.foldl (fun x d => 256 * x + d.toNat) 0

/-- The `n` lowest base 256 digits of a number, big endian. -/
def digitsBE : Nat → Nat → Bytes
  | 0, _ => []
  | n + 1, x => digitsBE n (x / 256) ++ [UInt8.ofNat x]

/-- The big-endian words of a byte string. -/
def wordsBE : Bytes → List UInt64
  | b0 :: b1 :: b2 :: b3 :: b4 :: b5 :: b6 :: b7 :: t =>
    UInt64.ofNat (numBE [b0, b1, b2, b3, b4, b5, b6, b7]) :: wordsBE t
  | _ => []

/-- The padding of FIPS 180-4, 5.1.2: a one bit, zeros, and the length in bits as a 128-bit number, to a multiple of
128 bytes. -/
def pad (m : Bytes) : Bytes :=
  m ++ [0x80] ++ List.replicate ((128 - (m.length + 17) % 128) % 128) 0 ++ digitsBE 16 (8 * m.length)

/-- The hash value after all blocks of 16 words. -/
def compressAll (h : List UInt64) (w : List UInt64) : List UInt64 :=
  if 16 ≤ w.length then compressAll (compress h (w.take 16)) (w.drop 16) else h
termination_by w.length
decreasing_by simp; omega

/-- SHA-512. -/
def sha512 (m : Bytes) : Bytes := (compressAll shaIV (wordsBE (pad m))).flatMap fun a => digitsBE 8 a.toNat

/-- The first eighty primes. -/
def primes80 : List Nat :=
  [2, 3, 5, 7, 11, 13, 17, 19, 23, 29, 31, 37, 41, 43, 47, 53, 59, 61, 67, 71,
   73, 79, 83, 89, 97, 101, 103, 107, 109, 113, 127, 131, 137, 139, 149, 151, 157, 163, 167, 173,
   179, 181, 191, 193, 197, 199, 211, 223, 227, 229, 233, 239, 241, 251, 257, 263, 269, 271, 277, 281,
   283, 293, 307, 311, 313, 317, 331, 337, 347, 349, 353, 359, 367, 373, 379, 383, 389, 397, 401, 409]

/-- The constants are the first 64 bits of the fractional parts of the cube roots of these numbers. -/
theorem shaK_cube_roots : (List.zip shaK primes80).all (fun (k, p) =>
    (List.range 8).any fun q => (q * 2 ^ 64 + k.toNat) ^ 3 ≤ p * 2 ^ 192 ∧ p * 2 ^ 192 < (q * 2 ^ 64 + k.toNat + 1) ^ 3) = true ∧
    shaK.length = 80 ∧ primes80.length = 80 := by decide +kernel

/-- The initial hash value has the first 64 bits of the fractional parts of the square roots of these numbers. -/
theorem shaIV_square_roots : (List.zip shaIV primes80).all (fun (k, p) =>
    (List.range 5).any fun q => (q * 2 ^ 64 + k.toNat) ^ 2 ≤ p * 2 ^ 128 ∧ p * 2 ^ 128 < (q * 2 ^ 64 + k.toNat + 1) ^ 2) = true ∧
    shaIV.length = 8 := by decide +kernel

/-- The numbers of the list are the primes up to 409. -/
theorem primes80_primes : primes80 = (List.range 410).filter fun n => 2 ≤ n ∧ (List.range n).all fun d => d < 2 ∨ n % d ≠ 0 := by
  decide +kernel

/-- The hash of "abc", a published test vector. -/
example : sha512 [97, 98, 99] = digitsBE 64 0xddaf35a193617abacc417349ae20413112e6fa4e89a97ea20a9eeee64b55d39a2192992a274fc1a836ba3c23a3feebbd454d4423643ce80e2a9ac94fa54ca49f := by
  decide +kernel

end Salt.Spec
