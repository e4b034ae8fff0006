import Verif.Model.Hashes

/-! # The digests written out

hashlib and hmac are not part of /repo; bitcoinx/hashes.py:39-66 and 101-102 call them.  The theorems
take them as parameters (`Hashes`).  Here they are as FIPS 180-4, the RIPEMD-160 paper and RFC 2104
define them, so that the model can be compared with published results; no theorem depends on more than
their sizes. -/

namespace Bitcoinx.Digest

/-- The message, a bit 1, zeros and the length of the message in bits, a multiple of `8 * w` bytes
where the length takes `w` bytes; `lenBytes` writes the length. -/
def pad (w : Nat) (lenBytes : Nat → Bytes) (x : Bytes) : Bytes :=
  x ++ 0x80 :: zeros ((8 * w - (x.length + 1 + w) % (8 * w)) % (8 * w)) ++ lenBytes (8 * x.length)

/-- The blocks of `n` bytes. -/
def blocks (n : Nat) (x : Bytes) : List Bytes := (List.range (x.length / n)).map fun i => (x.drop (n * i)).take n

/-! ## SHA-256 -/

/-- Rotation to the right. -/
def ror32 (x : UInt32) (n : UInt32) : UInt32 := (x >>> n) ||| (x <<< (32 - n))

/-- FIPS 180-4, section 4.2.2. -/
def K256 : List UInt32 := [
  0x428a2f98, 0x71374491, 0xb5c0fbcf, 0xe9b5dba5, 0x3956c25b, 0x59f111f1, 0x923f82a4, 0xab1c5ed5,
  0xd807aa98, 0x12835b01, 0x243185be, 0x550c7dc3, 0x72be5d74, 0x80deb1fe, 0x9bdc06a7, 0xc19bf174,
  0xe49b69c1, 0xefbe4786, 0x0fc19dc6, 0x240ca1cc, 0x2de92c6f, 0x4a7484aa, 0x5cb0a9dc, 0x76f988da,
  0x983e5152, 0xa831c66d, 0xb00327c8, 0xbf597fc7, 0xc6e00bf3, 0xd5a79147, 0x06ca6351, 0x14292967,
  0x27b70a85, 0x2e1b2138, 0x4d2c6dfc, 0x53380d13, 0x650a7354, 0x766a0abb, 0x81c2c92e, 0x92722c85,
  0xa2bfe8a1, 0xa81a664b, 0xc24b8b70, 0xc76c51a3, 0xd192e819, 0xd6990624, 0xf40e3585, 0x106aa070,
  0x19a4c116, 0x1e376c08, 0x2748774c, 0x34b0bcb5, 0x391c0cb3, 0x4ed8aa4a, 0x5b9cca4f, 0x682e6ff3,
  0x748f82ee, 0x78a5636f, 0x84c87814, 0x8cc70208, 0x90befffa, 0xa4506ceb, 0xbef9a3f7, 0xc67178f2]

/-- FIPS 180-4, section 5.3.3. -/
def H256 : List UInt32 := [
  0x6a09e667, 0xbb67ae85, 0x3c6ef372, 0xa54ff53a, 0x510e527f, 0x9b05688c, 0x1f83d9ab, 0x5be0cd19]

/-- A big-endian word. -/
def word32 (b : Bytes) : UInt32 := b.foldl (fun acc x => acc <<< 8 ||| x.toUInt32) 0

/-- The bytes of a word. -/
def bytes32 (x : UInt32) : Bytes := [(x >>> 24).toUInt8, (x >>> 16).toUInt8, (x >>> 8).toUInt8, x.toUInt8]

/-- The message schedule, the last word first. -/
def schedule256 : Nat → List UInt32 → List UInt32
  | 0, w => w
  | n + 1, w =>
    let a := w.getD 1 0
    let b := w.getD 14 0
    schedule256 n (((ror32 a 17 ^^^ ror32 a 19 ^^^ (a >>> 10)) + w.getD 6 0 +
      (ror32 b 7 ^^^ ror32 b 18 ^^^ (b >>> 3)) + w.getD 15 0) :: w)

/-- One round. -/
def round256 (h : List UInt32) (kw : UInt32 × UInt32) : List UInt32 :=
  match h with
  | [a, b, c, d, e, f, g, h] =>
    let t1 := h + (ror32 e 6 ^^^ ror32 e 11 ^^^ ror32 e 25) + ((e &&& f) ^^^ (~~~ e &&& g)) + kw.1 + kw.2
    let t2 := (ror32 a 2 ^^^ ror32 a 13 ^^^ ror32 a 22) + ((a &&& b) ^^^ (a &&& c) ^^^ (b &&& c))
    [t1 + t2, a, b, c, d + t1, e, f, g]
  | _ => h

/-- One block. -/
def compress256 (h : List UInt32) (block : Bytes) : List UInt32 :=
  let w := (schedule256 48 ((blocks 4 block).map word32).reverse).reverse
  List.zipWith (· + ·) h ((K256.zip w).foldl round256 h)

/-- SHA-256. -/
def sha256 (x : Bytes) : Bytes :=
  ((blocks 64 (pad 8 (beBytes 8) x)).foldl compress256 H256).flatMap bytes32

/-! ## SHA-512 -/

/-- Rotation to the right. -/
def ror64 (x : UInt64) (n : UInt64) : UInt64 := (x >>> n) ||| (x <<< (64 - n))

/-- FIPS 180-4, section 4.2.3. -/
def K512 : List UInt64 := [
  0x428a2f98d728ae22, 0x7137449123ef65cd, 0xb5c0fbcfec4d3b2f, 0xe9b5dba58189dbbc,
  0x3956c25bf348b538, 0x59f111f1b605d019, 0x923f82a4af194f9b, 0xab1c5ed5da6d8118,
  0xd807aa98a3030242, 0x12835b0145706fbe, 0x243185be4ee4b28c, 0x550c7dc3d5ffb4e2,
  0x72be5d74f27b896f, 0x80deb1fe3b1696b1, 0x9bdc06a725c71235, 0xc19bf174cf692694,
  0xe49b69c19ef14ad2, 0xefbe4786384f25e3, 0x0fc19dc68b8cd5b5, 0x240ca1cc77ac9c65,
  0x2de92c6f592b0275, 0x4a7484aa6ea6e483, 0x5cb0a9dcbd41fbd4, 0x76f988da831153b5,
  0x983e5152ee66dfab, 0xa831c66d2db43210, 0xb00327c898fb213f, 0xbf597fc7beef0ee4,
  0xc6e00bf33da88fc2, 0xd5a79147930aa725, 0x06ca6351e003826f, 0x142929670a0e6e70,
  0x27b70a8546d22ffc, 0x2e1b21385c26c926, 0x4d2c6dfc5ac42aed, 0x53380d139d95b3df,
  0x650a73548baf63de, 0x766a0abb3c77b2a8, 0x81c2c92e47edaee6, 0x92722c851482353b,
  0xa2bfe8a14cf10364, 0xa81a664bbc423001, 0xc24b8b70d0f89791, 0xc76c51a30654be30,
  0xd192e819d6ef5218, 0xd69906245565a910, 0xf40e35855771202a, 0x106aa07032bbd1b8,
  0x19a4c116b8d2d0c8, 0x1e376c085141ab53, 0x2748774cdf8eeb99, 0x34b0bcb5e19b48a8,
  0x391c0cb3c5c95a63, 0x4ed8aa4ae3418acb, 0x5b9cca4f7763e373, 0x682e6ff3d6b2b8a3,
  0x748f82ee5defb2fc, 0x78a5636f43172f60, 0x84c87814a1f0ab72, 0x8cc702081a6439ec,
  0x90befffa23631e28, 0xa4506cebde82bde9, 0xbef9a3f7b2c67915, 0xc67178f2e372532b,
  0xca273eceea26619c, 0xd186b8c721c0c207, 0xeada7dd6cde0eb1e, 0xf57d4f7fee6ed178,
  0x06f067aa72176fba, 0x0a637dc5a2c898a6, 0x113f9804bef90dae, 0x1b710b35131c471b,
  0x28db77f523047d84, 0x32caab7b40c72493, 0x3c9ebe0a15c9bebc, 0x431d67c49c100d4c,
  0x4cc5d4becb3e42b6, 0x597f299cfc657e2a, 0x5fcb6fab3ad6faec, 0x6c44198c4a475817]

/-- FIPS 180-4, section 5.3.5. -/
def H512 : List UInt64 := [
  0x6a09e667f3bcc908, 0xbb67ae8584caa73b, 0x3c6ef372fe94f82b, 0xa54ff53a5f1d36f1,
  0x510e527fade682d1, 0x9b05688c2b3e6c1f, 0x1f83d9abfb41bd6b, 0x5be0cd19137e2179]

/-- A big-endian word. -/
def word64 (b : Bytes) : UInt64 := b.foldl (fun acc x => acc <<< 8 ||| x.toUInt64) 0

/-- The bytes of a word. -/
def bytes64 (x : UInt64) : Bytes :=
  [(x >>> 56).toUInt8, (x >>> 48).toUInt8, (x >>> 40).toUInt8, (x >>> 32).toUInt8,
   (x >>> 24).toUInt8, (x >>> 16).toUInt8, (x >>> 8).toUInt8, x.toUInt8]

/-- The message schedule, the last word first. -/
def schedule512 : Nat → List UInt64 → List UInt64
  | 0, w => w
  | n + 1, w =>
    let a := w.getD 1 0
    let b := w.getD 14 0
    schedule512 n (((ror64 a 19 ^^^ ror64 a 61 ^^^ (a >>> 6)) + w.getD 6 0 +
      (ror64 b 1 ^^^ ror64 b 8 ^^^ (b >>> 7)) + w.getD 15 0) :: w)

/-- One round. -/
def round512 (h : List UInt64) (kw : UInt64 × UInt64) : List UInt64 :=
  match h with
  | [a, b, c, d, e, f, g, h] =>
    let t1 := h + (ror64 e 14 ^^^ ror64 e 18 ^^^ ror64 e 41) + ((e &&& f) ^^^ (~~~ e &&& g)) + kw.1 + kw.2
    let t2 := (ror64 a 28 ^^^ ror64 a 34 ^^^ ror64 a 39) + ((a &&& b) ^^^ (a &&& c) ^^^ (b &&& c))
    [t1 + t2, a, b, c, d + t1, e, f, g]
  | _ => h

/-- One block. -/
def compress512 (h : List UInt64) (block : Bytes) : List UInt64 :=
  let w := (schedule512 64 ((blocks 8 block).map word64).reverse).reverse
  List.zipWith (· + ·) h ((K512.zip w).foldl round512 h)

/-- SHA-512. -/
def sha512 (x : Bytes) : Bytes :=
  ((blocks 128 (pad 16 (beBytes 16) x)).foldl compress512 H512).flatMap bytes64

/-! ## RIPEMD-160 -/

/-- Rotation to the left. -/
def rol32 (x : UInt32) (n : UInt32) : UInt32 := (x <<< n) ||| (x >>> (32 - n))

/-- The functions of the five rounds. -/
def ripemdF (j : Nat) (x y z : UInt32) : UInt32 :=
  match j with
  | 0 => x ^^^ y ^^^ z
  | 1 => (x &&& y) ||| (~~~ x &&& z)
  | 2 => (x ||| ~~~ y) ^^^ z
  | 3 => (x &&& z) ||| (y &&& ~~~ z)
  | _ => x ^^^ (y ||| ~~~ z)

/-- The order of the words on the left. -/
def ripemdR : List Nat := [
  0, 1, 2, 3, 4, 5, 6, 7, 8, 9, 10, 11, 12, 13, 14, 15,
  7, 4, 13, 1, 10, 6, 15, 3, 12, 0, 9, 5, 2, 14, 11, 8,
  3, 10, 14, 4, 9, 15, 8, 1, 2, 7, 0, 6, 13, 11, 5, 12,
  1, 9, 11, 10, 0, 8, 12, 4, 13, 3, 7, 15, 14, 5, 6, 2,
  4, 0, 5, 9, 7, 12, 2, 10, 14, 1, 3, 8, 11, 6, 15, 13]

/-- The order of the words on the right. -/
def ripemdR' : List Nat := [
  5, 14, 7, 0, 9, 2, 11, 4, 13, 6, 15, 8, 1, 10, 3, 12,
  6, 11, 3, 7, 0, 13, 5, 10, 14, 15, 8, 12, 4, 9, 1, 2,
  15, 5, 1, 3, 7, 14, 6, 9, 11, 8, 12, 2, 10, 0, 4, 13,
  8, 6, 4, 1, 3, 11, 15, 0, 5, 12, 2, 13, 9, 7, 10, 14,
  12, 15, 10, 4, 1, 5, 8, 7, 6, 2, 13, 14, 0, 3, 9, 11]

/-- The rotations on the left. -/
def ripemdS : List UInt32 := [
  11, 14, 15, 12, 5, 8, 7, 9, 11, 13, 14, 15, 6, 7, 9, 8,
  7, 6, 8, 13, 11, 9, 7, 15, 7, 12, 15, 9, 11, 7, 13, 12,
  11, 13, 6, 7, 14, 9, 13, 15, 14, 8, 13, 6, 5, 12, 7, 5,
  11, 12, 14, 15, 14, 15, 9, 8, 9, 14, 5, 6, 8, 6, 5, 12,
  9, 15, 5, 11, 6, 8, 13, 12, 5, 12, 13, 14, 11, 8, 5, 6]

/-- The rotations on the right. -/
def ripemdS' : List UInt32 := [
  8, 9, 9, 11, 13, 15, 15, 5, 7, 7, 8, 11, 14, 14, 12, 6,
  9, 13, 15, 7, 12, 8, 9, 11, 7, 7, 12, 7, 6, 15, 13, 11,
  9, 7, 15, 11, 8, 6, 6, 14, 12, 13, 5, 14, 13, 13, 7, 5,
  15, 5, 8, 11, 14, 14, 6, 14, 6, 9, 12, 9, 12, 5, 15, 8,
  8, 5, 12, 9, 12, 5, 14, 6, 8, 13, 6, 5, 15, 13, 11, 11]

/-- The constants on the left. -/
def ripemdK : List UInt32 := [0, 0x5a827999, 0x6ed9eba1, 0x8f1bbcdc, 0xa953fd4e]

/-- The constants on the right. -/
def ripemdK' : List UInt32 := [0x50a28be6, 0x5c4dd124, 0x6d703ef3, 0x7a6d76e9, 0]

/-- One step of a line, with function number `f` and constant `k`. -/
def ripemdStep (x : List UInt32) (f : Nat) (k : UInt32) (h : List UInt32) (rs : Nat × UInt32) : List UInt32 :=
  match h with
  | [a, b, c, d, e] => [e, rol32 (a + ripemdF f b c d + x.getD rs.1 0 + k) rs.2 + e, b, rol32 c 10, d]
  | _ => h

/-- A line: five rounds of sixteen steps. -/
def ripemdLine (x : List UInt32) (fs : List Nat) (ks : List UInt32) (rs : List (Nat × UInt32)) (h : List UInt32) :
    List UInt32 :=
  (List.range 5).foldl (fun h i =>
    ((rs.drop (16 * i)).take 16).foldl (ripemdStep x (fs.getD i 0) (ks.getD i 0)) h) h

/-- A little-endian word. -/
def leWord32 (b : Bytes) : UInt32 := word32 b.reverse

/-- One block. -/
def compressRipemd (h : List UInt32) (block : Bytes) : List UInt32 :=
  let x := (blocks 4 block).map leWord32
  let l := ripemdLine x [0, 1, 2, 3, 4] ripemdK (ripemdR.zip ripemdS) h
  let r := ripemdLine x [4, 3, 2, 1, 0] ripemdK' (ripemdR'.zip ripemdS') h
  match h, l, r with
  | [h0, h1, h2, h3, h4], [a, b, c, d, e], [a', b', c', d', e'] =>
    [h1 + c + d', h2 + d + e', h3 + e + a', h4 + a + b', h0 + b + c']
  | _, _, _ => h

/-- RIPEMD-160. -/
def ripemd160 (x : Bytes) : Bytes :=
  ((blocks 64 (pad 8 (leBytes 8) x)).foldl compressRipemd
    [0x67452301, 0xefcdab89, 0x98badcfe, 0x10325476, 0xc3d2e1f0]).flatMap fun w => (bytes32 w).reverse

/-! ## HMAC -/

/-- HMAC, RFC 2104, for a digest with blocks of `n` bytes. -/
def hmac (n : Nat) (digest : Bytes → Bytes) (key msg : Bytes) : Bytes :=
  let key := if n < key.length then digest key else key
  let key := key ++ zeros (n - key.length)
  digest (key.map (· ^^^ 0x5c) ++ digest (key.map (· ^^^ 0x36) ++ msg))

end Bitcoinx.Digest
