import Verif.Model.Base

/-! # Specification vocabulary for cash addresses

From the published CashAddr format, not from the code. -/

namespace Bitcoinx.Spec

/-- The number whose digits in base `2 ^ k`, most significant first, are the bytes. -/
def radix (k : Nat) : Bytes → Nat
  | [] => 0
  | b :: bs => b.toNat * (2 ^ k) ^ bs.length + radix k bs

/-- The thirty-two characters of the format; the `i`-th one stands for `i`. -/
def cashAlphabet : Str := "qpzry9x8gf2tvdw0s3jn54khce6mua7l".toList

/-- The character for a five-bit number. -/
def cashChar (d : UInt8) : Char := cashAlphabet.getD d.toNat '?'

/-- The sizes in bytes of the hashes; the `i`-th has code `i`. -/
def cashSizes : List Nat := [20, 24, 28, 32, 40, 48, 56, 64]

/-- The five-bit numbers `syms` are the bits of the version byte (kind and size code) and the hash,
filled up with the least number of zero bits. -/
def IsCashPayload (kind : Nat) (hash syms : Bytes) : Prop :=
  ∃ code pad, cashSizes[code]? = some hash.length ∧ pad < 5 ∧ (∀ d ∈ syms, d.toNat < 32) ∧
    5 * syms.length = 8 * (1 + hash.length) + pad ∧
    radix 5 syms = ((8 * kind + code) * 256 ^ hash.length + radix 8 hash) * 2 ^ pad

/-- The text with given prefix and five-bit numbers. -/
def cashText (pre : Str) (syms : Bytes) : Str := pre ++ ':' :: syms.map cashChar

/-- A prefix in lower case: printable characters other than the separator and capitals. -/
def CashPrefix (pre : Str) : Prop :=
  pre ≠ [] ∧ ∀ c ∈ pre, 33 ≤ c.toNat ∧ c.toNat ≤ 126 ∧ c ≠ ':' ∧ ¬ c.isUpper

/-! ## The checksum

A text is valid if the polynomial over the field of 32 elements whose coefficients are 1, the low
five bits of the characters of the prefix, 0, the payload and the checksum leaves remainder 1 when
divided by the generator polynomial.  Polynomials are lists of coefficients, the leading one
first; addition of coefficients is exclusive or. -/

/-- Multiplication by `z` in `GF(2)[z] / (z ^ 5 + z ^ 3 + 1)`. -/
def gfDouble (a : Nat) : Nat := if 2 * a < 32 then 2 * a else (2 * a) ^^^ 41

/-- Multiplication in that field: the sum of the `z ^ i * a` for the bits `i` of `b`. -/
def gfMul (a b : Nat) : Nat :=
  (if b.testBit 0 then a else 0) ^^^ (if b.testBit 1 then gfDouble a else 0) ^^^
  (if b.testBit 2 then gfDouble (gfDouble a) else 0) ^^^
  (if b.testBit 3 then gfDouble (gfDouble (gfDouble a)) else 0) ^^^
  (if b.testBit 4 then gfDouble (gfDouble (gfDouble (gfDouble a))) else 0)

/-- The generator polynomial. -/
def cashGenerator : List Nat := [1, 19, 3, 25, 11, 25, 3, 19, 1]

/-- Sum of polynomials written with as many coefficients. -/
def polyAdd (p q : List Nat) : List Nat := List.zipWith (· ^^^ ·) p q

/-- The product of a polynomial and the generator. -/
def timesGenerator : List Nat → List Nat
  | [] => List.replicate 8 0
  | a :: q => polyAdd (cashGenerator.map (gfMul a) ++ List.replicate q.length 0) (0 :: timesGenerator q)

/-- `x ^ n + v(x)`, where `v` has `n` coefficients, is `1` plus a multiple of the generator.  (Seven
zero coefficients are put in front for the sake of short `v`.) -/
def CashValid (v : List Nat) : Prop :=
  ∃ q, q.length = v.length ∧ (∀ a ∈ q, a < 32) ∧
    List.replicate 7 0 ++ 1 :: v = polyAdd (timesGenerator q) (List.replicate (v.length + 7) 0 ++ [1])

/-- The text is the cash address of the prefix, kind and hash. -/
def IsCashAddress (pre : Str) (kind : Nat) (hash : Bytes) (text : Str) : Prop :=
  CashPrefix pre ∧ kind ≤ 1 ∧ ∃ payload checksum, IsCashPayload kind hash payload ∧
    checksum.length = 8 ∧ (∀ d ∈ checksum, d.toNat < 32) ∧
    text = cashText pre (payload ++ checksum) ∧
    CashValid (pre.map (·.toNat % 32) ++ 0 :: (payload ++ checksum).map (·.toNat))

/-- The number of places in which two texts of the same length differ. -/
def mismatches : Str → Str → Nat
  | c :: s, d :: t => (if c = d then 0 else 1) + mismatches s t
  | _, _ => 0

end Bitcoinx.Spec
