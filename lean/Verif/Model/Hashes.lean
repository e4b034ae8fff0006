import Verif.Model.Misc

/-! # Model of `bitcoinx/hashes.py`

The hash functions themselves (hashlib, hmac) are parameters; only their output sizes are assumed. -/

namespace Bitcoinx

/-- The primitives of bitcoinx/hashes.py:47-66 and 101-102, with their digest sizes as the only
laws.  Simplification: the digests are arbitrary functions of the given sizes. -/
structure Hashes where
  sha256 : Bytes → Bytes
  sha512 : Bytes → Bytes
  ripemd160 : Bytes → Bytes
  hmac_sha256 : Bytes → Bytes → Bytes
  hmac_sha512 : Bytes → Bytes → Bytes
  sha256_length : ∀ x, (sha256 x).length = 32
  sha512_length : ∀ x, (sha512 x).length = 64
  ripemd160_length : ∀ x, (ripemd160 x).length = 20
  hmac_sha256_length : ∀ k x, (hmac_sha256 k x).length = 32
  hmac_sha512_length : ∀ k x, (hmac_sha512 k x).length = 64

/-- A concrete instance, so that the laws are satisfiable: a toy digest (weighted sum). -/
def toyDigest (n : Nat) (x : Bytes) : Bytes :=
  leBytes n (x.foldl (fun acc b => (acc * 257 + b.toNat + 1) % 1000003) 7)

theorem toyDigest_length (n : Nat) (x : Bytes) : (toyDigest n x).length = n := by
  have : ∀ w v, (leBytes w v).length = w := by
    intro w
    induction w with
    | zero => intro v; rfl
    | succ w ih => intro v; simp [leBytes, ih]
  exact this _ _

/-- Toy hashes used in the non-vacuity examples only. -/
def toyHashes : Hashes where
  sha256 := toyDigest 32
  sha512 := toyDigest 64
  ripemd160 := toyDigest 20
  hmac_sha256 k x := toyDigest 32 (k ++ x)
  hmac_sha512 k x := toyDigest 64 (k ++ x)
  sha256_length _ := toyDigest_length _ _
  sha512_length _ := toyDigest_length _ _
  ripemd160_length _ := toyDigest_length _ _
  hmac_sha256_length _ _ := toyDigest_length _ _
  hmac_sha512_length _ _ := toyDigest_length _ _

namespace Hashes

/-- `double_sha256(x)`, bitcoinx/hashes.py:69-71. -/
def double_sha256 (H : Hashes) (x : Bytes) : Bytes := H.sha256 (H.sha256 x)

/-- `hash160(x)`, bitcoinx/hashes.py:74-78. -/
def hash160 (H : Hashes) (x : Bytes) : Bytes := H.ripemd160 (H.sha256 x)

/-- `hmac_sha512_halves(key, msg)`, bitcoinx/hashes.py:105-107. -/
def hmac_sha512_halves (H : Hashes) (key msg : Bytes) : Bytes × Bytes :=
  let hmacd := H.hmac_sha512 key msg
  (hmacd.take 32, hmacd.drop 32)

end Hashes

/-! ## Hexadecimal -/

/-- The lower-case digits used by `bytes.hex()`. -/
def hexChars : List Char := "0123456789abcdef".toList

/-- One hex digit, for a value below 16. -/
def hexDigit (n : Nat) : Char := hexChars.getD n '0'

/-- Python `bytes.hex()`. -/
def hex : Bytes → Str
  | [] => []
  | b :: bs => hexDigit (b.toNat / 16) :: hexDigit (b.toNat % 16) :: hex bs

/-- The value of a hex digit as `bytes.fromhex` accepts it (both cases). -/
def hexValue (c : Char) : Option Nat :=
  if '0' ≤ c ∧ c ≤ '9' then some (c.toNat - '0'.toNat)
  else if 'a' ≤ c ∧ c ≤ 'f' then some (c.toNat - 'a'.toNat + 10)
  else if 'A' ≤ c ∧ c ≤ 'F' then some (c.toNat - 'A'.toNat + 10)
  else none

/-- ASCII whitespace, which `bytes.fromhex` skips between bytes. -/
def isAsciiSpace (c : Char) : Bool :=
  c == ' ' || c == '\t' || c == '\n' || c == '\r' || c == '\x0b' || c == '\x0c'

/-- Python `bytes.fromhex(s)` (`hex_to_bytes` in bitcoinx/packing.py:93, `bytes_fromhex` in
bitcoinx/hashes.py:43): whitespace is allowed between bytes but not inside one; any other
character, or an odd digit, raises `ValueError`. -/
def fromhex : Str → Res Bytes
  | [] => .ok []
  | c :: cs =>
    if isAsciiSpace c then fromhex cs
    else match cs with
      | [] => .error .valueError
      | d :: ds =>
        match hexValue c, hexValue d with
        | some h, some l => do
          let rest ← fromhex ds
          return UInt8.ofNat (h * 16 + l) :: rest
        | _, _ => .error .valueError

/-- `hash_to_hex_str(x)`, bitcoinx/hashes.py:81-86. -/
def hash_to_hex_str (x : Bytes) : Str := hex x.reverse

/-- `hash_to_value(x)`, bitcoinx/hashes.py:89-93. -/
def hash_to_value (x : Bytes) : Nat := le_bytes_to_int x

/-- `hex_str_to_hash(x)`, bitcoinx/hashes.py:96-98. -/
def hex_str_to_hash (x : Str) : Res Bytes := do return (← fromhex x).reverse

end Bitcoinx
