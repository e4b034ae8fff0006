import Mathlib.Algebra.Group.Defs
import Mathlib.Algebra.Module.NatInt
import Verif.Model.Hashes

/-! # The interface of libsecp256k1 as `bitcoinx` uses it

The library is not part of /repo.  Its curve group, the two point encodings, and the signature
functions are parameters constrained by laws; the arithmetic on private keys and the failure
conditions of the tweak functions are written out. -/

namespace Bitcoinx

/-- `CURVE_ORDER`, bitcoinx/keys.py:53. -/
def CURVE_ORDER : Nat := 0xfffffffffffffffffffffffffffffffebaaedce6af48a03bbfd25e8cd0364141

/-- The library: a group in which `CURVE_ORDER` annihilates every point, a generator, the
serialization and parsing of points other than infinity, and ECDSA on 32-byte digests.  A signature
is its compact form of 64 bytes, a recoverable one also has a recovery id. -/
structure Secp where
  Point : Type
  [group : AddCommGroup Point]
  [dec : DecidableEq Point]
  gen : Point
  gen_ne : gen ≠ 0
  torsion : ∀ p : Point, CURVE_ORDER • p = 0
  /-- `secp256k1_ec_pubkey_serialize`; the flag says compressed -/
  serialize : Bool → Point → Bytes
  /-- `secp256k1_ec_pubkey_parse` -/
  parse : Bytes → Option Point
  serialize_length : ∀ c p, (serialize c p).length = if c then 33 else 65
  serialize_head : ∀ p, (serialize false p).head? = some 4
  parse_serialize : ∀ c p, p ≠ 0 → parse (serialize c p) = some p
  parse_ne : ∀ b p, parse b = some p → p ≠ 0
  parse_length : ∀ b p, parse b = some p → b.length = 33 ∨ b.length = 65
  parse_compressed : ∀ b p, parse b = some p → b.length = 33 → b = serialize true p
  parse_uncompressed : ∀ b p, parse b = some p → b.length = 65 → b.head? = some 4 → b = serialize false p
  /-- `secp256k1_ecdsa_signature_parse_der`, giving the compact form -/
  parse_der : Bytes → Option Bytes
  /-- `secp256k1_ecdsa_signature_serialize_der` of a signature given in compact form -/
  serialize_der : Bytes → Bytes
  /-- `secp256k1_ecdsa_sign(msg, secret)` -/
  sign : Bytes → Bytes → Bytes
  /-- `secp256k1_ecdsa_sign_recoverable(msg, secret)` -/
  sign_recoverable : Bytes → Bytes → Bytes × Nat
  /-- `secp256k1_ecdsa_verify(sig, msg, public_key)` -/
  verify : Bytes → Bytes → Point → Bool
  /-- `secp256k1_ecdsa_recover(sig, recid, msg)` -/
  recover : Bytes → Nat → Bytes → Option Point
  parse_der_compact : ∀ b s, parse_der b = some s →
    s.length = 64 ∧ be_bytes_to_int (s.take 32) < CURVE_ORDER ∧ be_bytes_to_int (s.drop 32) < CURVE_ORDER
  parse_der_length : ∀ b s, parse_der b = some s → 8 ≤ b.length
  parse_serialize_der : ∀ s, s.length = 64 → be_bytes_to_int (s.take 32) < CURVE_ORDER →
    be_bytes_to_int (s.drop 32) < CURVE_ORDER → parse_der (serialize_der s) = some s
  serialize_der_length : ∀ s, 8 ≤ (serialize_der s).length ∧ (serialize_der s).length ≤ 72
  sign_valid : ∀ m d, m.length = 32 → 0 < be_bytes_to_int d → be_bytes_to_int d < CURVE_ORDER →
    (sign m d).length = 64 ∧ be_bytes_to_int ((sign m d).take 32) < CURVE_ORDER ∧
      be_bytes_to_int ((sign m d).drop 32) < CURVE_ORDER ∧
      verify (sign m d) m (be_bytes_to_int d • gen) = true
  sign_recoverable_valid : ∀ m d, m.length = 32 → 0 < be_bytes_to_int d → be_bytes_to_int d < CURVE_ORDER →
    (sign_recoverable m d).1 = sign m d ∧ (sign_recoverable m d).2 ≤ 3 ∧
      recover (sign_recoverable m d).1 (sign_recoverable m d).2 m = some (be_bytes_to_int d • gen)
  recover_ne : ∀ s r m p, recover s r m = some p → p ≠ 0

attribute [instance] Secp.group Secp.dec

namespace Secp

/-- `secp256k1_ec_seckey_verify(secret)`. -/
def seckey_verify (secret : Bytes) : Bool :=
  decide (0 < be_bytes_to_int secret) && decide (be_bytes_to_int secret < CURVE_ORDER)

/-- `secp256k1_ec_pubkey_create(secret)`. -/
def pubkey_create (L : Secp) (secret : Bytes) : Option L.Point :=
  if seckey_verify secret then some (be_bytes_to_int secret • L.gen) else none

/-- `secp256k1_ec_privkey_tweak_add(secret, tweak)`: fails if the tweak is not below the group order
or the sum is zero. -/
def privkey_tweak_add (secret tweak : Bytes) : Option Bytes :=
  let t := be_bytes_to_int tweak
  let r := (be_bytes_to_int secret + t) % CURVE_ORDER
  if t < CURVE_ORDER ∧ r ≠ 0 then some (beBytes 32 r) else none

/-- `secp256k1_ec_privkey_tweak_mul(secret, tweak)`: fails if the tweak is zero or not below the
group order. -/
def privkey_tweak_mul (secret tweak : Bytes) : Option Bytes :=
  let t := be_bytes_to_int tweak
  if t < CURVE_ORDER ∧ t ≠ 0 then some (beBytes 32 (be_bytes_to_int secret * t % CURVE_ORDER)) else none

/-- `secp256k1_ec_pubkey_tweak_add(public_key, tweak)`: fails if the tweak is not below the group
order or the sum is the point at infinity. -/
def pubkey_tweak_add (L : Secp) (p : L.Point) (tweak : Bytes) : Option L.Point :=
  let t := be_bytes_to_int tweak
  if t < CURVE_ORDER ∧ p + t • L.gen ≠ 0 then some (p + t • L.gen) else none

/-- `secp256k1_ec_pubkey_tweak_mul(public_key, tweak)`: fails if the tweak is zero or not below the
group order. -/
def pubkey_tweak_mul (L : Secp) (p : L.Point) (tweak : Bytes) : Option L.Point :=
  let t := be_bytes_to_int tweak
  if t < CURVE_ORDER ∧ t ≠ 0 then some (t • p) else none

/-- `secp256k1_ec_pubkey_combine(public_keys)`: fails if the sum is the point at infinity. -/
def pubkey_combine (L : Secp) (ps : List L.Point) : Option L.Point :=
  if ps.foldl (· + ·) 0 ≠ 0 then some (ps.foldl (· + ·) 0) else none

/-- `secp256k1_ecdsa_signature_parse_compact(data)`: fails if `r` or `s` is not below the group
order. -/
def parse_compact (data : Bytes) : Option Bytes :=
  if be_bytes_to_int (data.take 32) < CURVE_ORDER ∧ be_bytes_to_int (data.drop 32) < CURVE_ORDER
  then some data else none

end Secp

end Bitcoinx
