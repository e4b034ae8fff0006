import Verif.Model.Bip32
import Verif.Spec.Keys
import Verif.Spec.Text
import Verif.Spec.Bytes

/-! # Specification vocabulary for BIP32

The functions `CKDpriv` and `CKDpub` of BIP32 as relations, in terms of HMAC-SHA512, the group of the
curve and big-endian numbers. -/

namespace Bitcoinx.Spec

/-- Derivation data as BIP32 has it, except that the depth is not bounded. -/
def DerivationValid (d : BIP32Derivation) : Prop :=
  d.chain_code.length = 32 ∧ d.parent_fingerprint.length = 4 ∧ 0 ≤ d.n ∧ d.n < 2 ^ 32 ∧ 0 ≤ d.depth

/-- The extended private keys there are. -/
def XprvValid (k : BIP32PrivateKey) : Prop :=
  PrivValid k.key ∧ k.key.compressed = true ∧ DerivationValid k.derivation

/-- The extended public keys there are. -/
def XpubValid {L : Secp} (k : BIP32PublicKey L) : Prop :=
  PubValid k.key ∧ k.key.compressed = true ∧ DerivationValid k.derivation

/-- The first four bytes of the hash of a serialized point. -/
def pointFingerprint (H : Hashes) (L : Secp) (p : L.Point) : Bytes :=
  (H.ripemd160 (H.sha256 (L.serialize true p))).take 4

/-- What the parent's data makes of a child's derivation data, apart from the chain code. -/
def ChildData (H : Hashes) (L : Secp) (p : L.Point) (d : BIP32Derivation) (n : Nat) (c : BIP32Derivation) : Prop :=
  c.n = n ∧ c.depth = d.depth + 1 ∧ c.parent_fingerprint = pointFingerprint H L p

/-- `I = HMAC-SHA512(Key = c_par, Data)` where `Data` is `0x00 || ser256(k_par) || ser32(i)` for a
hardened child and `serP(point(k_par)) || ser32(i)` otherwise. -/
def ckdPrivHash (H : Hashes) (L : Secp) (k : BIP32PrivateKey) (n : Nat) : Bytes :=
  H.hmac_sha512 k.derivation.chain_code
    ((if 2 ^ 31 ≤ n then 0 :: beBytes 32 (secretNumber k.key) else L.serialize true (secretNumber k.key • L.gen)) ++
      beBytes 4 n)

/-- `c` is the child of `k` number `n`: `k_i = parse256(I_L) + k_par (mod order)`, `c_i = I_R`, and it is
invalid if `parse256(I_L) ≥ order` or `k_i = 0`. -/
def IsChildPriv (H : Hashes) (L : Secp) (k : BIP32PrivateKey) (n : Nat) (c : BIP32PrivateKey) : Prop :=
  let I := ckdPrivHash H L k n
  beValue (I.take 32) < CURVE_ORDER ∧
  secretNumber c.key = (beValue (I.take 32) + secretNumber k.key) % CURVE_ORDER ∧ secretNumber c.key ≠ 0 ∧
  c.key.secret.length = 32 ∧ c.key.compressed = true ∧ c.key.coin = k.key.coin ∧
  c.derivation.chain_code = I.drop 32 ∧
  ChildData H L (secretNumber k.key • L.gen) k.derivation n c.derivation

/-- `c` is the child of the public key `k` number `n`: `K_i = point(parse256(I_L)) + K_par`. -/
def IsChildPub {L : Secp} (H : Hashes) (k : BIP32PublicKey L) (n : Nat) (c : BIP32PublicKey L) : Prop :=
  let I := H.hmac_sha512 k.derivation.chain_code (L.serialize true k.key.point ++ beBytes 4 n)
  beValue (I.take 32) < CURVE_ORDER ∧
  c.key.point = beValue (I.take 32) • L.gen + k.key.point ∧ c.key.point ≠ 0 ∧
  c.key.compressed = true ∧ c.key.coin = k.key.coin ∧
  c.derivation.chain_code = I.drop 32 ∧
  ChildData H L k.key.point k.derivation n c.derivation

/-- The key reached from a private key along a path. -/
def derivePriv (H : Hashes) (L : Secp) : BIP32PrivateKey → List Int → Res BIP32PrivateKey
  | k, [] => .ok k
  | k, n :: path =>
    match k.child H L n with
    | .ok c => derivePriv H L c path
    | .error e => .error e

/-- The key reached from a public key along a path. -/
def derivePub (H : Hashes) {L : Secp} : BIP32PublicKey L → List Int → Res (BIP32PublicKey L)
  | k, [] => .ok k
  | k, n :: path =>
    match k.child H n with
    | .ok c => derivePub H c path
    | .error e => .error e

/-- Two coins print extended keys alike. -/
def SameVersions (a b : Coin) : Prop := a.xprv_verbytes = b.xprv_verbytes ∧ a.xpub_verbytes = b.xpub_verbytes

/-- The same private key for another coin. -/
def withCoin (k : BIP32PrivateKey) (coin : Coin) : BIP32PrivateKey :=
  { key := { secret := k.key.secret, compressed := k.key.compressed, coin := coin }, derivation := k.derivation }

/-- The same public key for another coin. -/
def withCoinPub {L : Secp} (k : BIP32PublicKey L) (coin : Coin) : BIP32PublicKey L :=
  { key := { point := k.key.point, compressed := k.key.compressed, coin := coin }, derivation := k.derivation }

/-- A part of a chain string: decimal digits, with an apostrophe if the index is hardened. -/
def IsPart (part : Str) (n : Int) : Prop :=
  ∃ digits v, digits ≠ [] ∧ numeral decAlphabet digits = some v ∧ v < 2 ^ 31 ∧
    ((part = digits ∧ n = v) ∨ (part = digits ++ ['\''] ∧ n = v + 2 ^ 31))

/-- What is accepted as a part: `IsPart` with a number of digits that `int` takes, but a newline may follow, and
if one follows, an apostrophe is ignored. -/
def AcceptedPart (P : PyText) (part : Str) (n : Int) : Prop :=
  ∃ digits v, digits ≠ [] ∧ numeral decAlphabet digits = some v ∧ v < 2 ^ 31 ∧
    (P.max_str_digits = 0 ∨ digits.length ≤ P.max_str_digits) ∧
    (((part = digits ∨ part = digits ++ ['\n'] ∨ part = digits ++ ['\'', '\n']) ∧ n = v) ∨
      (part = digits ++ ['\''] ∧ n = v + 2 ^ 31))

/-- The text `m/part/…/part`. -/
def chainText (parts : List Str) : Str := 'm' :: parts.flatMap (fun part => '/' :: part)

/-- The extended private keys that programs obtain from this module. -/
inductive ObtainedPriv (H : Hashes) (L : Secp) : BIP32PrivateKey → Prop
  | seed {seed coin k} : BIP32PrivateKey.from_seed H seed coin = .ok k → ObtainedPriv H L k
  | random {draws k rest} : (∀ d ∈ draws, d.length = 64) →
      BIP32PrivateKey.from_random draws = .ok (some (k, rest)) → ObtainedPriv H L k
  | text {t k} : bip32_key_from_string H L t = .ok (.priv k) → ObtainedPriv H L k
  | child {k n c} : ObtainedPriv H L k → k.child H L n = .ok c → ObtainedPriv H L c
  | child_safe {k n c} : ObtainedPriv H L k → k.child_safe H L n = .ok c → ObtainedPriv H L c

/-- The extended public keys that programs obtain from this module. -/
inductive ObtainedPub (H : Hashes) (L : Secp) : BIP32PublicKey L → Prop
  | public_key {k p} : ObtainedPriv H L k → k.public_key L = .ok p → ObtainedPub H L p
  | text {t p} : bip32_key_from_string H L t = .ok (.pub p) → ObtainedPub H L p
  | child {p n c} : ObtainedPub H L p → p.child H n = .ok c → ObtainedPub H L c
  | child_safe {p n c} : ObtainedPub H L p → p.child_safe H n = .ok c → ObtainedPub H L c

end Bitcoinx.Spec
