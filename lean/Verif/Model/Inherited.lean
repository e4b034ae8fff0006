import Verif.Model.Bip32

/-! # The class methods that the BIP32 classes inherit

`BIP32PrivateKey` and `BIP32PublicKey` inherit the class methods of bitcoinx/keys.py, which call `cls(…)` with the
arguments of the constructors of `PrivateKey` and `PublicKey`.  The constructors of bitcoinx/bip32.py:94-96 and 185-189
have three parameters without defaults, `derivation` in the place of `compressed`. -/

namespace Bitcoinx

/-- A `BIP32PrivateKey` object whose constructor was given a flag where a derivation is expected,
bitcoinx/bip32.py:94-96. -/
structure FlaggedPrivateKey where
  key : PrivateKey
  derivation : Bool

/-- A `BIP32PublicKey` object whose constructor was given a flag where a derivation is expected,
bitcoinx/bip32.py:185-189. -/
structure FlaggedPublicKey (L : Secp) where
  key : PublicKey L
  derivation : Bool

namespace FlaggedPrivateKey

/-- `BIP32PrivateKey(secret, flag, coin)`, bitcoinx/bip32.py:94-96. -/
def new (secret : Bytes) (flag : Bool) (coin : Coin) : Res FlaggedPrivateKey := do
  return { key := ← PrivateKey.new secret true coin, derivation := flag }

/-- `BIP32PrivateKey(secret)` and `BIP32PrivateKey(secret, flag)`: two and one missing arguments. -/
def missing (_secret : Bytes) (_flag : Option Bool := none) : Res FlaggedPrivateKey := .error .typeError

/-- `BIP32PrivateKey.from_int(value)`, bitcoinx/keys.py:160-162. -/
def from_int (value : Int) : Res FlaggedPrivateKey := do missing (← int_to_be_bytes value (some 32))

/-- `BIP32PrivateKey.from_arbitrary_bytes(secret)`, bitcoinx/keys.py:165-166. -/
def from_arbitrary_bytes (secret : Bytes) : Res FlaggedPrivateKey :=
  from_int (be_bytes_to_int secret % CURVE_ORDER : Nat)

/-- `BIP32PrivateKey.from_hex(hex_str)`, bitcoinx/keys.py:169-173. -/
def from_hex (hex_str : Str) : Res FlaggedPrivateKey := do missing (← fromhex hex_str)

/-- `BIP32PrivateKey.from_minikey(minikey)`, bitcoinx/keys.py:176-182. -/
def from_minikey (H : Hashes) (minikey : Str) : Res FlaggedPrivateKey :=
  if ¬ is_minikey H minikey then .error .valueError
  else missing (H.sha256 (utf8 minikey)) (some false)

/-- `BIP32PrivateKey.from_WIF(txt)`, bitcoinx/keys.py:194-199. -/
def from_WIF (H : Hashes) (txt : Str) : Res FlaggedPrivateKey := do
  let raw ← base58_decode_check H txt
  if raw.length = 33 ∨ (raw.length = 34 ∧ raw.getLastD 0 = 0x01) then do
    let coin ← Coin.from_WIF_byte (raw.headD 0)
    new (slice raw 1 33) (raw.length == 34) coin
  else .error .valueError

/-- `BIP32PrivateKey.from_text(txt)`, bitcoinx/keys.py:202-208. -/
def from_text (H : Hashes) (txt : Str) : Res FlaggedPrivateKey :=
  if txt.length = 64 then from_hex txt
  else if is_minikey H txt then from_minikey H txt
  else from_WIF H txt

/-- `private_key.public_key`, bitcoinx/bip32.py:123-126. -/
def public_key (L : Secp) (k : FlaggedPrivateKey) : Res (FlaggedPublicKey L) := do
  return { key := { point := (← k.key.public_key L).point, compressed := true, coin := k.key.coin },
           derivation := k.derivation }

/-- `serkey` in `private_key.child(n)`, bitcoinx/bip32.py:133-136. -/
def child_serkey (L : Secp) (k : FlaggedPrivateKey) (n : Int) : Res Bytes :=
  if n ≥ HARDENED then return 0 :: k.key.secret
  else do return (← k.public_key L).key.to_bytes

/-- `private_key.child(n)`, bitcoinx/bip32.py:128-142: `True` and `False` have no attribute `chain_code`. -/
def child (L : Secp) (k : FlaggedPrivateKey) (n : Int) : Res FlaggedPrivateKey :=
  if ¬ (0 ≤ n ∧ n < 2 ^ 32) then .error .valueError
  else do
    let _msg := (← k.child_serkey L n) ++ (← pack_be_uint32 n)
    .error .attributeError

/-- `private_key.to_extended_key_string()`, bitcoinx/bip32.py:168-170 and 98-100: `True` and `False` have no attribute
`extended_key`. -/
def to_extended_key_string (_k : FlaggedPrivateKey) : Res Str := .error .attributeError

end FlaggedPrivateKey

namespace FlaggedPublicKey

variable {L : Secp}

/-- `BIP32PublicKey(public_key, flag, coin)`, bitcoinx/bip32.py:185-189. -/
def new (point : L.Point) (flag : Bool) (coin : Coin) : FlaggedPublicKey L :=
  { key := { point, compressed := true, coin }, derivation := flag }

/-- `BIP32PublicKey(public_key, flag)`: one missing argument. -/
def missing (_point : L.Point) (_flag : Bool) : Res (FlaggedPublicKey L) := .error .typeError

/-- `BIP32PublicKey.from_bytes(data)`, bitcoinx/keys.py:382-389. -/
def from_bytes (L : Secp) (data : Bytes) : Res (FlaggedPublicKey L) :=
  match L.parse data with
  | none => .error .valueError
  | some point => missing point (data.length == 33)

/-- `BIP32PublicKey.from_hex(hex_str)`, bitcoinx/keys.py:420-422. -/
def from_hex (L : Secp) (hex_str : Str) : Res (FlaggedPublicKey L) := do from_bytes L (← fromhex hex_str)

/-- `BIP32PublicKey.from_point(x, y)`, bitcoinx/keys.py:432-436. -/
def from_point (L : Secp) (x y : Int) : Res (FlaggedPublicKey L) := do
  let x_bytes ← int_to_be_bytes x (some 32)
  let y_bytes ← int_to_be_bytes y (some 32)
  from_bytes L ([0x04] ++ x_bytes ++ y_bytes)

/-- `BIP32PublicKey.from_recoverable_signature(recoverable_sig, message, hasher)`, bitcoinx/keys.py:392-397. -/
def from_recoverable_signature (L : Secp) (recoverable_sig message : Bytes) (hasher : Option (Bytes → Bytes)) :
    Res (FlaggedPublicKey L) := do
  let msg_hash ← message_hash message hasher
  missing (← public_key_from_recoverable_signature L recoverable_sig msg_hash) true

/-- `BIP32PublicKey.from_signed_message(message_sig, message, hasher)`, bitcoinx/keys.py:400-413. -/
def from_signed_message (L : Secp) (message_sig message : Bytes) (hasher : Option (Bytes → Bytes)) :
    Res (FlaggedPublicKey L) :=
  match hasher with
  | none => .error .valueError
  | some hasher => do
    let message ← normalize_message message
    let recoverable_sig ← to_recoverable_signature message_sig
    from_recoverable_signature L recoverable_sig message (some hasher)

/-- `BIP32PublicKey.combine_keys(public_keys)` for a list, bitcoinx/keys.py:464-475. -/
def combine_keys (public_keys : List (PublicKey L)) : Res (FlaggedPublicKey L) :=
  match public_keys with
  | [] => .error .valueError
  | first :: _ =>
    match L.pubkey_combine (public_keys.map (·.point)) with
    | none => .error .valueError
    | some point => .ok (new point first.compressed first.coin)

/-- `BIP32PublicKey.verify_message_and_address(message_sig, message, address, hasher=hasher)`, bitcoinx/keys.py:492-512,
for a string. -/
def verify_message_and_address (H : Hashes) (L : Secp) (message_sig message : Bytes) (address : Str)
    (hasher : Option (Bytes → Bytes)) : Res Bool :=
  match from_signed_message L message_sig message hasher with
  | .error .invalidSignatureError => .ok false
  | .error e => .error e
  | .ok public_key => do
    let h := (← base58_decode_check H address).drop 1
    if ← public_key.key.verify_message message_sig message hasher then
      return h == public_key.key.hash160 H (some true) || h == public_key.key.hash160 H (some false)
    else return false

/-- `public_key.child(n)`, bitcoinx/bip32.py:195-204: `True` and `False` have no attribute `chain_code`. -/
def child (k : FlaggedPublicKey L) (n : Int) : Res (FlaggedPublicKey L) :=
  if ¬ (0 ≤ n ∧ n < HARDENED) then .error .valueError
  else do
    let _msg := k.key.to_bytes ++ (← pack_be_uint32 n)
    .error .attributeError

/-- `public_key.to_extended_key_string()`, bitcoinx/bip32.py:228-230 and 191-193: `True` and `False` have no attribute
`extended_key`. -/
def to_extended_key_string (_k : FlaggedPublicKey L) : Res Str := .error .attributeError

end FlaggedPublicKey

end Bitcoinx
