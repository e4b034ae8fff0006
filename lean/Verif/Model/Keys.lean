import Verif.Model.Aes
import Verif.Model.Base58
import Verif.Model.Coin
import Verif.Model.Signature

/-! # Model of `bitcoinx/keys.py`

Messages, signatures and tweaks are `bytes`.  Not modelled: messages given as `str`, which are UTF-8
encoded first; arguments of a wrong type (`TypeError`).  The base64 forms of messages and
signatures are in `Verif.Model.Base64`, `__hash__` in `Verif.Model.Objects`, `__str__` in
`Verif.Model.Display`, the methods that make addresses and scripts in `Verif.Model.Address`. -/

namespace Bitcoinx

/-- `KEY_SIZE`, bitcoinx/keys.py:52. -/
def KEY_SIZE : Nat := 32

/-- `SIGNED_MESSAGE_PREFIX`, bitcoinx/keys.py:56: the text with its length before it. -/
def SIGNED_MESSAGE_PREFIX : Bytes := 24 :: utf8 "Bitcoin Signed Message:\n".toList

/-- `_to_32_bytes(value)`, bitcoinx/keys.py:63-68. -/
def to_32_bytes (value : Bytes) : Res Bytes :=
  if value.length ≠ 32 then .error .valueError else .ok value

/-- `_message_hash(message, hasher)`, bitcoinx/keys.py:71-75. -/
def message_hash (message : Bytes) (hasher : Option (Bytes → Bytes)) : Res Bytes :=
  let msg_hash := match hasher with
    | some hasher => hasher message
    | none => message
  if msg_hash.length ≠ 32 then .error .valueError else .ok msg_hash

/-- `_normalize_message(message)`, bitcoinx/keys.py:78-81. -/
def normalize_message (message : Bytes) : Res Bytes := do
  return SIGNED_MESSAGE_PREFIX ++ (← pack_varbytes message)

/-- A `PrivateKey` object, bitcoinx/keys.py:86-108. -/
structure PrivateKey where
  secret : Bytes
  compressed : Bool
  coin : Coin

/-- A `PublicKey` object, bitcoinx/keys.py:329-345. -/
structure PublicKey (L : Secp) where
  point : L.Point
  compressed : Bool
  coin : Coin

namespace PublicKey

variable {L : Secp}

/-- `public_key.to_bytes(compressed=compressed)`, bitcoinx/keys.py:369-379; `none` is the default. -/
def to_bytes (k : PublicKey L) (compressed : Option Bool := none) : Bytes :=
  L.serialize (compressed.getD k.compressed) k.point

/-- `public_key == other`, bitcoinx/keys.py:349-352. -/
def eq (k other : PublicKey L) : Bool := k.to_bytes (some true) == other.to_bytes (some true)

/-- `PublicKey.from_bytes(data)`, bitcoinx/keys.py:382-389. -/
def from_bytes (L : Secp) (data : Bytes) : Res (PublicKey L) :=
  match L.parse data with
  | none => .error .valueError
  | some point => .ok { point, compressed := data.length == 33, coin := Bitcoin }

/-- `public_key.to_hex(compressed=compressed)`, bitcoinx/keys.py:415-417. -/
def to_hex (k : PublicKey L) (compressed : Option Bool := none) : Str := hex (k.to_bytes compressed)

/-- `PublicKey.from_hex(hex_str)`, bitcoinx/keys.py:420-422. -/
def from_hex (L : Secp) (hex_str : Str) : Res (PublicKey L) := do from_bytes L (← fromhex hex_str)

/-- `PublicKey.from_recoverable_signature(recoverable_sig, message, hasher)`,
bitcoinx/keys.py:392-397. -/
def from_recoverable_signature (L : Secp) (recoverable_sig message : Bytes)
    (hasher : Option (Bytes → Bytes)) : Res (PublicKey L) := do
  let msg_hash ← message_hash message hasher
  let point ← public_key_from_recoverable_signature L recoverable_sig msg_hash
  return { point, compressed := true, coin := Bitcoin }

/-- `PublicKey.from_signed_message(message_sig, message, hasher)`, bitcoinx/keys.py:400-413. -/
def from_signed_message (L : Secp) (message_sig message : Bytes) (hasher : Option (Bytes → Bytes)) :
    Res (PublicKey L) :=
  match hasher with
  | none => .error .valueError
  | some hasher => do
    let message ← normalize_message message
    let recoverable_sig ← to_recoverable_signature message_sig
    from_recoverable_signature L recoverable_sig message (some hasher)

/-- `public_key.to_point()`, bitcoinx/keys.py:424-429. -/
def to_point (k : PublicKey L) : Nat × Nat :=
  let data := k.to_bytes (some false)
  (be_bytes_to_int (slice data 1 33), be_bytes_to_int (data.drop 33))

/-- `PublicKey.from_point(x, y)`, bitcoinx/keys.py:432-436. -/
def from_point (L : Secp) (x y : Int) : Res (PublicKey L) := do
  let x_bytes ← int_to_be_bytes x (some 32)
  let y_bytes ← int_to_be_bytes y (some 32)
  from_bytes L ([0x04] ++ x_bytes ++ y_bytes)

/-- `public_key.add(value)`, bitcoinx/keys.py:443-450. -/
def add (k : PublicKey L) (value : Bytes) : Res (PublicKey L) := do
  let value ← to_32_bytes value
  match L.pubkey_tweak_add k.point value with
  | none => .error .valueError
  | some point => return { k with point }

/-- `public_key.multiply(value)`, bitcoinx/keys.py:452-461. -/
def multiply (k : PublicKey L) (value : Bytes) : Res (PublicKey L) := do
  let value ← to_32_bytes value
  match L.pubkey_tweak_mul k.point value with
  | none => .error .valueError
  | some point => return { k with point }

/-- `PublicKey.combine_keys(public_keys)` for a list, bitcoinx/keys.py:464-475. -/
def combine_keys (public_keys : List (PublicKey L)) : Res (PublicKey L) :=
  match public_keys with
  | [] => .error .valueError
  | first :: _ =>
    match L.pubkey_combine (public_keys.map (·.point)) with
    | none => .error .valueError
    | some point => .ok { point, compressed := first.compressed, coin := first.coin }

/-- `public_key.verify_der_signature(der_sig, message, hasher)`, bitcoinx/keys.py:514-517. -/
def verify_der_signature (k : PublicKey L) (der_sig message : Bytes) (hasher : Option (Bytes → Bytes)) :
    Res Bool := do
  let msg_hash ← message_hash message hasher
  Bitcoinx.verify_der_signature L der_sig msg_hash k.point

/-- `public_key.verify_recoverable_signature(recoverable_sig, message, hasher)`,
bitcoinx/keys.py:519-522. -/
def verify_recoverable_signature (k : PublicKey L) (recoverable_sig message : Bytes)
    (hasher : Option (Bytes → Bytes)) : Res Bool := do
  let msg_hash ← message_hash message hasher
  Bitcoinx.verify_recoverable_signature L recoverable_sig msg_hash k.point

/-- `public_key.verify_message(message_sig, message, hasher)`, bitcoinx/keys.py:477-490. -/
def verify_message (k : PublicKey L) (message_sig message : Bytes) (hasher : Option (Bytes → Bytes)) :
    Res Bool :=
  match hasher with
  | none => .error .valueError
  | some hasher => do
    let message ← normalize_message message
    let recoverable_sig ← to_recoverable_signature message_sig
    k.verify_recoverable_signature recoverable_sig message (some hasher)

/-- `public_key.hash160(compressed=compressed)`, bitcoinx/keys.py:544-546. -/
def hash160 (H : Hashes) (k : PublicKey L) (compressed : Option Bool := none) : Bytes :=
  H.hash160 (k.to_bytes compressed)

/-- The end of `verify_message_and_address`, bitcoinx/keys.py:500-503 and 510-512, given how to get
the hash160 from the address, bitcoinx/keys.py:504-509. -/
def verify_message_and_hash160 (H : Hashes) (L : Secp) (message_sig message : Bytes)
    (get_hash160 : Res Bytes) (hasher : Option (Bytes → Bytes)) : Res Bool :=
  match from_signed_message L message_sig message hasher with
  | .error .invalidSignatureError => .ok false
  | .error e => .error e
  | .ok public_key => do
    let h ← get_hash160
    if ← public_key.verify_message message_sig message hasher then
      return h == public_key.hash160 H (some true) || h == public_key.hash160 H (some false)
    else return false

/-- `public_key.complement()`, bitcoinx/keys.py:548-550. -/
def complement (k : PublicKey L) : PublicKey L := { k with compressed := !k.compressed }

end PublicKey

namespace PrivateKey

/-- `PrivateKey(secret, compressed, coin)`, bitcoinx/keys.py:86-108, for `bytes`. -/
def new (secret : Bytes) (compressed : Bool := true) (coin : Coin := Bitcoin) : Res PrivateKey :=
  if secret.length ≠ KEY_SIZE then .error .valueError
  else if ¬ Secp.seckey_verify secret then .error .valueError
  else .ok { secret, compressed, coin }

/-- `private_key == other`, bitcoinx/keys.py:121-123. -/
def eq (k other : PrivateKey) : Bool := k.secret == other.secret

/-- `private_key.public_key`, bitcoinx/keys.py:110-117 and 142-145. -/
def public_key (L : Secp) (k : PrivateKey) : Res (PublicKey L) :=
  match L.pubkey_create k.secret with
  | none => .error .runtimeError
  | some point => .ok { point, compressed := k.compressed, coin := k.coin }

/-- `private_key.to_int()`, bitcoinx/keys.py:147-149. -/
def to_int (k : PrivateKey) : Nat := be_bytes_to_int k.secret

/-- `private_key.to_hex()`, bitcoinx/keys.py:151-153. -/
def to_hex (k : PrivateKey) : Str := hex k.secret

/-- `PrivateKey.from_int(value)`, bitcoinx/keys.py:160-162. -/
def from_int (value : Int) : Res PrivateKey := do new (← int_to_be_bytes value (some 32))

/-- `PrivateKey.from_arbitrary_bytes(secret)`, bitcoinx/keys.py:165-166. -/
def from_arbitrary_bytes (secret : Bytes) : Res PrivateKey :=
  from_int (be_bytes_to_int secret % CURVE_ORDER : Nat)

/-- `PrivateKey.from_hex(hex_str)`, bitcoinx/keys.py:169-173. -/
def from_hex (hex_str : Str) : Res PrivateKey := do new (← fromhex hex_str)

/-- `PrivateKey.from_minikey(minikey)`, bitcoinx/keys.py:176-182. -/
def from_minikey (H : Hashes) (minikey : Str) : Res PrivateKey :=
  if ¬ is_minikey H minikey then .error .valueError
  else new (H.sha256 (utf8 minikey)) false

/-- `PrivateKey.from_random(source=source)`, bitcoinx/keys.py:185-191, given what successive calls of
`source(32)` return: the key and the draws left, or nothing if the draws run out first. -/
def from_random : List Bytes → Res (Option (PrivateKey × List Bytes))
  | [] => .ok none
  | draw :: draws =>
    match new draw true with
    | .ok k => .ok (some (k, draws))
    | .error e => if e.isValueError then from_random draws else .error e

/-- `PrivateKey.from_WIF(txt)`, bitcoinx/keys.py:194-199. -/
def from_WIF (H : Hashes) (txt : Str) : Res PrivateKey := do
  let raw ← base58_decode_check H txt
  if raw.length = 33 ∨ (raw.length = 34 ∧ raw.getLastD 0 = 0x01) then do
    let coin ← Coin.from_WIF_byte (raw.headD 0)
    new (slice raw 1 33) (raw.length == 34) coin
  else .error .valueError

/-- `PrivateKey.from_text(txt)`, bitcoinx/keys.py:202-208. -/
def from_text (H : Hashes) (txt : Str) : Res PrivateKey :=
  if txt.length = 64 then from_hex txt
  else if is_minikey H txt then from_minikey H txt
  else from_WIF H txt

/-- `private_key.to_WIF(compressed=compressed, coin=coin)`, bitcoinx/keys.py:210-220. -/
def to_WIF (H : Hashes) (k : PrivateKey) (compressed : Option Bool := none) (coin : Option Coin := none) :
    Res Str := do
  let coin := coin.getD k.coin
  let payload := (← pack_byte coin.WIF_byte.toNat) ++ k.secret
  if compressed.getD k.compressed then
    return base58_encode_check H (payload ++ (← pack_byte 0x01))
  else return base58_encode_check H payload

/-- `private_key.add(value)`, bitcoinx/keys.py:222-227. -/
def add (k : PrivateKey) (value : Bytes) : Res PrivateKey := do
  let value ← to_32_bytes value
  match Secp.privkey_tweak_add k.secret value with
  | none => .error .valueError
  | some secret => return { k with secret }

/-- `private_key.multiply(value)`, bitcoinx/keys.py:229-234. -/
def multiply (k : PrivateKey) (value : Bytes) : Res PrivateKey := do
  let value ← to_32_bytes value
  match Secp.privkey_tweak_mul k.secret value with
  | none => .error .valueError
  | some secret => return { k with secret }

/-- `private_key.sign(message, hasher)`, bitcoinx/keys.py:236-242. -/
def sign (L : Secp) (k : PrivateKey) (message : Bytes) (hasher : Option (Bytes → Bytes)) : Res Bytes := do
  let msg_hash ← message_hash message hasher
  return sign_der L msg_hash k.secret

/-- `private_key.sign_recoverable(message, hasher)`, bitcoinx/keys.py:244-252. -/
def sign_recoverable (L : Secp) (k : PrivateKey) (message : Bytes) (hasher : Option (Bytes → Bytes)) :
    Res Bytes := do
  let msg_hash ← message_hash message hasher
  return Bitcoinx.sign_recoverable L msg_hash k.secret

/-- `private_key.sign_message(message, hasher)`, bitcoinx/keys.py:254-270. -/
def sign_message (L : Secp) (k : PrivateKey) (message : Bytes) (hasher : Option (Bytes → Bytes)) :
    Res Bytes :=
  match hasher with
  | none => .error .valueError
  | some hasher => do
    let message ← normalize_message message
    let recoverable_sig ← k.sign_recoverable L message (some hasher)
    to_message_signature recoverable_sig k.compressed

variable {L : Secp}

/-- `private_key.shared_secret(public_key, message, hasher)`, bitcoinx/keys.py:276-285. -/
def shared_secret (k : PrivateKey) (public_key : PublicKey L) (message : Bytes)
    (hasher : Option (Bytes → Bytes)) : Res (PublicKey L) := do
  let deterministic_key ← message_hash message hasher
  let private_key2 ← k.add deterministic_key
  let public_key2 ← public_key.add deterministic_key
  public_key2.multiply private_key2.secret

/-- `private_key.ecdh_shared_secret(public_key)`, bitcoinx/keys.py:287-293. -/
def ecdh_shared_secret (k : PrivateKey) (public_key : PublicKey L) : Res (PublicKey L) :=
  public_key.multiply k.secret

end PrivateKey

/-- The split of the hashed shared secret, bitcoinx/keys.py:316 and 534. -/
def ecies_keys (key : Bytes) : Bytes × Bytes × Bytes := (slice key 0 16, slice key 16 32, key.drop 32)

/-- `private_key.decrypt_message(message, magic)` for `bytes`, bitcoinx/keys.py:295-324. -/
def PrivateKey.decrypt_message (H : Hashes) (L : Secp) (E : Cipher) (k : PrivateKey)
    (message magic : Bytes) : Res Bytes :=
  let mlen := magic.length
  if message.length < 81 + mlen then .error .decryptionError
  else if ¬ magic.isPrefixOf message then .error .decryptionError
  else match PublicKey.from_bytes L (slice message mlen (mlen + 33)) with
    | .error e => if e.isValueError then .error .decryptionError else .error e
    | .ok ephemeral_pubkey => do
      let ciphertext := dropEnd (message.drop (mlen + 33)) 32
      let hmac := lastN message 32
      let shared ← k.ecdh_shared_secret ephemeral_pubkey
      let (iv, key_e, key_m) := ecies_keys (H.sha512 shared.to_bytes)
      if H.hmac_sha256 key_m (dropEnd message 32) ≠ hmac then .error .decryptionError
      else match aes_decrypt_with_iv E key_e iv ciphertext with
        | .ok data => return data
        | .error _ => .error .decryptionError

/-- `public_key.encrypt_message(message, magic)` for `bytes`, bitcoinx/keys.py:524-538, given the
ephemeral key that `PrivateKey.from_random()` returned. -/
def PublicKey.encrypt_message (H : Hashes) {L : Secp} (E : Cipher) (k : PublicKey L)
    (ephemeral_key : PrivateKey) (message magic : Bytes) : Res Bytes := do
  let shared ← ephemeral_key.ecdh_shared_secret k
  let (iv, key_e, key_m) := ecies_keys (H.sha512 (shared.to_bytes (some true)))
  let ciphertext := aes_encrypt_with_iv E key_e iv message
  let ephemeral_public_key ← ephemeral_key.public_key L
  let encrypted_data := magic ++ ephemeral_public_key.to_bytes ++ ciphertext
  return encrypted_data ++ H.hmac_sha256 key_m encrypted_data

end Bitcoinx
