import Verif.Model.Keys

/-! # Model of the base64 forms of message signatures and encrypted messages

`bitcoinx/signature.py` and `bitcoinx/keys.py`, with `b64encode` and `b64decode` of the standard
library. -/

namespace Bitcoinx

/-- The table of `binascii`. -/
def BASE64 : Str := "ABCDEFGHIJKLMNOPQRSTUVWXYZabcdefghijklmnopqrstuvwxyz0123456789+/".toList

/-- The character for a digit. -/
def b64char (d : Nat) : Char := BASE64.getD d '='

/-- `b64encode(data).decode()`.  Simplification: bytes are taken three at a time, as the loop of
`binascii.b2a_base64` amounts to. -/
def b64encode : Bytes → Str
  | a :: b :: c :: rest =>
    b64char (a.toNat / 4) :: b64char (a.toNat % 4 * 16 + b.toNat / 16) ::
      b64char (b.toNat % 16 * 4 + c.toNat / 64) :: b64char (c.toNat % 64) :: b64encode rest
  | [a, b] =>
    [b64char (a.toNat / 4), b64char (a.toNat % 4 * 16 + b.toNat / 16), b64char (b.toNat % 16 * 4), '=']
  | [a] => [b64char (a.toNat / 4), b64char (a.toNat % 4 * 16), '=', '=']
  | [] => []

/-- The bytes that `binascii.a2b_base64` makes of digits, four at a time; the bits left over at the end
are not looked at. -/
def a2bDigits : Bytes → Bytes
  | a :: b :: c :: d :: rest =>
    UInt8.ofNat (a.toNat * 4 + b.toNat / 16) :: UInt8.ofNat (b.toNat % 16 * 16 + c.toNat / 4) ::
      UInt8.ofNat (c.toNat % 4 * 64 + d.toNat) :: a2bDigits rest
  | [a, b, c] => [UInt8.ofNat (a.toNat * 4 + b.toNat / 16), UInt8.ofNat (b.toNat % 16 * 16 + c.toNat / 4)]
  | [a, b] => [UInt8.ofNat (a.toNat * 4 + b.toNat / 16)]
  | _ => []

/-- What differs between the versions of the standard library: `excess n extra` tells whether
`b64decode(text, validate=True)` accepts `extra` (at least one) more `=` than needed after `n` digits. -/
structure PyBase64 where
  excess : Nat → Nat → Bool

/-- Python 3.7 to 3.10: a regular expression allows two `=` at most. -/
def base64_37 : PyBase64 where
  excess n extra := extra + (4 - n % 4) % 4 ≤ 2

/-- Python 3.11: any number after a multiple of four digits, other than none. -/
def base64_311 : PyBase64 where
  excess n _ := n % 4 = 0 && n ≠ 0

/-- No excess. -/
def base64_strict : PyBase64 where
  excess _ _ := false

/-- `b64decode(text, validate=True)` for a `str`.  A plain `ValueError` is raised for text that is not
ASCII, `binascii.Error` otherwise. -/
def b64decode (P : PyBase64) (text : Str) : Res Bytes :=
  if text.any (fun c => decide (128 ≤ c.toNat)) then .error .valueError
  else
    let digits := text.takeWhile (fun c => decide (c ∈ BASE64))
    let pads := text.dropWhile (fun c => decide (c ∈ BASE64))
    let need := (4 - digits.length % 4) % 4
    if ¬ pads.all (fun c => decide (c = '=')) then .error .binasciiError
    else if digits.length % 4 = 1 then .error .binasciiError
    else if pads.length < need then .error .binasciiError
    else if need < pads.length ∧ ¬ P.excess digits.length (pads.length - need) then .error .binasciiError
    else .ok (a2bDigits (digits.map (fun c => UInt8.ofNat (BASE64.idxOf c))))

/-- The `try` around `b64decode`, bitcoinx/signature.py:152-155 and bitcoinx/keys.py:298-301. -/
def b64decodeOr (P : PyBase64) (err : Err) (text : Str) : Res Bytes :=
  match b64decode P text with
  | .error .binasciiError => .error err
  | r => r

/-- `to_recoverable_signature(message_sig)` for a `str`, bitcoinx/signature.py:149-160. -/
def to_recoverable_signature_text (P : PyBase64) (message_sig : Str) : Res Bytes := do
  to_recoverable_signature (← b64decodeOr P .invalidSignatureError message_sig)

/-- `private_key.sign_message_to_base64(message, hasher)`, bitcoinx/keys.py:272-274. -/
def PrivateKey.sign_message_to_base64 (L : Secp) (k : PrivateKey) (message : Bytes)
    (hasher : Option (Bytes → Bytes)) : Res Str := do
  return b64encode (← k.sign_message L message hasher)

namespace PublicKey

variable {L : Secp}

/-- `PublicKey.from_signed_message(message_sig, message, hasher)` for a signature that is a `str`,
bitcoinx/keys.py:400-413. -/
def from_signed_message_text (P : PyBase64) (L : Secp) (message_sig : Str) (message : Bytes)
    (hasher : Option (Bytes → Bytes)) : Res (PublicKey L) :=
  match hasher with
  | none => .error .valueError
  | some hasher => do
    let message ← normalize_message message
    let recoverable_sig ← to_recoverable_signature_text P message_sig
    from_recoverable_signature L recoverable_sig message (some hasher)

/-- `public_key.verify_message(message_sig, message, hasher)` for a signature that is a `str`,
bitcoinx/keys.py:477-490. -/
def verify_message_text (P : PyBase64) (k : PublicKey L) (message_sig : Str) (message : Bytes)
    (hasher : Option (Bytes → Bytes)) : Res Bool :=
  match hasher with
  | none => .error .valueError
  | some hasher => do
    let message ← normalize_message message
    let recoverable_sig ← to_recoverable_signature_text P message_sig
    k.verify_recoverable_signature recoverable_sig message (some hasher)

/-- `verify_message_and_address` for a signature that is a `str`, bitcoinx/keys.py:492-512, given how
to get the hash160 from the address. -/
def verify_message_and_hash160_text (P : PyBase64) (H : Hashes) (L : Secp) (message_sig : Str)
    (message : Bytes) (get_hash160 : Res Bytes) (hasher : Option (Bytes → Bytes)) : Res Bool :=
  match from_signed_message_text P L message_sig message hasher with
  | .error .invalidSignatureError => .ok false
  | .error e => .error e
  | .ok public_key => do
    let h ← get_hash160
    if ← public_key.verify_message_text P message_sig message hasher then
      return h == public_key.hash160 H (some true) || h == public_key.hash160 H (some false)
    else return false

/-- `public_key.encrypt_message_to_base64(message, magic)`, bitcoinx/keys.py:540-542, given the
ephemeral key. -/
def encrypt_message_to_base64 (H : Hashes) (E : Cipher) (k : PublicKey L) (ephemeral_key : PrivateKey)
    (message magic : Bytes) : Res Str := do
  return b64encode (← k.encrypt_message H E ephemeral_key message magic)

end PublicKey

/-- `private_key.decrypt_message(message, magic)` for a `str`, bitcoinx/keys.py:295-324. -/
def PrivateKey.decrypt_message_text (P : PyBase64) (H : Hashes) (L : Secp) (E : Cipher) (k : PrivateKey)
    (message : Str) (magic : Bytes) : Res Bytes := do
  k.decrypt_message H L E (← b64decodeOr P .decryptionError message) magic

end Bitcoinx
