import Verif.Model.Secp
import Verif.Model.Packing
import Verif.Model.Text

/-! # Model of `bitcoinx/signature.py` -/

namespace Bitcoinx

/-- `MISSING_SIG_BYTES`, bitcoinx/signature.py:45. -/
def MISSING_SIG_BYTES : Bytes := [0xff]

/-- `_cdata_recsig(recoverable_sig)`, bitcoinx/signature.py:52-62: the compact signature and the
recovery id. -/
def cdata_recsig (recoverable_sig : Bytes) : Res (Bytes × Nat) :=
  if recoverable_sig.length ≠ 65 then .error .invalidSignatureError
  else
    let recid := (recoverable_sig.getLastD 0).toNat
    if ¬ recid ≤ 3 then .error .invalidSignatureError
    else match Secp.parse_compact (recoverable_sig.take 64) with
      | none => .error .invalidSignatureError
      | some s => .ok (s, recid)

/-- `public_key_from_recoverable_signature(recoverable_sig, msg_hash)`,
bitcoinx/signature.py:65-70. -/
def public_key_from_recoverable_signature (L : Secp) (recoverable_sig msg_hash : Bytes) :
    Res L.Point := do
  let (s, recid) ← cdata_recsig recoverable_sig
  match L.recover s recid msg_hash with
  | none => .error .invalidSignatureError
  | some p => return p

/-- `_der_signature_to_cdata(der_sig)`, bitcoinx/signature.py:83-87, with
`secp256k1_ecdsa_signature_serialize_compact`. -/
def der_signature_to_cdata (L : Secp) (der_sig : Bytes) : Res Bytes :=
  match L.parse_der der_sig with
  | none => .error .invalidSignatureError
  | some s => .ok s

/-- `der_signature_to_compact(der_sig)`, bitcoinx/signature.py:90-95. -/
def der_signature_to_compact (L : Secp) (der_sig : Bytes) : Res Bytes := der_signature_to_cdata L der_sig

/-- `compact_signature_to_der(compact_sig)`, bitcoinx/signature.py:98-103.  The result of
`secp256k1_ecdsa_signature_parse_compact` is ignored; on failure the library clears the signature. -/
def compact_signature_to_der (L : Secp) (compact_sig : Bytes) : Res Bytes :=
  if compact_sig.length ≠ 64 then .error .invalidSignatureError
  else .ok (L.serialize_der ((Secp.parse_compact compact_sig).getD (zeros 64)))

/-- `sign_der(msg_hash, secret)`, bitcoinx/signature.py:106-110; the secrets passed to it are
valid. -/
def sign_der (L : Secp) (msg_hash secret : Bytes) : Bytes := L.serialize_der (L.sign msg_hash secret)

/-- `sign_recoverable(msg_hash, secret)`, bitcoinx/signature.py:113-131; the secrets passed to it are
valid. -/
def sign_recoverable (L : Secp) (msg_hash secret : Bytes) : Bytes :=
  let r := L.sign_recoverable msg_hash secret
  r.1 ++ [UInt8.ofNat r.2]

/-- `verify_recoverable_signature(recoverable_sig, msg_hash, public_key)`,
bitcoinx/signature.py:134-140. -/
def verify_recoverable_signature (L : Secp) (recoverable_sig msg_hash : Bytes) (p : L.Point) : Res Bool := do
  let (s, _) ← cdata_recsig recoverable_sig
  return L.verify s msg_hash p

/-- `verify_der_signature(der_sig, msg_hash, public_key)`, bitcoinx/signature.py:143-146. -/
def verify_der_signature (L : Secp) (der_sig msg_hash : Bytes) (p : L.Point) : Res Bool := do
  let s ← der_signature_to_cdata L der_sig
  return L.verify s msg_hash p

/-- `to_recoverable_signature(message_sig)` for `bytes`, bitcoinx/signature.py:156-160. -/
def to_recoverable_signature (message_sig : Bytes) : Res Bytes :=
  if message_sig.length ≠ 65 then .error .invalidSignatureError
  else
    let lead := (message_sig.headD 0).toNat
    if ¬ (27 ≤ lead ∧ lead < 35) then .error .invalidSignatureError
    else do return message_sig.drop 1 ++ (← pack_byte ((lead - 27) &&& 3 : Nat))

/-- `to_message_signature(recoverable_sig, compressed)`, bitcoinx/signature.py:163-165. -/
def to_message_signature (recoverable_sig : Bytes) (compressed : Bool) : Res Bytes :=
  match recoverable_sig.getLast? with
  | none => .error .indexError
  | some recid => do
    return (← pack_byte (27 + (if compressed then 4 else 0) + recid.toNat : Nat)) ++ recoverable_sig.take 64

namespace SigHash

/-- bitcoinx/signature.py:265. -/
def ALL : Nat := 0x01
/-- bitcoinx/signature.py:266. -/
def NONE : Nat := 0x02
/-- bitcoinx/signature.py:267. -/
def SINGLE : Nat := 0x03
/-- bitcoinx/signature.py:268. -/
def FORKID : Nat := 0x40
/-- bitcoinx/signature.py:269. -/
def ANYONE_CAN_PAY : Nat := 0x80

/-- `SigHash.base`, bitcoinx/signature.py:170-172.  Simplification: a `SigHash` is not negative. -/
def base (sighash : Nat) : Nat := sighash &&& 0x1f

/-- `SigHash.anyone_can_pay`, bitcoinx/signature.py:174-177. -/
def anyone_can_pay (sighash : Nat) : Bool := (sighash &&& ANYONE_CAN_PAY) != 0

/-- `f'{n:x}'`. -/
def hexNat (n : Nat) : Str := Nat.toDigits 16 n

/-- `f'{n:02x}'`. -/
def hexNat02 (n : Nat) : Str := List.replicate (2 - (hexNat n).length) '0' ++ hexNat n

/-- `SigHash.to_string()`, bitcoinx/signature.py:179-190.  The value `self & ~m` is what remains
after clearing the bits of `m`. -/
def to_string (sighash : Nat) : Str :=
  let kinds : List Str :=
    if sighash &&& 3 ≠ 0 then
      [(["ALL".toList, "NONE".toList, "SINGLE".toList] : List Str).getD ((sighash &&& 3) - 1) []]
    else []
  let kinds := kinds ++ if sighash &&& ANYONE_CAN_PAY ≠ 0 then ["ANYONE_CAN_PAY".toList] else []
  let kinds := kinds ++ if sighash &&& FORKID ≠ 0 then ["FORKID".toList] else []
  let residual := sighash - (sighash &&& (ANYONE_CAN_PAY ||| FORKID ||| 3))
  let kinds := kinds ++ if residual ≠ 0 then ["0x".toList ++ hexNat02 residual] else []
  joinStr ['|'] kinds

end SigHash

namespace Signature

/-- `Signature(raw)`, bitcoinx/signature.py:196-203: the raw bytes if they are acceptable. -/
def new (L : Secp) (raw : Bytes) : Res Bytes :=
  if raw = MISSING_SIG_BYTES then .ok raw
  else do
    let _ ← der_signature_to_compact L (dropEnd raw 1)
    return raw

/-- `Signature.from_der_sig(der_sig, sighash)`, bitcoinx/signature.py:222-224. -/
def from_der_sig (L : Secp) (der_sig : Bytes) (sighash : Int) : Res Bytes := do
  new L (der_sig ++ (← pack_byte sighash))

/-- `Signature.der_signature`, bitcoinx/signature.py:251-255. -/
def der_signature (raw : Bytes) : Res Bytes :=
  if raw = MISSING_SIG_BYTES then .error .invalidSignatureError else .ok (dropEnd raw 1)

/-- `Signature.sighash`, bitcoinx/signature.py:257-261; a valid signature is not empty. -/
def sighash (raw : Bytes) : Res Nat :=
  if raw = MISSING_SIG_BYTES then .error .invalidSignatureError
  else match raw.getLast? with
    | none => .error .indexError
    | some b => .ok b.toNat

/-- `Signature.to_compact()`, bitcoinx/signature.py:235-237. -/
def to_compact (L : Secp) (raw : Bytes) : Res Bytes := do der_signature_to_compact L (← der_signature raw)

/-- `Signature.from_hex(hex_str)`, bitcoinx/signature.py:213-216. -/
def from_hex (L : Secp) (hex_str : Str) : Res Bytes := do new L (← fromhex hex_str)

/-- `Signature.to_hex()`, bitcoinx/signature.py:218-220. -/
def to_hex (raw : Bytes) : Str := hex raw

/-- `Signature.is_present()`, bitcoinx/signature.py:232-233. -/
def is_present (raw : Bytes) : Bool := raw != MISSING_SIG_BYTES

/-- `Signature.r_value()`, bitcoinx/signature.py:239-241. -/
def r_value (L : Secp) (raw : Bytes) : Res Nat := do return be_bytes_to_int ((← to_compact L raw).take 32)

/-- `Signature.s_value()`, bitcoinx/signature.py:243-245. -/
def s_value (L : Secp) (raw : Bytes) : Res Nat := do return be_bytes_to_int ((← to_compact L raw).drop 32)

/-- `Signature.to_string()`, bitcoinx/signature.py:247-249. -/
def to_string (raw : Bytes) : Str :=
  hex (dropEnd raw 1) ++ ['['] ++ SigHash.to_string (raw.getLastD 0).toNat ++ [']']

end Signature

end Bitcoinx
