import Verif.Model.Bip32
import Verif.Model.Difficulty
import Verif.Model.Tx

/-! # Model of the printed forms: `__str__` and `__repr__`

Those of signatures and transactions (`attr`) are not modelled. -/

namespace Bitcoinx

/-- The text of a formatted string: its parts joined. -/
def fstring (parts : List Str) : Str := parts.flatten

/-- `f'{n:x}'`. -/
def hexInt (n : Int) : Str := if n < 0 then '-' :: Nat.toDigits 16 n.natAbs else Nat.toDigits 16 n.toNat

/-- `Header.__str__`, bitcoinx/coin.py:70-74. -/
def Header.str (h : Header) : Str :=
  fstring ["Header(version=0x".toList, hexInt h.version, ", prev_hash=".toList, hash_to_hex_str h.prev_hash,
    ", merkle_root=".toList, hash_to_hex_str h.merkle_root, ", timestamp=".toList, strInt h.timestamp,
    ", bits=0x".toList, strInt h.bits, ", nonce=".toList, strInt h.nonce, ", hash=".toList, h.hex_str,
    ", height=".toList, strInt h.height, ")".toList]

/-- `IncorrectBits.__str__`, bitcoinx/chain.py:66-67. -/
def IncorrectBits.str (header : Header) (required_bits : Int) : Str :=
  fstring ["header ".toList, header.str, " requires bits 0x".toList, strInt required_bits]

/-- `InsufficientPoW.__str__`, bitcoinx/chain.py:75-77. -/
def InsufficientPoW.str (header : Header) : Res Str := do
  return fstring ["header f".toList, header.str, " hash value f".toList, strNat header.hash_value,
    " exceeds its target ".toList, strNat (← header.target)]

/-- `TxInput.__repr__`, bitcoinx/tx.py:278-282, with `Script.__str__`, bitcoinx/script.py:346-348. -/
def TxInput.repr (i : TxInput) : Str :=
  fstring ["TxInput(prev_hash=\"".toList, hash_to_hex_str i.prev_hash, "\", prev_idx=".toList, strInt i.prev_idx,
    ", script_sig=\"".toList, hex i.script_sig, "\", sequence=".toList, strInt i.sequence, ")".toList]

/-- `TxOutput.__repr__`, bitcoinx/tx.py:330-333, with `Script.__str__`, bitcoinx/script.py:346-348. -/
def TxOutput.repr (o : TxOutput) : Str :=
  fstring ["TxOutput(value=".toList, strInt o.value, ", script_pubkey=\"".toList, hex o.script_pubkey, "\")".toList]

/-- `BIP32Derivation.__repr__`, bitcoinx/bip32.py:80-83. -/
def BIP32Derivation.repr (d : BIP32Derivation) : Str :=
  fstring ["BIP32Derivation(chain_code=bytes.fromhex(\"".toList, hex d.chain_code, "\"), n=".toList, strInt d.n,
    ", depth=".toList, strInt d.depth, ", parent_fingerprint=bytes.fromhex(\"".toList, hex d.parent_fingerprint,
    "\"))".toList]

/-- `PrivateKey.__str__`, bitcoinx/keys.py:129-132. -/
def PrivateKey.str (H : Hashes) (k : PrivateKey) : Str := hex (H.sha256 k.secret)

/-- `PublicKey.__str__`, bitcoinx/keys.py:358-359. -/
def PublicKey.str {L : Secp} (k : PublicKey L) : Str := k.to_hex

/-- `BIP32PrivateKey.__str__`, inherited: bitcoinx/keys.py:129-132. -/
def BIP32PrivateKey.str (H : Hashes) (k : BIP32PrivateKey) : Str := k.key.str H

/-- `BIP32PrivateKey.__repr__`, bitcoinx/bip32.py:172-173. -/
def BIP32PrivateKey.repr (H : Hashes) (k : BIP32PrivateKey) : Str :=
  fstring ["BIP32PrivateKey(\"".toList, k.str H, "\")".toList]

/-- `BIP32PublicKey.__str__`, bitcoinx/bip32.py:232-233. -/
def BIP32PublicKey.str (H : Hashes) {L : Secp} (k : BIP32PublicKey L) : Res Str := k.to_extended_key_string H

/-- `BIP32PublicKey.__repr__`, bitcoinx/bip32.py:235-236. -/
def BIP32PublicKey.repr (H : Hashes) {L : Secp} (k : BIP32PublicKey L) : Res Str := do
  return fstring ["BIP32PublicKey(\"".toList, ← k.to_extended_key_string H, "\")".toList]

end Bitcoinx
