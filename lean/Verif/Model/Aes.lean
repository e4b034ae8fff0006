import Verif.Model.Misc

/-! # Model of `bitcoinx/aes.py`

The block cipher in CBC mode comes from `Cryptodome` or `pyaes`, which are not part of /repo; it is a
parameter.  Both are taken to compute the same function. -/

namespace Bitcoinx

/-- AES in CBC mode without padding: `encrypt key iv data` and `decrypt key iv data`, on whole blocks
and for keys and initialization vectors of 16 bytes.  What `decrypt` does otherwise, including raising
any exception, is not restricted. -/
structure Cipher where
  encrypt : Bytes → Bytes → Bytes → Bytes
  decrypt : Bytes → Bytes → Bytes → Res Bytes
  encrypt_length : ∀ key iv data, key.length = 16 → iv.length = 16 → data.length % 16 = 0 →
    (encrypt key iv data).length = data.length
  decrypt_encrypt : ∀ key iv data, key.length = 16 → iv.length = 16 → data.length % 16 = 0 →
    decrypt key iv (encrypt key iv data) = .ok data

/-- A cipher that encrypts nothing; it refuses what is not a whole number of blocks. -/
def toyCipher : Cipher where
  encrypt _ _ data := data
  decrypt _ _ data := if data.length % 16 = 0 then .ok data else .error .valueError
  encrypt_length _ _ _ _ _ _ := rfl
  decrypt_encrypt _ _ _ _ _ h := if_pos h

/-- `_append_PKCS7_padding(data)`, bitcoinx/aes.py:47-49. -/
def append_PKCS7_padding (data : Bytes) : Bytes :=
  let padlen := 16 - data.length % 16
  data ++ List.replicate padlen (UInt8.ofNat padlen)

/-- `_strip_PKCS7_padding(data)`, bitcoinx/aes.py:52-60. -/
def strip_PKCS7_padding (data : Bytes) : Res Bytes :=
  match data.getLast? with
  | none => .error .badPaddingError
  | some padlen =>
    if data.length % 16 ≠ 0 then .error .badPaddingError
    else if ¬ (0 < padlen ∧ padlen ≤ 16) then .error .badPaddingError
    else if lastN data padlen.toNat ≠ List.replicate padlen.toNat padlen then .error .badPaddingError
    else .ok (dropEnd data padlen.toNat)

/-- `aes_encrypt_with_iv(key, iv, data)`, bitcoinx/aes.py:63-70. -/
def aes_encrypt_with_iv (E : Cipher) (key iv data : Bytes) : Bytes :=
  E.encrypt key iv (append_PKCS7_padding data)

/-- `aes_decrypt_with_iv(key, iv, data)`, bitcoinx/aes.py:73-81. -/
def aes_decrypt_with_iv (E : Cipher) (key iv data : Bytes) : Res Bytes := do
  let data ← E.decrypt key iv data
  strip_PKCS7_padding data

end Bitcoinx
