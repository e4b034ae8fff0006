import Verif.Model.Hashes

/-! # Model of `bitcoinx/base58.py` -/

namespace Bitcoinx

/-- `base58_chars`, bitcoinx/base58.py:19. -/
def base58_chars : List Char := "123456789ABCDEFGHJKLMNPQRSTUVWXYZabcdefghijkmnopqrstuvwxyz".toList

/-- `base58_cmap.get(c)`, bitcoinx/base58.py:20 and 35. -/
def base58_cmap (c : Char) : Option Nat := base58_chars.idxOf? c

/-- The loop of bitcoinx/base58.py:36-41; a missing character gives `None`, whose addition raises
`TypeError`, turned into `Base58Error`. -/
def base58Accumulate : Nat → Str → Res Nat
  | value, [] => .ok value
  | value, c :: cs =>
    match base58_cmap c with
    | some d => base58Accumulate (value * 58 + d) cs
    | none => .error .base58Error

/-- `base58_decode(txt)`, bitcoinx/base58.py:27-54, for a `str` argument (other types raise
`TypeError`). -/
def base58_decode (txt : Str) : Res Bytes :=
  if txt.isEmpty then .error .base58Error
  else do
    let value ← base58Accumulate 0 txt
    let result ← int_to_be_bytes value
    let count := (txt.takeWhile (· == '1')).length
    return zeros count ++ result

/-- The `while value` loop of bitcoinx/base58.py:61-64. -/
def base58Loop (value : Nat) (txt : Str) : Str :=
  if h : value = 0 then txt
  else base58Loop (value / 58) (txt ++ [base58_chars.getD (value % 58) '1'])
  termination_by value
  decreasing_by omega

/-- `base58_encode(be_bytes)`, bitcoinx/base58.py:57-71. -/
def base58_encode (be_bytes : Bytes) : Str :=
  let value := be_bytes_to_int be_bytes
  let txt := base58Loop value []
  let txt := txt ++ List.replicate (be_bytes.takeWhile (· == 0)).length '1'
  txt.reverse

/-- `base58_decode_check(txt)`, bitcoinx/base58.py:74-80. -/
def base58_decode_check (H : Hashes) (txt : Str) : Res Bytes := do
  let be_bytes ← base58_decode txt
  let result := dropEnd be_bytes 4
  let check := lastN be_bytes 4
  if check ≠ (H.double_sha256 result).take 4 then .error .base58Error
  else return result

/-- `base58_encode_check(payload)`, bitcoinx/base58.py:83-88. -/
def base58_encode_check (H : Hashes) (payload : Bytes) : Str :=
  base58_encode (payload ++ (H.double_sha256 payload).take 4)

/-- Python `str.encode()`: UTF-8.  (Lone surrogates, which Python strings may contain and which
`encode` rejects, are not characters of the model.) -/
def utf8 (s : Str) : Bytes := s.flatMap String.utf8EncodeChar

/-- `is_minikey(text)`, bitcoinx/base58.py:91-99. -/
def is_minikey (H : Hashes) (text : Str) : Bool :=
  (text.length == 22 || text.length == 30)
    && text.head? == some 'S'
    && text.all (fun c => (base58_cmap c).isSome)
    && (H.sha256 (utf8 (text ++ ['?']))).head? == some 0

end Bitcoinx
