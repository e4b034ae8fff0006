/-!
# Common vocabulary of the model

Python `bytes` are `List UInt8`, `str` are `List Char`; an exception is a value of `Err`.
-/

namespace Bitcoinx

/-- Python `bytes` / `bytearray`. -/
abbrev Bytes := List UInt8

/-- Python `str` (a sequence of code points). -/
abbrev Str := List Char

/-- The exception classes raised by the modelled code.  `structError` is `struct.error`. -/
inductive Err where
  | valueError
  | typeError
  | overflowError
  | indexError
  | keyError
  | assertionError
  | runtimeError
  | zeroDivisionError
  | attributeError
  | fileNotFoundError
  | syntaxError
  | structError
  /-- `base58.Base58Error(ValueError)`, bitcoinx/base58.py:23 -/
  | base58Error
  /-- `signature.InvalidSignatureError(ValueError)`, bitcoinx/signature.py:48 -/
  | invalidSignatureError
  /-- `keys.DecryptionError(ValueError)`, bitcoinx/keys.py:59 -/
  | decryptionError
  /-- `binascii.Error(ValueError)` -/
  | binasciiError
  /-- `aes.BadPaddingError(Exception)`, bitcoinx/aes.py:43 -/
  | badPaddingError
  /-- `chain.MissingHeader(ChainException)`, bitcoinx/chain.py:55 -/
  | missingHeader
  /-- `chain.IncorrectBits(ChainException)`, bitcoinx/chain.py:59 -/
  | incorrectBits
  /-- `chain.InsufficientPoW(ChainException)`, bitcoinx/chain.py:70 -/
  | insufficientPoW
  /-- `chain._BadHeadersFile(Exception)`, bitcoinx/chain.py:80 -/
  | badHeadersFile
  /-- `script.ScriptError(Exception)`, bitcoinx/script.py:48 -/
  | scriptError
  /-- `script.TruncatedScriptError(ScriptError)`, bitcoinx/script.py:52 -/
  | truncatedScriptError
  /-- `mnemonic.BIP39Mnemonic.BadWords(Exception)` with its argument, bitcoinx/mnemonic.py:100 -/
  | badWords (words : List Str)
  deriving DecidableEq, Repr

/-- `isinstance(e, ValueError)`: the classes that `except ValueError` catches. -/
def Err.isValueError : Err → Bool
  | .valueError | .base58Error | .invalidSignatureError | .decryptionError | .binasciiError => true
  | _ => false

/-- Result of a Python call: a value or a raised exception. -/
abbrev Res (α : Type) := Except Err α

/-- Python slice `b[i:j]` for `0 <= i <= j`. -/
def slice {α : Type} (b : List α) (i j : Nat) : List α := (b.take j).drop i

/-- Python slice `b[:-k]` for `k > 0`. -/
def dropEnd {α : Type} (b : List α) (k : Nat) : List α := b.take (b.length - k)

/-- Python slice `b[-k:]` for `k > 0`. -/
def lastN {α : Type} (b : List α) (k : Nat) : List α := b.drop (b.length - k)

/-- `bytes(n)`: `n` zero bytes. -/
def zeros (n : Nat) : Bytes := List.replicate n 0

end Bitcoinx
