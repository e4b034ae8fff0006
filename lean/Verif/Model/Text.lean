import Verif.Model.Hashes

/-! # Python's text operations used by the modelled code

The Unicode character database is a parameter of which only the part below U+0080 is fixed. -/

namespace Bitcoinx

/-- The decimal digits. -/
def isAsciiDigit (c : Char) : Bool := decide ('0' ≤ c) && decide (c ≤ '9')

/-- The ASCII characters on which `str.split()` splits. -/
def isAsciiSplit (c : Char) : Bool :=
  (decide (9 ≤ c.toNat) && decide (c.toNat ≤ 13)) || (decide (28 ≤ c.toNat) && decide (c.toNat ≤ 32))

/-- The character properties behind `str.split()`, `str.isdigit()` and `int(str)`, and CPython's
limit `sys.int_info.str_digits_check_threshold` / `sys.get_int_max_str_digits()` on the number of
digits that `int(str)` accepts (0: no limit, as in versions before 3.10.7; CPython refuses limits
below 640). -/
structure PyText where
  isspace : Char → Bool
  isdigit : Char → Bool
  decimal : Char → Option Nat
  max_str_digits : Nat
  max_str_digits_min : max_str_digits = 0 ∨ 640 ≤ max_str_digits
  isspace_ascii : ∀ c, c.toNat < 128 → isspace c = isAsciiSplit c
  isdigit_ascii : ∀ c, c.toNat < 128 → isdigit c = isAsciiDigit c
  decimal_ascii : ∀ c, c.toNat < 128 →
    decimal c = if isAsciiDigit c then some (c.toNat - '0'.toNat) else none
  decimal_lt : ∀ c d, decimal c = some d → d < 10
  isdigit_decimal : ∀ c d, decimal c = some d → isdigit c = true

/-- An instance that knows only ASCII, for the examples. -/
def asciiText : PyText where
  isspace c := isAsciiSplit c
  isdigit c := isAsciiDigit c
  decimal c := if isAsciiDigit c then some (c.toNat - '0'.toNat) else none
  max_str_digits := 4300
  max_str_digits_min := .inr (by omega)
  isspace_ascii _ _ := rfl
  isdigit_ascii _ _ := rfl
  decimal_ascii _ _ := rfl
  decimal_lt c d h := by
    split at h
    · next hc =>
      simp only [isAsciiDigit, Bool.and_eq_true, decide_eq_true_eq] at hc
      have h1 : c.toNat ≤ '9'.toNat := hc.2
      have h2 : '9'.toNat = 57 := rfl
      have h3 : '0'.toNat = 48 := rfl
      cases h
      omega
    · cases h
  isdigit_decimal c d h := by
    split at h
    · assumption
    · cases h

namespace PyText

/-- `word.isdigit()`. -/
def isdigitStr (P : PyText) (word : Str) : Bool := word ≠ [] && word.all P.isdigit

/-- The value of a string of decimal digits, continuing from `acc`. -/
def decimalLoop (P : PyText) : Nat → Str → Option Nat
  | acc, [] => some acc
  | acc, c :: cs =>
    match P.decimal c with
    | some d => decimalLoop P (acc * 10 + d) cs
    | none => none

/-- `int(word)` for a word on which `word.isdigit()`: `ValueError` if some character is a digit but
not a decimal one (such as a superscript) or if there are too many. -/
def intOfDigits (P : PyText) (word : Str) : Res Nat :=
  if P.max_str_digits ≠ 0 ∧ word.length > P.max_str_digits then .error .valueError
  else match P.decimalLoop 0 word with
    | some n => .ok n
    | none => .error .valueError

/-- The loop behind `text.split()`: the words of the text, the first one continuing `acc`. -/
def splitLoop (P : PyText) : Str → Str → List Str
  | acc, [] => if acc = [] then [] else [acc]
  | acc, c :: cs =>
    if P.isspace c then (if acc = [] then splitLoop P [] cs else acc :: splitLoop P [] cs)
    else splitLoop P (acc ++ [c]) cs

/-- `text.split()`: the maximal sequences of characters that are not white space. -/
def split (P : PyText) (text : Str) : List Str := P.splitLoop [] text

end PyText

/-- `str(n)` for a non-negative integer. -/
def strNat (n : Nat) : Str := Nat.toDigits 10 n

/-- `str(n)`. -/
def strInt (n : Int) : Str := if n < 0 then '-' :: strNat n.natAbs else strNat n.toNat

/-- `sep.join(parts)`. -/
def joinStr (sep : Str) : List Str → Str
  | [] => []
  | [x] => x
  | x :: y :: rest => x ++ sep ++ joinStr sep (y :: rest)

/-- `text.startswith(prefix)`. -/
def startsWith (pre text : Str) : Bool := pre.isPrefixOf text

end Bitcoinx
