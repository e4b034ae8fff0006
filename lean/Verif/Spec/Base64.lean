import Verif.Spec.Cashaddr

/-! # Specification vocabulary for base64

From RFC 4648, section 4, not from the code. -/

namespace Bitcoinx.Spec

/-- The alphabet: capitals, small letters, digits, `+` and `/`. -/
def char64 (d : Nat) : Char :=
  if d < 26 then Char.ofNat (65 + d)
  else if d < 52 then Char.ofNat (97 + (d - 26))
  else if d < 62 then Char.ofNat (48 + (d - 52))
  else if d = 62 then '+' else '/'

/-- The digits, six bits each, are the bits of the bytes followed by the `2 * k` bits of `slack`, and
`k` is as small as can be. -/
def IsDigits64 (digits data : Bytes) (k slack : Nat) : Prop :=
  (∀ d ∈ digits, d.toNat < 64) ∧ k < 3 ∧ slack < 4 ^ k ∧ 6 * digits.length = 8 * data.length + 2 * k ∧
    radix 6 digits = radix 8 data * 4 ^ k + slack

/-- The text with given digits and number of padding characters. -/
def text64 (digits : Bytes) (pads : Nat) : Str :=
  digits.map (fun d => char64 d.toNat) ++ List.replicate pads '='

/-- The base64 encoding: zero bits are added, and padding to a multiple of four characters. -/
def IsBase64 (data : Bytes) (text : Str) : Prop :=
  ∃ digits k, IsDigits64 digits data k 0 ∧ text = text64 digits k

/-- Text that is not ASCII. -/
def NonAscii (text : Str) : Prop := ∃ c ∈ text, 128 ≤ c.toNat

end Bitcoinx.Spec
