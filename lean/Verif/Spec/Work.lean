import Verif.Model.Base

/-! # Specification of compact targets

The compact form `0xSSWWWWWW` denotes `WWWWWW * 256^(SS - 3)`. -/

namespace Bitcoinx.Spec

/-- `t` is the target denoted by the compact value with exponent `s` and mantissa `m`, when the
denoted rational is an integer. -/
def Denotes (s m t : Nat) : Prop := t * 256 ^ 3 = m * 256 ^ s

/-- A canonical compact value: zero, or the mantissa has its top bit clear and is at least
`0x8000` (so that no smaller exponent could represent it), and the value is below `2^256`. -/
def CanonicalBits (b : Nat) : Prop :=
  b = 0 ∨ (0x8000 ≤ b % 2 ^ 24 ∧ b % 2 ^ 24 < 0x800000 ∧
    (b % 2 ^ 24) * 256 ^ (b / 2 ^ 24) < 2 ^ 256 * 256 ^ 3 ∧
    256 ^ 3 ∣ (b % 2 ^ 24) * 256 ^ (b / 2 ^ 24))

/-- A target is representable if some canonical compact value denotes it. -/
def Representable (t : Nat) : Prop :=
  ∃ b, CanonicalBits b ∧ Denotes (b / 2 ^ 24) (b % 2 ^ 24) t

end Bitcoinx.Spec
