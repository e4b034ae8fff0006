import Verif.Model.Coin

/-! # Model of the difficulty of `bitcoinx/coin.py` -/

namespace Bitcoinx

/-- The exponent of the double nearest to `a / b`: `2^52 ≤ a / (b * 2^e) < 2^53`. -/
def quotientExponent (a b : Nat) : Int :=
  let e : Int := (Nat.log2 a : Int) - Nat.log2 b - 52
  if a * 2 ^ (-e).toNat < b * 2 ^ e.toNat * 2 ^ 52 then e - 1 else e

/-- Python `a / b` for non-negative integers: significand and exponent of the double.  The quotient is rounded to
the nearest double and to an even significand between two.  Simplification: the exponent has no bounds; the
quotients below are between `2^-33` and `2^225`. -/
def trueDivide (a b : Nat) : Res (Nat × Int) :=
  if b = 0 then .error .zeroDivisionError
  else if a = 0 then .ok (0, 0)
  else
    let e := quotientExponent a b
    let num := a * 2 ^ (-e).toNat
    let den := b * 2 ^ e.toNat
    let m := num / den
    let r := num % den
    .ok (if den < 2 * r ∨ (den = 2 * r ∧ m % 2 = 1) then m + 1 else m, e)

/-- `coin.bits_to_difficulty(bits)`, bitcoinx/coin.py:96-97: the coin is not used. -/
def bits_to_difficulty (bits : Int) : Res (Nat × Int) := do
  trueDivide Bitcoin.max_target (← bits_to_target bits)

/-- `Header.difficulty()`, bitcoinx/coin.py:67-68. -/
def Header.difficulty (h : Header) : Res (Nat × Int) := bits_to_difficulty h.bits

/-- `Header.hex_str()`, bitcoinx/coin.py:64-65. -/
def Header.hex_str (h : Header) : Str := hash_to_hex_str h.hash

end Bitcoinx
