import Mathlib.Algebra.Order.Field.Rat
import Mathlib.Algebra.Order.Group.Abs

/-! # Specification of floating point numbers -/

namespace Bitcoinx.Spec

/-- A number that a double can hold, apart from the bounds of the exponent. -/
def IsDouble (v : Rat) : Prop := ∃ (m : Nat) (e : Int), m < 2 ^ 53 ∧ v = m * (2 : Rat) ^ e

/-- The double nearest to a number, nearer than any other. -/
def NearestDouble (v q : Rat) : Prop := IsDouble v ∧ ∀ w, IsDouble w → w ≠ v → |v - q| < |w - q|

/-- The number of a significand and an exponent. -/
def doubleValue (d : Nat × Int) : Rat := d.1 * (2 : Rat) ^ d.2

end Bitcoinx.Spec
