import Verif.Model.Base

/-! # Specification vocabulary for the difficulty rules -/

namespace Bitcoinx.Spec

/-- `x` limited to the interval `[lo, hi]`. -/
def Clamped (lo hi x y : Int) : Prop :=
  (x < lo ∧ y = lo) ∨ (lo ≤ x ∧ x ≤ hi ∧ y = x) ∨ (hi < x ∧ y = hi)

/-- `m` is a median of `xs`: at least half of the elements are `≤ m` and at least half `≥ m`. -/
def IsMedian (xs : List Int) (m : Int) : Prop :=
  m ∈ xs ∧ xs.length ≤ 2 * (xs.filter (fun x => decide (x ≤ m))).length ∧
    xs.length ≤ 2 * (xs.filter (fun x => decide (m ≤ x))).length

/-- `m` is the upper median of `xs`: the element with rank `⌊n/2⌋`, i.e. at most `⌊n/2⌋` elements are
smaller and more than `⌊n/2⌋` are not larger. -/
def UpperMedian (xs : List Int) (m : Int) : Prop :=
  m ∈ xs ∧ (xs.filter (fun x => decide (x < m))).length ≤ xs.length / 2 ∧
    xs.length / 2 < (xs.filter (fun x => decide (x ≤ m))).length

/-- `q` is the floor of `a / b` for positive `b`. -/
def IsFloorDiv (a b q : Int) : Prop := q * b ≤ a ∧ a < (q + 1) * b

end Bitcoinx.Spec
