import Verif.Spec.Storage
import Mathlib.Data.List.Defs

/-! # Specification of Python slices of a list -/

namespace Bitcoinx.Spec

/-- A bound counts from the end if negative. -/
def position (n : Nat) (x : Int) : Int := if x < 0 then x + n else x

/-- `is` are the positions that `xs[start:stop:step]` takes from a list of length `n`, in order.
Positive step: upwards from the start (or from 0 if that is further), every `step` positions, as long
as it is below the stop.  Negative step: downwards from the start (or from the last position if that
is lower), as long as it is above the stop. -/
def SliceSelects (n : Nat) (start stop : Option Int) (step : Int) (is : List Nat) : Prop :=
  if 0 < step then
    let first := max 0 (position n (start.getD 0))
    is.Pairwise (· < ·) ∧ ∀ i : Nat, i ∈ is ↔
      i < n ∧ first ≤ i ∧ (∀ x ∈ stop, (i : Int) < position n x) ∧ step ∣ i - first
  else
    let first := min ((n : Int) - 1) (start.elim ((n : Int) - 1) (position n))
    is.Pairwise (· > ·) ∧ ∀ i : Nat, i ∈ is ↔
      i < n ∧ i ≤ first ∧ (∀ x ∈ stop, position n x < (i : Int)) ∧ step ∣ first - i

end Bitcoinx.Spec
