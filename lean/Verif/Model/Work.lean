import Verif.Model.Packing
import Verif.Model.Hashes

/-! # Model of `bitcoinx/work.py` (conversions) -/

namespace Bitcoinx

/-- `bits_to_target(bits)`, bitcoinx/work.py:33-52.  (`lru_cache` only memoizes.) -/
def bits_to_target (bits : Int) : Res Nat :=
  if ¬ (0 ≤ bits ∧ bits ≤ 0x2100ffff) then .error .valueError
  else
    let bits := bits.toNat
    let word := bits &&& 0x00ffffff
    if ¬ (0x8000 ≤ word ∧ word ≤ 0x7fffff) ∧ bits ≠ 0 then .error .valueError
    else
      let size := bits >>> 24
      let shift : Int := 8 * ((size : Int) - 3)
      if shift ≤ 0 then
        let result := word >>> (-shift).toNat
        if result <<< (-shift).toNat ≠ word then .error .valueError
        else .ok result
      else .ok (word <<< shift.toNat)

/-- `target_to_bits(target)`, bitcoinx/work.py:55-72. -/
def target_to_bits (target : Int) : Res Nat :=
  let bits := bitLength target.natAbs
  if target < 0 ∨ bits > 256 then .error .valueError
  else
    let target := target.toNat
    let size := (bits + 7) / 8
    let shift : Int := 8 * ((size : Int) - 3)
    let word := if shift ≤ 0 then target <<< (-shift).toNat else target >>> shift.toNat
    -- Avoid setting the sign bit
    let (word, size) := if word &&& 0x00800000 ≠ 0 then (word >>> 8, size + 1) else (word, size)
    .ok (word ||| (size <<< 24))

/-- `bits_to_work(bits)`, bitcoinx/work.py:75-77. -/
def bits_to_work (bits : Int) : Res Nat := do
  return 2 ^ 256 / ((← bits_to_target bits) + 1)

end Bitcoinx
