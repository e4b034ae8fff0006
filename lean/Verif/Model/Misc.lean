import Verif.Model.Base

/-! # Model of `bitcoinx/misc.py` -/

namespace Bitcoinx

/-- Python `int.bit_length()` (of the absolute value). -/
def bitLength (n : Nat) : Nat := if n = 0 then 0 else Nat.log2 n + 1

/-- `int.to_bytes(size, 'little')` of a value known to fit: the `size` low bytes. -/
def leBytes : Nat → Nat → Bytes
  | 0, _ => []
  | size + 1, v => UInt8.ofNat (v % 256) :: leBytes size (v / 256)

/-- `int.to_bytes(size, 'big')` of a value known to fit. -/
def beBytes (size v : Nat) : Bytes := (leBytes size v).reverse

/-- `le_bytes_to_int = partial(int.from_bytes, byteorder='little')`, bitcoinx/misc.py:44. -/
def le_bytes_to_int : Bytes → Nat
  | [] => 0
  | b :: bs => b.toNat + 256 * le_bytes_to_int bs

/-- `be_bytes_to_int = partial(int.from_bytes, byteorder='big')`, bitcoinx/misc.py:43. -/
def be_bytes_to_int (bs : Bytes) : Nat := bs.foldl (fun acc b => acc * 256 + b.toNat) 0

/-- The default size `(value.bit_length() + 7) // 8`, bitcoinx/misc.py:50 and 57. -/
def byteSize (v : Int) : Nat := (bitLength v.natAbs + 7) / 8

/-- `int_to_be_bytes(value, size=None)`, bitcoinx/misc.py:47-51.
`int.to_bytes` raises `OverflowError` for negative values and for values that do not fit. -/
def int_to_be_bytes (value : Int) (size : Option Nat := none) : Res Bytes :=
  let size := size.getD (byteSize value)
  if value < 0 then .error .overflowError
  else if value.toNat < 256 ^ size then .ok (beBytes size value.toNat)
  else .error .overflowError

/-- `int_to_le_bytes(value, size=None)`, bitcoinx/misc.py:54-58. -/
def int_to_le_bytes (value : Int) (size : Option Nat := none) : Res Bytes :=
  let size := size.getD (byteSize value)
  if value < 0 then .error .overflowError
  else if value.toNat < 256 ^ size then .ok (leBytes size value.toNat)
  else .error .overflowError

/-- `chunks(items, size)`, bitcoinx/misc.py:61-64: the list of `items[i: i + size]` for
`i in range(0, len(items), size)`.  `range` with step 0 raises `ValueError` (when the generator is
first advanced).  `starts` lists the values of `range`. -/
def chunks {α : Type} (items : List α) (size : Nat) : Res (List (List α)) :=
  if size = 0 then .error .valueError
  else
    -- range(0, len, size) has ceil(len / size) elements
    let count := (items.length + size - 1) / size
    .ok ((List.range count).map fun k => slice items (k * size) (k * size + size))

end Bitcoinx
