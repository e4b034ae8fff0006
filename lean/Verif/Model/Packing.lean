import Verif.Model.Misc

/-! # Model of `bitcoinx/packing.py`

`struct.Struct(fmt).pack` raises `struct.error` for a value out of the format's range;
`.unpack` raises `struct.error` unless the buffer has exactly the format's size;
`.unpack_from(buf, offset)` raises unless the buffer has at least that many bytes from the offset. -/

namespace Bitcoinx

/-- Unsigned little-endian `struct` pack of width `w` bytes. -/
def packU (w : Nat) (v : Int) : Res Bytes :=
  if 0 ≤ v ∧ v < 256 ^ w then .ok (leBytes w v.toNat) else .error .structError

/-- Signed (two's complement) little-endian `struct` pack of width `w` bytes. -/
def packS (w : Nat) (v : Int) : Res Bytes :=
  if -(256 ^ w / 2 : Int) ≤ v ∧ v < 256 ^ w / 2 then .ok (leBytes w (v % 256 ^ w).toNat)
  else .error .structError

/-- Unsigned little-endian `struct` unpack. -/
def unpackU (w : Nat) (b : Bytes) : Res Int :=
  if b.length = w then .ok (le_bytes_to_int b : Int) else .error .structError

/-- Signed little-endian `struct` unpack. -/
def unpackS (w : Nat) (b : Bytes) : Res Int :=
  if b.length = w then
    let u := le_bytes_to_int b
    .ok (if u < 256 ^ w / 2 then (u : Int) else (u : Int) - 256 ^ w)
  else .error .structError

/-- Big-endian variants. -/
def packUBE (w : Nat) (v : Int) : Res Bytes := (packU w v).map List.reverse
def unpackUBE (w : Nat) (b : Bytes) : Res Int := unpackU w b.reverse

/-- `.unpack_from(buffer, offset)`: the window is read, a short buffer raises `struct.error`. -/
def unpackFrom (w : Nat) (unpack : Bytes → Res Int) (b : Bytes) (offset : Nat) : Res Int :=
  unpack ((b.drop offset).take w)

/-- bitcoinx/packing.py:62 `Struct('<i').pack` -/
def pack_le_int32 : Int → Res Bytes := packS 4
/-- bitcoinx/packing.py:63 `Struct('<q').pack` -/
def pack_le_int64 : Int → Res Bytes := packS 8
/-- bitcoinx/packing.py:64 `Struct('<H').pack` -/
def pack_le_uint16 : Int → Res Bytes := packU 2
/-- bitcoinx/packing.py:65 `Struct('<I').pack` -/
def pack_le_uint32 : Int → Res Bytes := packU 4
/-- bitcoinx/packing.py:66 `Struct('<Q').pack` -/
def pack_le_uint64 : Int → Res Bytes := packU 8
/-- bitcoinx/packing.py:67 `Struct('>H').pack` -/
def pack_be_uint16 : Int → Res Bytes := packUBE 2
/-- bitcoinx/packing.py:68 `Struct('>I').pack` -/
def pack_be_uint32 : Int → Res Bytes := packUBE 4
/-- bitcoinx/packing.py:69 `Struct('>Q').pack` -/
def pack_be_uint64 : Int → Res Bytes := packUBE 8
/-- bitcoinx/packing.py:70 `Struct('B').pack` -/
def pack_byte : Int → Res Bytes := packU 1
/-- bitcoinx/packing.py:91 -/
def pack_port : Int → Res Bytes := pack_be_uint16

/-- bitcoinx/packing.py:72 -/
def unpack_le_int32 : Bytes → Res Int := unpackS 4
/-- bitcoinx/packing.py:74 -/
def unpack_le_int64 : Bytes → Res Int := unpackS 8
/-- bitcoinx/packing.py:76 -/
def unpack_le_uint16 : Bytes → Res Int := unpackU 2
/-- bitcoinx/packing.py:78 -/
def unpack_le_uint32 : Bytes → Res Int := unpackU 4
/-- bitcoinx/packing.py:80 -/
def unpack_le_uint64 : Bytes → Res Int := unpackU 8
/-- bitcoinx/packing.py:82 -/
def unpack_be_uint16 : Bytes → Res Int := unpackUBE 2
/-- bitcoinx/packing.py:84 -/
def unpack_be_uint32 : Bytes → Res Int := unpackUBE 4
/-- bitcoinx/packing.py:86 -/
def unpack_be_uint64 : Bytes → Res Int := unpackUBE 8
/-- bitcoinx/packing.py:88 -/
def unpack_byte : Bytes → Res Int := unpackU 1
/-- bitcoinx/packing.py:92 -/
def unpack_port : Bytes → Res Int := unpack_be_uint16

/-- bitcoinx/packing.py:73 -/
def unpack_le_int32_from (b : Bytes) (offset : Nat := 0) : Res Int := unpackFrom 4 unpack_le_int32 b offset
/-- bitcoinx/packing.py:75 -/
def unpack_le_int64_from (b : Bytes) (offset : Nat := 0) : Res Int := unpackFrom 8 unpack_le_int64 b offset
/-- bitcoinx/packing.py:77 -/
def unpack_le_uint16_from (b : Bytes) (offset : Nat := 0) : Res Int := unpackFrom 2 unpack_le_uint16 b offset
/-- bitcoinx/packing.py:79 -/
def unpack_le_uint32_from (b : Bytes) (offset : Nat := 0) : Res Int := unpackFrom 4 unpack_le_uint32 b offset
/-- bitcoinx/packing.py:81 -/
def unpack_le_uint64_from (b : Bytes) (offset : Nat := 0) : Res Int := unpackFrom 8 unpack_le_uint64 b offset
/-- bitcoinx/packing.py:83 -/
def unpack_be_uint16_from (b : Bytes) (offset : Nat := 0) : Res Int := unpackFrom 2 unpack_be_uint16 b offset
/-- bitcoinx/packing.py:85 -/
def unpack_be_uint32_from (b : Bytes) (offset : Nat := 0) : Res Int := unpackFrom 4 unpack_be_uint32 b offset
/-- bitcoinx/packing.py:87 -/
def unpack_be_uint64_from (b : Bytes) (offset : Nat := 0) : Res Int := unpackFrom 8 unpack_be_uint64 b offset

/-- `varint_len(n)`, bitcoinx/packing.py:96-109. -/
def varint_len (n : Int) : Res Nat :=
  if n ≥ 0 then
    if n < 253 then .ok 1
    else if n < 65536 then .ok 3
    else if n < 4294967296 then .ok 5
    else if n ≤ 18446744073709551615 then .ok 9
    else .error .valueError
  else .error .valueError

/-- `pack_varint(n)`, bitcoinx/packing.py:112-122. -/
def pack_varint (n : Int) : Res Bytes :=
  if n < 253 then pack_byte n
  else if n < 65536 then do return 0xfd :: (← pack_le_uint16 n)
  else if n < 4294967296 then do return 0xfe :: (← pack_le_uint32 n)
  else do return 0xff :: (← pack_le_uint64 n)

/-- `pack_varbytes(data)`, bitcoinx/packing.py:125-127. -/
def pack_varbytes (data : Bytes) : Res Bytes := do
  return (← pack_varint data.length) ++ data

/-- Evaluate `pack_one` on each item in order, as the generator in `pack_list` does. -/
def packAll {α : Type} (pack_one : α → Res Bytes) : List α → Res (List Bytes)
  | [] => .ok []
  | x :: xs => do
    let b ← pack_one x
    let bs ← packAll pack_one xs
    return b :: bs

/-- `pack_list(items, pack_one)`, bitcoinx/packing.py:130-136. -/
def pack_list {α : Type} (items : List α) (pack_one : α → Res Bytes) : Res Bytes := do
  let n ← pack_varint items.length
  let parts ← packAll pack_one items
  return (n :: parts).flatten

/-! ## Stream operations

A `read` callable over a `BytesIO` is its remaining content: `read(n)` returns up to `n` bytes, and raises
`OverflowError` if `n` is above `sys.maxsize`, which is taken to be that of a 64-bit machine.
The position after an exception is not modelled. -/

/-- A function taking `read`: from the remaining stream to a value and the remaining stream. -/
abbrev Reader (α : Type) := Bytes → Res (α × Bytes)

/-- `read(n)` followed by `unpack` of the format of width `w` (the shape of
`read_le_int32` ... `read_be_uint64`, bitcoinx/packing.py:142-179). -/
def readFixed (w : Nat) (unpack : Bytes → Res Int) : Reader Int := fun s => do
  let v ← unpack (s.take w)
  return (v, s.drop w)

/-- bitcoinx/packing.py:142-144 -/
def read_le_int32 : Reader Int := readFixed 4 unpack_le_int32
/-- bitcoinx/packing.py:147-149 -/
def read_le_int64 : Reader Int := readFixed 8 unpack_le_int64
/-- bitcoinx/packing.py:152-154 -/
def read_le_uint16 : Reader Int := readFixed 2 unpack_le_uint16
/-- bitcoinx/packing.py:157-159 -/
def read_le_uint32 : Reader Int := readFixed 4 unpack_le_uint32
/-- bitcoinx/packing.py:162-164 -/
def read_le_uint64 : Reader Int := readFixed 8 unpack_le_uint64
/-- bitcoinx/packing.py:167-169 -/
def read_be_uint16 : Reader Int := readFixed 2 unpack_be_uint16
/-- bitcoinx/packing.py:172-174 -/
def read_be_uint32 : Reader Int := readFixed 4 unpack_be_uint32
/-- bitcoinx/packing.py:177-179 -/
def read_be_uint64 : Reader Int := readFixed 8 unpack_be_uint64

/-- `read_varint(read)`, bitcoinx/packing.py:182-191. -/
def read_varint : Reader Int := fun s => do
  let (n, s) ← readFixed 1 unpack_byte s
  if n < 253 then return (n, s)
  else if n = 253 then read_le_uint16 s
  else if n = 254 then read_le_uint32 s
  else read_le_uint64 s

/-- `read_varbytes(read)`, bitcoinx/packing.py:194-199.  The only `read` of a length that is not small. -/
def read_varbytes : Reader Bytes := fun s => do
  let (n, s) ← read_varint s
  if n ≥ 2 ^ 63 then .error .overflowError
  else
  let result := s.take n.toNat
  if result.length ≠ n.toNat then .error .structError
  else return (result, s.drop n.toNat)

/-- Call `read_one(read)` `n` times. -/
def readN {α : Type} (read_one : Reader α) : Nat → Reader (List α)
  | 0, s => .ok ([], s)
  | n + 1, s => do
    let (x, s) ← read_one s
    let (xs, s) ← readN read_one n s
    return (x :: xs, s)

/-- `read_list(read, read_one)`, bitcoinx/packing.py:202-206. -/
def read_list {α : Type} (read_one : Reader α) : Reader (List α) := fun s => do
  let (n, s) ← read_varint s
  readN read_one n.toNat s

end Bitcoinx
