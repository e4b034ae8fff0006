import Verif.Model.Storage

/-! # Model of the keys of `_HeaderStorage` of `bitcoinx/chain.py`

`Model/Storage.lean` has reading by an integer and writing at an index that is not negative.  Here
are all keys of `storage[key]` and `storage[key] = raw_header`: negative integers, slices and keys
that are neither.  A `bool` is an integer for Python and is the integer here.  Not modelled: slices
whose bounds are not integers or `None`. -/

namespace Bitcoinx

/-- A key of `storage[key]`, as told apart in bitcoinx/chain.py:253-258. -/
inductive StorageKey
  | int (key : Int)
  | slice (start stop step : Option Int)
  | other
  deriving DecidableEq, Repr

/-- `PySlice_AdjustIndices` on one bound, as CPython does for `key.indices(n)` in
bitcoinx/chain.py:257: a negative bound counts from the end, then is cut to the range
`lower .. upper`. -/
def slice_bound (n lower upper : Int) (default : Int) : Option Int → Int
  | none => default
  | some x => if x < 0 then max (x + n) lower else min x upper

/-- `slice.indices(n)` of Python, called in bitcoinx/chain.py:257.  A zero step raises
`ValueError`. -/
def slice_indices (start stop step : Option Int) (n : Int) : Res (Int × Int × Int) :=
  match step.getD 1 with
  | .ofNat 0 => .error .valueError
  | .ofNat (s + 1) => .ok (slice_bound n 0 n 0 start, slice_bound n 0 n n stop, .ofNat (s + 1))
  | .negSucc s =>
    .ok (slice_bound n (-1) (n - 1) (n - 1) start, slice_bound n (-1) (n - 1) (-1) stop, .negSucc s)

/-- The number of elements of `range(start, stop, step)` for a step that is not zero, as CPython
computes it; bitcoinx/chain.py:257. -/
def range_length (start stop step : Int) : Nat :=
  if step > 0 then (if start < stop then ((stop - start - 1) / step + 1).toNat else 0)
  else (if stop < start then ((start - stop - 1) / (-step) + 1).toNat else 0)

/-- `range(start, stop, step)`, bitcoinx/chain.py:257. -/
def py_range (start stop step : Int) : List Int :=
  (List.range (range_length start stop step)).map fun (k : Nat) => start + k * step

/-- `b[i:j] = d` on a mapping: a slice whose length is not that of `d` raises `IndexError`. -/
def mmapAssign (b : Bytes) (i j : Int) (d : Bytes) : Res Bytes :=
  let start := clipIndex b.length i
  let stop := max start (clipIndex b.length j)
  if stop - start = d.length then .ok (writeAt b start d) else .error .indexError

namespace Storage

/-- The list of headers for a slice, bitcoinx/chain.py:257: the first exception ends it. -/
def headers (st : Storage) : List Int → Res (List Bytes)
  | [] => .ok []
  | index :: rest => do
    let h ← st.header index
    let hs ← st.headers rest
    return h :: hs

/-- What `storage[key]` gives: one header or a list of headers. -/
inductive Item
  | one (raw_header : Bytes)
  | many (raw_headers : List Bytes)
  deriving DecidableEq, Repr

/-- `__getitem__(key)`, bitcoinx/chain.py:245-258. -/
def getitem (st : Storage) : StorageKey → Res Item
  | .int key => do
    let raw ← st.get key
    return .one raw
  | .slice start stop step => do
    let n ← st.len
    let (start, stop, step) ← slice_indices start stop step n
    let raws ← st.headers (py_range start stop step)
    return .many raws
  | .other => .error .typeError

/-- The growth step of `_set_raw_header`, bitcoinx/chain.py:236-240, for every integer index. -/
def grow_int (st : Storage) (index : Int) : Storage :=
  if st.offset index ≥ st.file.length then
    { st with file := st.file ++ zeros ((st.offset (index + 5000)).toNat - st.file.length) }
  else st

/-- `if index >= len(self): self._set_count(index + 1)`, bitcoinx/chain.py:241-242, for every integer
index. -/
def bump_count_int (st : Storage) (index : Int) : Res Storage := do
  let n ← st.len
  if index ≥ n then st.set_count (index + 1) else return st

/-- `self.mmap[start: start + 80] = raw_header`, bitcoinx/chain.py:243, for every integer index. -/
def write_header_int (st : Storage) (index : Int) (raw_header : Bytes) : Res Storage := do
  let file ← mmapAssign st.file (st.offset index) (st.offset index + 80) raw_header
  return { st with file := file }

/-- `_set_raw_header(index, raw_header)`, bitcoinx/chain.py:232-243, for every integer index. -/
def set_raw_header_int (st : Storage) (index : Int) (raw_header : Bytes) : Storage × Res Unit :=
  if raw_header.length ≠ 80 then (st, .error .typeError)
  else
    let st := st.grow_int index
    match st.bump_count_int index with
    | .error e => (st, .error e)
    | .ok st =>
      match st.write_header_int index raw_header with
      | .error e => (st, .error e)
      | .ok st => (st, .ok ())

/-- `__setitem__(key, raw_header)`, bitcoinx/chain.py:260-264. -/
def setitem (st : Storage) (key : StorageKey) (raw_header : Bytes) : Storage × Res Unit :=
  match key with
  | .int key => st.set_raw_header_int key raw_header
  | _ => (st, .error .typeError)

end Storage

end Bitcoinx
