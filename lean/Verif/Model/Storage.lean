import Verif.Model.Coin

/-! # Model of `_HeaderStorage` of `bitcoinx/chain.py` and of `map_file` of `bitcoinx/util.py`

The mapping is shared with the file, so one byte string is both the file's content and the content
of the mapping (which always spans the whole file).  Not modelled: `flush`, `close`, the attributes
`filename` and `header_count` (never read).  Slices and negative keys are in `Verif.Model.StorageKeys`, files that
another object changes in `Verif.Model.Shared`. -/

namespace Bitcoinx

/-- `CheckPoint`, bitcoinx/chain.py:48.  Simplification: the height is not negative. -/
structure CheckPoint where
  raw_header : Bytes
  height : Nat
  prev_work : Int
  deriving DecidableEq, Repr

/-- An open `_HeaderStorage`, bitcoinx/chain.py:184-189. -/
structure Storage where
  /-- content of the file, and of `self.mmap` -/
  file : Bytes
  reserved_size : Nat
  deriving DecidableEq, Repr

/-- Index `i` of a Python slice on a sequence of length `n`, clipped as Python does. -/
def clipIndex (n : Nat) (i : Int) : Nat :=
  if i < 0 then (i + n).toNat else min i.toNat n

/-- `b[i:j]` with Python's treatment of negative and too large bounds. -/
def pySlice (b : Bytes) (i j : Int) : Bytes := slice b (clipIndex b.length i) (clipIndex b.length j)

/-- `b[start:start+len(d)] = d` on a mapping that is long enough. -/
def writeAt (b : Bytes) (start : Nat) (d : Bytes) : Bytes :=
  b.take start ++ d ++ b.drop (start + d.length)

/-- `empty_header`, bitcoinx/chain.py:42. -/
def empty_header : Bytes := zeros 80

namespace Storage

/-- `_offset(key)`, bitcoinx/chain.py:191-192. -/
def offset (st : Storage) (key : Int) : Int := st.reserved_size + key * 80

/-- `__len__`, bitcoinx/chain.py:267-269. -/
def len (st : Storage) : Res Int := unpack_le_uint32 (slice st.file 4 8)

/-- The inner function `header(index)` of `__getitem__`, bitcoinx/chain.py:246-251. -/
def header (st : Storage) (index : Int) : Res Bytes :=
  let start := st.offset index
  let result := pySlice st.file start (start + 80)
  if result = [] ∨ result = empty_header then .error .missingHeader else .ok result

/-- `__getitem__(key)` for an integer key, bitcoinx/chain.py:253-256. -/
def get (st : Storage) (key : Int) : Res Bytes :=
  if key < 0 then do
    let n ← st.len
    st.header (key + n)
  else st.header key

/-- `s.pack(s.size, 0, count)` for `s = Struct('<HHI')`, bitcoinx/chain.py:182 and 199. -/
def pack_reserved (count : Int) : Res Bytes := do
  let a ← pack_le_uint16 8
  let b ← pack_le_uint16 0
  let c ← pack_le_uint32 count
  return a ++ b ++ c

/-- The body of the `with` statement of `_create_file`, bitcoinx/chain.py:197-200, given the packed
reserved area. -/
def write_new_file (cp : CheckPoint) : Res Bytes → Bytes × Res Unit
  | .error e => ([], .error e)
  | .ok reserved =>
    if cp.raw_header = [] then (reserved, .ok ())
    else (reserved ++ zeros (cp.height * 80) ++ cp.raw_header, .ok ())

/-- `_create_file(checkpoint)`, bitcoinx/chain.py:194-200: the content of the file afterwards.
Opening with mode `wb` empties the file before anything else, and a seek past the end alone does
not extend it. -/
def create_file (cp : CheckPoint) : Bytes × Res Unit :=
  write_new_file cp (pack_reserved (cp.height + 1))

/-- `_open_file(checkpoint)` on a file with the given content (`none`: there is no file),
bitcoinx/chain.py:202-216.  `mmap` raises `ValueError` for an empty file. -/
def open_file (file : Option Bytes) (cp : CheckPoint) : Res Storage :=
  match file with
  | none => .error .fileNotFoundError
  | some f =>
    if f = [] then .error .valueError
    else if f.length ≥ 8 then do
      let reserved_size ← unpack_le_uint16 (slice f 0 2)
      let version ← unpack_le_uint16 (slice f 2 4)
      let st : Storage := { file := f, reserved_size := reserved_size.toNat }
      if version = 0 then do
        let raw ← st.get cp.height
        if raw = cp.raw_header then return st else .error .badHeadersFile
      else .error .badHeadersFile
    else .error .badHeadersFile

/-- `open_or_create(checkpoint)`, bitcoinx/chain.py:218-227: the file afterwards and the result. -/
def open_or_create (file : Option Bytes) (cp : CheckPoint) : Option Bytes × Res Storage :=
  let create :=
    match create_file cp with
    | (f, .error e) => (some f, .error e)
    | (f, .ok ()) => (some f, open_file (some f) cp)
  match open_file file cp with
  | .ok st => (file, .ok st)
  | .error .fileNotFoundError => create
  | .error .badHeadersFile => create
  | .error .missingHeader => create
  | .error e => (file, .error e)

/-- The growth step of `_set_raw_header`, bitcoinx/chain.py:236-240 with bitcoinx/util.py:31-40:
truncating to a larger size appends zero bytes. -/
def grow (st : Storage) (index : Nat) : Storage :=
  if st.offset index ≥ st.file.length then
    { st with file := st.file ++ zeros ((st.offset (index + 5000)).toNat - st.file.length) }
  else st

/-- `_set_count(count)`, bitcoinx/chain.py:229-230. -/
def set_count (st : Storage) (count : Int) : Res Storage := do
  let b ← pack_le_uint32 count
  return { st with file := writeAt st.file 4 b }

/-- `if index >= len(self): self._set_count(index + 1)`, bitcoinx/chain.py:241-242. -/
def bump_count (st : Storage) (index : Nat) : Res Storage := do
  let n ← st.len
  if (index : Int) ≥ n then st.set_count (index + 1) else return st

/-- `self.mmap[start: start + 80] = raw_header`, bitcoinx/chain.py:243.  A slice that sticks out of
the mapping raises `IndexError`. -/
def write_header (st : Storage) (index : Nat) (raw_header : Bytes) : Res Storage :=
  if st.offset index + 80 ≤ st.file.length then
    .ok { st with file := writeAt st.file (st.offset index).toNat raw_header }
  else .error .indexError

/-- `_set_raw_header(index, raw_header)`, bitcoinx/chain.py:232-243: the storage afterwards, also
when an exception is raised.  The index is not negative (as in all
callers); negative ones are in `Verif.Model.StorageKeys`. -/
def set_raw_header (st : Storage) (index : Nat) (raw_header : Bytes) : Storage × Res Unit :=
  if raw_header.length ≠ 80 then (st, .error .typeError)
  else
    let st := st.grow index
    match st.bump_count index with
    | .error e => (st, .error e)
    | .ok st =>
      match st.write_header index raw_header with
      | .error e => (st, .error e)
      | .ok st => (st, .ok ())

/-- `append(raw_header)`, bitcoinx/chain.py:271-274. -/
def append (st : Storage) (raw_header : Bytes) : Storage × Res Nat :=
  match st.len with
  | .error e => (st, .error e)
  | .ok header_index =>
    match st.set_raw_header header_index.toNat raw_header with
    | (st, .error e) => (st, .error e)
    | (st, .ok ()) => (st, .ok header_index.toNat)

end Storage

end Bitcoinx
