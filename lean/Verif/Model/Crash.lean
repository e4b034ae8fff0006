import Verif.Model.Chain

/-! # The contents the headers file goes through during `connect`

If the process dies, the file (a shared mapping) keeps the content of that moment.  Each assignment
to the mapping and each change of the file's size counts as one step; a step is taken to be
indivisible. -/

namespace Bitcoinx

/-- The storage before, between and after the steps of `_set_raw_header(index, raw_header)`,
bitcoinx/chain.py:232-243: the file is grown (238), the count is written (242), the header is
written (243). -/
def Storage.set_raw_header_steps (st : Storage) (index : Nat) (raw_header : Bytes) : List Storage :=
  if raw_header.length ≠ 80 then [st]
  else
    let grown := st.grow index
    match grown.bump_count index with
    | .error _ => [st, grown]
    | .ok counted =>
      match counted.write_header index raw_header with
      | .error _ => [st, grown, counted]
      | .ok written => [st, grown, counted, written]

/-- The storage before, between and after the steps of `append(raw_header)`,
bitcoinx/chain.py:271-274. -/
def Storage.append_steps (st : Storage) (raw_header : Bytes) : List Storage :=
  match st.len with
  | .error _ => [st]
  | .ok header_index => st.set_raw_header_steps header_index.toNat raw_header

/-- The contents of the file before, between and after the steps of `connect(raw_header)`,
bitcoinx/chain.py:423-454; only line 452 writes to the file. -/
def Headers.connect_files (s : Headers) (raw_header : Bytes) : List Bytes :=
  match s.connect_check raw_header with
  | .ok (.inr _) => (s.storage.append_steps raw_header).map (·.file)
  | _ => [s.storage.file]

end Bitcoinx
