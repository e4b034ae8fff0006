import Verif.Model.Chain

/-! # Model of a `Headers` object that one thread changes while others read it

One thread calls `connect` and `set_one`, any number of others call `lookup` and `raw_header_at_height`.  There is no lock
in `bitcoinx/chain.py`.  The interpreter runs one thread at a time and may change to another between any two of its
instructions; a call of a method of a built-in object (`array.append`, `bytearray.extend`, `bytearray.find`,
`dict.get`, `dict.update`, a slice of a `mmap`) and an assignment are not interrupted.  So the object goes through the
states ("moments") between these operations, in the order of the statements, and a reader makes each of its accesses at
some moment.  Readers change nothing. -/

namespace Bitcoinx

/-- The object at a moment: whether `self._storage.mmap` is closed, and which one it is (they are numbered in the order in
which `map_file` returned them, bitcoinx/chain.py:239-240). -/
structure Moment where
  state : Headers
  closed : Bool
  mapping : Nat

namespace Moment

/-- The last of the moments `ms` that follow `m`. -/
def last (m : Moment) (ms : List Moment) : Moment := ms.getLast?.getD m

/-- The moments during `_HeaderStorage.append(raw_header)`, bitcoinx/chain.py:232-243 and 271-274. -/
def append_moments (m : Moment) (raw_header : Bytes) : List Moment :=
  let st := m.state.storage
  match st.len with
  | .error _ => []
  | .ok n =>
    if raw_header.length ≠ 80 then []
    else
      let m1 : Moment := if st.offset n.toNat ≥ st.file.length then
          { m with state := { m.state with storage := st.grow n.toNat }, mapping := m.mapping + 1 } else m
      let grown : List Moment := if st.offset n.toNat ≥ st.file.length then [{ m with closed := true }, m1] else []
      match (st.grow n.toNat).bump_count n.toNat with
      | .error _ => grown
      | .ok st1 =>
        let m2 : Moment := { m1 with state := { m.state with storage := st1 } }
        match st1.write_header n.toNat raw_header with
        | .error _ => grown ++ [m2]
        | .ok st2 => grown ++ [m2, { m2 with state := { m.state with storage := st2 } }]

/-- The moments of the cache from the assignment on, `_add_chain_tip`, bitcoinx/chain.py:333-340: the entry is set,
then the older half is deleted one by one, then the tips are put back. -/
def cache_moments (cache : List (Bytes × Header × Nat)) (chains : List Chain) (header : Header) (index : Nat) :
    List (List (Bytes × Header × Nat)) :=
  let cache := dictSet cache header.hash (header, index)
  if cache.length > Headers.max_cache_size then
    (List.range (cache.length / 2 + 1)).map (fun n => cache.drop n) ++
      [(chains.zipIdx).foldl (fun cache (ch, i) => dictSet cache ch.tip.hash (ch.tip, i)) (cache.drop (cache.length / 2))]
  else [cache]

/-- The moments during `_add_chain_tip(chain)`, bitcoinx/chain.py:328-340, given the new values of the two arrays. -/
def tip_moments_arrays (m : Moment) (chain : Chain) (index : Nat) (heights chain_indices : Res (List Nat)) :
    List Moment :=
  let s1 := { m.state with short_hashes := m.state.short_hashes ++ chain.tip.hash.take 4 }
  match heights with
  | .error _ => [{ m with state := s1 }]
  | .ok heights =>
    let s2 := { s1 with heights }
    match chain_indices with
    | .error _ => [{ m with state := s1 }, { m with state := s2 }]
    | .ok chain_indices =>
      let s3 := { s2 with chain_indices }
      [{ m with state := s1 }, { m with state := s2 }, { m with state := s3 }] ++
        (cache_moments m.state.cache m.state.chains chain.tip index).map
          (fun cache => { m with state := { s3 with cache } })

/-- The moments during `_add_chain_tip(chain)`, bitcoinx/chain.py:328-340. -/
def tip_moments (m : Moment) (chain : Chain) (index : Nat) : List Moment :=
  tip_moments_arrays m chain index (arrayAppend 4 m.state.heights chain.tip.height)
    (arrayAppend 2 m.state.chain_indices index)

/-- The moments during `Chain.append(header, header_index)`, bitcoinx/chain.py:110-114, for the chain at `c`, given the
new value of the array. -/
def extend_moments_indices (m : Moment) (c : Nat) (chain : Chain) (header : Header) (header_indices : Res (List Nat)) :
    List Moment :=
  let at_ := fun (ch : Chain) => { m with state := { m.state with chains := m.state.chains.set c ch } }
  let ch1 := { chain with tip := header }
  match header_indices with
  | .error _ => [at_ ch1]
  | .ok header_indices =>
    let ch2 := { ch1 with header_indices }
    match header.work with
    | .error _ => [at_ ch1, at_ ch2]
    | .ok w => [at_ ch1, at_ ch2, at_ { ch2 with work := ch2.work + w }]

/-- The moments during `Chain.append(header, header_index)`, bitcoinx/chain.py:110-114. -/
def extend_moments (m : Moment) (c : Nat) (chain : Chain) (header : Header) (header_index : Nat) : List Moment :=
  extend_moments_indices m c chain header (arrayAppend 4 chain.header_indices header_index)

/-- The moments during `_add_chain(chain)`, bitcoinx/chain.py:323-326. -/
def fork_moments (m : Moment) (chain : Chain) : List Moment :=
  { m with state := { m.state with chains := m.state.chains ++ [chain] } } ::
    tip_moments { m with state := { m.state with chains := m.state.chains ++ [chain] } } chain m.state.chains.length

/-- The moments after `chain.append` when the header extends the chain, bitcoinx/chain.py:371, given the chain
afterwards. -/
def tip_moments_after (m : Moment) (c : Nat) : Chain × Res Unit → List Moment
  | (_, .error _) => []
  | (chain, .ok ()) => tip_moments { m with state := { m.state with chains := m.state.chains.set c chain } } chain c

/-- The moments when the header extends the chain, bitcoinx/chain.py:370-371. -/
def extended_moments (m : Moment) (c : Nat) (chain : Chain) (new_tip : Header) (header_index : Nat) : List Moment :=
  extend_moments m c chain new_tip header_index ++ tip_moments_after m c (chain.append new_tip header_index)

/-- The moments during `_read_header(header_index)`, bitcoinx/chain.py:362-376. -/
def read_moments (m : Moment) (header_index : Nat) : List Moment :=
  match m.state.read_prev header_index with
  | .error _ => []
  | .ok (new_tip, prev_header, c) =>
    match m.state.chains[c]? with
    | none => []
    | some chain =>
      if chain.tip.hash = prev_header.hash then
        extended_moments m c chain new_tip header_index
      else
        match m.state.chainwork_to_height c prev_header.height with
        | .error _ => []
        | .ok prev_work =>
          match Chain.new (some c) new_tip header_index prev_work with
          | .error _ => []
          | .ok chain => fork_moments m chain

/-- The moments during `connect(raw_header)`, bitcoinx/chain.py:423-454. -/
def connect_moments (m : Moment) (raw_header : Bytes) : List Moment :=
  match m.state.connect_check raw_header with
  | .ok (.inr _) =>
    let ms := append_moments m raw_header
    ms ++
      match m.state.storage.append raw_header with
      | (_, .error _) => []
      | (_, .ok header_index) => read_moments (last m ms) header_index
  | _ => []

end Moment

/-! ## Readers

`w k` is the moment of the access number `k` of the reader. -/

/-- `self._storage[key]` for `key >= 0`, bitcoinx/chain.py:245-256: `self.mmap` is fetched by one instruction and read by
another, which raises `ValueError` if this `mmap` is closed. -/
def storage_run (w : Nat → Moment) (k : Nat) (key : Int) : Res (Bytes × Nat) :=
  if (w k).closed ∨ (w (k + 1)).closed ∨ (w k).mapping ≠ (w (k + 1)).mapping then .error .valueError
  else do return (← (w (k + 1)).state.storage.get key, k + 2)

/-- `_header_index_slow(header_hash)` from the access number `k` on, bitcoinx/chain.py:342-354: the header, its index and
the number of the next access; `none` if the loop has not ended after the given number of rounds. -/
def slow_run (w : Nat → Moment) (header_hash : Bytes) : Nat → Nat → Nat → Option (Res (Bytes × Nat × Nat))
  | 0, _, _ => none
  | fuel + 1, start, k =>
    match bytesFind (w k).state.short_hashes (header_hash.take 4) start with
    | none => some (.error .missingHeader)
    | some index =>
      if index % 4 = 0 then
        match storage_run w (k + 1) (((index / 4 : Nat) : Int) + (w k).state.checkpoint.height) with
        | .error e => some (.error e)
        | .ok (raw_header, k') =>
          if Bitcoinx.header_hash (w k).state.H raw_header = header_hash then some (.ok (raw_header, index / 4, k'))
          else slow_run w header_hash fuel (start + 1) k'
      else slow_run w header_hash fuel (start + 1) (k + 1)

/-- `lookup(header_hash)`, bitcoinx/chain.py:415-421. -/
def lookup_run (w : Nat → Moment) (header_hash : Bytes) (fuel : Nat) : Option (Res (Header × Nat)) :=
  match dictGet (w 0).state.cache header_hash with
  | some result => some (.ok result)
  | none =>
    match slow_run w header_hash fuel 0 1 with
    | none => none
    | some (.error e) => some (.error e)
    | some (.ok (raw_header, our_index, k)) => some <|
      match (w k).state.heights[our_index]? with
      | none => .error .indexError
      | some height => do
        let header ← deserialized_header (w k).state.H raw_header height
        match (w (k + 1)).state.chain_indices[our_index]? with
        | none => .error .indexError
        | some i => if i < (w (k + 2)).state.chains.length then return (header, i) else .error .indexError

/-- `chain.header_index(height)` for the chain of the given index, bitcoinx/chain.py:143-154, with one access for each
chain: only its list of indices changes. -/
def header_index_run (w : Nat → Moment) : Nat → Nat → Nat → Int → Res (Nat × Nat)
  | 0, _, _, _ => .error .runtimeError
  | fuel + 1, k, c, h =>
    match (w k).state.chains[c]? with
    | none => .error .runtimeError
    | some ch =>
      if h ≥ ch.first_height then
        match ch.header_indices[(h - ch.first_height).toNat]? with
        | some i => .ok (i, k + 1)
        | none => .error .missingHeader
      else match ch.parent with
        | some parent => header_index_run w fuel (k + 1) parent h
        | none => if h ≥ 0 then .ok (h.toNat, k + 1) else .error .missingHeader

/-- `raw_header_at_height(chain, height)`, bitcoinx/chain.py:408-409. -/
def raw_header_run (w : Nat → Moment) (c : Nat) (h : Int) : Res Bytes := do
  let (i, k) ← header_index_run w (w 0).state.chains.length 0 c h
  return (← storage_run w k i).1

end Bitcoinx
