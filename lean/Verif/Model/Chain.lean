import Verif.Model.Daa
import Verif.Model.Storage

/-! # Model of `Chain` and `Headers` of `bitcoinx/chain.py`

A `Headers` object is a value; a method that changes it returns the object afterwards (also when it
raises).  A `Chain` object is named by its `index`, its position in `Headers._chains`.
Not modelled: `Chain.log2_work` and `desc` (floating point, text), `flush`, Python's recursion limit
(`Chain.header_index` recurses once per parent chain). -/

namespace Bitcoinx

/-- `array.append(value)` for an array of unsigned items of `w` bytes (`array('I')`: 4,
`array('H')`: 2): `OverflowError` if the value does not fit. -/
def arrayAppend (w : Nat) (a : List Nat) (value : Int) : Res (List Nat) :=
  if 0 ≤ value ∧ value < 256 ^ w then .ok (a ++ [value.toNat]) else .error .overflowError

/-- `d[key] = value` on an insertion-ordered dictionary. -/
def dictSet {κ ν : Type} [DecidableEq κ] (d : List (κ × ν)) (key : κ) (value : ν) : List (κ × ν) :=
  match d with
  | [] => [(key, value)]
  | (k, v) :: rest => if k = key then (key, value) :: rest else (k, v) :: dictSet rest key value

/-- `d.get(key)`. -/
def dictGet {κ ν : Type} [DecidableEq κ] (d : List (κ × ν)) (key : κ) : Option ν :=
  (d.find? (fun e => e.1 = key)).map Prod.snd

/-- The first of the `n` indices from `i` on at which `key` occurs in `b`. -/
def bytesFindLoop (b key : Bytes) : Nat → Nat → Option Nat
  | 0, _ => none
  | n + 1, i => if slice b i (i + key.length) = key then some i else bytesFindLoop b key n (i + 1)

/-- `b.find(key, start)`: the first index `>= start` at which `key` occurs (`none` for -1). -/
def bytesFind (b key : Bytes) (start : Nat) : Option Nat :=
  bytesFindLoop b key (b.length + 1 - start) start

/-- `Chain`, bitcoinx/chain.py:84-104. -/
structure Chain where
  parent : Option Nat
  tip : Header
  work : Int
  first_height : Int
  header_indices : List Nat
  deriving DecidableEq, Repr

namespace Chain

/-- `Chain.__init__`, bitcoinx/chain.py:96-103. -/
def new (parent : Option Nat) (tip : Header) (tip_header_index : Nat) (prev_work : Int) :
    Res Chain := do
  let w ← tip.work
  let header_indices ← arrayAppend 4 [] tip_header_index
  return { parent, tip, work := prev_work + w, first_height := tip.height, header_indices }

/-- `Chain.from_checkpoint(coin, checkpoint)`, bitcoinx/chain.py:105-108. -/
def from_checkpoint (H : Hashes) (cp : CheckPoint) : Res Chain := do
  let tip ← deserialized_header H cp.raw_header cp.height
  new none tip tip.height.toNat cp.prev_work

/-- `Chain.append` from the assignment of the array on, given its new value,
bitcoinx/chain.py:113-114. -/
def append_indices (ch : Chain) (header : Header) : Res (List Nat) → Chain × Res Unit
  | .error e => (ch, .error e)
  | .ok header_indices =>
    let ch := { ch with header_indices }
    match header.work with
    | .error e => (ch, .error e)
    | .ok w => ({ ch with work := ch.work + w }, .ok ())

/-- `Chain.append(header, header_index)`, bitcoinx/chain.py:110-114: the chain afterwards. -/
def append (ch : Chain) (header : Header) (header_index : Nat) : Chain × Res Unit :=
  append_indices { ch with tip := header } header (arrayAppend 4 ch.header_indices header_index)

/-- `Chain.height`, bitcoinx/chain.py:159-161. -/
def height (ch : Chain) : Int := ch.first_height + ch.header_indices.length - 1

/-- `Chain.header_index(height)` for the chain of the given index, bitcoinx/chain.py:143-154.
The fuel bounds the recursion into parents; the results of exhausted fuel or of an index that is
not in the list are unreachable (see `Props/Chain`). -/
def header_index (chains : List Chain) : Nat → Nat → Int → Res Nat
  | 0, _, _ => .error .runtimeError
  | fuel + 1, c, h =>
    match chains[c]? with
    | none => .error .runtimeError
    | some ch =>
      if h ≥ ch.first_height then
        match ch.header_indices[(h - ch.first_height).toNat]? with
        | some i => .ok i
        | none => .error .missingHeader
      else match ch.parent with
        | some parent => header_index chains fuel parent h
        | none => if h ≥ 0 then .ok h.toNat else .error .missingHeader

/-- The loop of `Chain.parent_heights()`, bitcoinx/chain.py:121-126: the pairs added for the parents
of the chain. -/
def parents_heights (chains : List Chain) : Nat → Chain → List (Nat × Int)
  | 0, _ => []
  | fuel + 1, ch =>
    match ch.parent with
    | none => []
    | some p =>
      match chains[p]? with
      | none => []
      | some parent => (p, ch.first_height - 1) :: parents_heights chains fuel parent

/-- `Chain.parent_heights()`, bitcoinx/chain.py:116-126, as an insertion-ordered dictionary (the
keys are distinct, see `Lemmas/Chain`). -/
def parent_heights (chains : List Chain) (c : Nat) : List (Nat × Int) :=
  match chains[c]? with
  | none => []
  | some ch => (c, ch.height) :: parents_heights chains chains.length ch

/-- The loop of `Chain.common_chain_and_height`, bitcoinx/chain.py:135-140. -/
def common_loop (other_heights : List (Nat × Int)) (result : Option Nat × Int) :
    List (Nat × Int) → Option Nat × Int
  | [] => result
  | (chain, our_height) :: rest =>
    match dictGet other_heights chain with
    | none => common_loop other_heights result rest
    | some other_height =>
      let common_height := min other_height our_height
      if common_height > result.2 then common_loop other_heights (some chain, common_height) rest
      else common_loop other_heights result rest

/-- `Chain.common_chain_and_height(other_chain)`, bitcoinx/chain.py:128-141. -/
def common_chain_and_height (chains : List Chain) (c other : Nat) : Option Nat × Int :=
  common_loop (parent_heights chains other) (none, -1) (parent_heights chains c)

end Chain

/-- `Headers`, bitcoinx/chain.py:283-321, with the hash functions it uses. -/
structure Headers where
  H : Hashes
  coin : Coin
  checkpoint : CheckPoint
  storage : Storage
  chains : List Chain
  short_hashes : Bytes
  heights : List Nat
  chain_indices : List Nat
  cache : List (Bytes × Header × Nat)

namespace Headers

/-- `max_cache_size`, bitcoinx/chain.py:306. -/
def max_cache_size : Nat := 1000

/-- The cache update of `_add_chain_tip`, bitcoinx/chain.py:333-340. -/
def cache_add (cache : List (Bytes × Header × Nat)) (chains : List Chain) (header : Header)
    (index : Nat) : List (Bytes × Header × Nat) :=
  let cache := dictSet cache header.hash (header, index)
  if cache.length > max_cache_size then
    (chains.zipIdx).foldl (fun cache (ch, i) => dictSet cache ch.tip.hash (ch.tip, i))
      (cache.drop (cache.length / 2))
  else cache

/-- `_add_chain_tip(chain)` after the short hashes, bitcoinx/chain.py:331-340, given the new values of
the two arrays. -/
def add_chain_tip_arrays (s : Headers) (chain : Chain) (index : Nat) (heights chain_indices : Res (List Nat)) :
    Headers × Res Unit :=
  match heights with
  | .error e => (s, .error e)
  | .ok heights =>
    match chain_indices with
    | .error e => ({ s with heights }, .error e)
    | .ok chain_indices =>
      ({ s with heights, chain_indices, cache := cache_add s.cache s.chains chain.tip index }, .ok ())

/-- `_add_chain_tip(chain)`, bitcoinx/chain.py:328-340, for the chain at `index`. -/
def add_chain_tip (s : Headers) (chain : Chain) (index : Nat) : Headers × Res Unit :=
  let header := chain.tip
  add_chain_tip_arrays { s with short_hashes := s.short_hashes ++ header.hash.take 4 } chain index
    (arrayAppend 4 s.heights header.height) (arrayAppend 2 s.chain_indices index)

/-- `_add_chain(chain)`, bitcoinx/chain.py:323-326. -/
def add_chain (s : Headers) (chain : Chain) : Headers × Res Unit :=
  let index := s.chains.length
  add_chain_tip { s with chains := s.chains ++ [chain] } chain index

/-- The loop of `_header_index_slow`, bitcoinx/chain.py:345-354.  The fuel suffices for every
start (exhausting it gives `RuntimeError`, shown unreachable in `Lemmas/Chain`). -/
def header_index_slow_loop (s : Headers) (header_hash : Bytes) : Nat → Nat → Res (Bytes × Nat)
  | 0, _ => .error .runtimeError
  | fuel + 1, start =>
    match bytesFind s.short_hashes (header_hash.take 4) start with
    | none => .error .missingHeader
    | some index =>
      if index % 4 = 0 then
        let our_index := index / 4
        match s.storage.get (our_index + s.checkpoint.height) with
        | .error e => .error e
        | .ok raw_header =>
          if Bitcoinx.header_hash s.H raw_header = header_hash then .ok (raw_header, our_index)
          else header_index_slow_loop s header_hash fuel (start + 1)
      else header_index_slow_loop s header_hash fuel (start + 1)

/-- `_header_index_slow(header_hash)`, bitcoinx/chain.py:342-354. -/
def header_index_slow (s : Headers) (header_hash : Bytes) : Res (Bytes × Nat) :=
  header_index_slow_loop s header_hash (s.short_hashes.length + 2) 0

/-- `lookup(header_hash)`, bitcoinx/chain.py:415-421. -/
def lookup (s : Headers) (header_hash : Bytes) : Res (Header × Nat) :=
  match dictGet s.cache header_hash with
  | some result => .ok result
  | none => do
    let (raw_header, our_index) ← s.header_index_slow header_hash
    match s.heights[our_index]? with
    | none => .error .indexError
    | some height => do
      let header ← deserialized_header s.H raw_header height
      match s.chain_indices[our_index]? with
      | none => .error .indexError
      | some i => if i < s.chains.length then return (header, i) else .error .indexError

/-- `chain.header_index(height)` for a chain of this object. -/
def header_index (s : Headers) (chain : Nat) (height : Int) : Res Nat :=
  Chain.header_index s.chains s.chains.length chain height

/-- `raw_header_at_height(chain, height)`, bitcoinx/chain.py:408-409. -/
def raw_header_at_height (s : Headers) (chain : Nat) (height : Int) : Res Bytes := do
  let i ← s.header_index chain height
  s.storage.get i

/-- This object restricted to one chain, as the difficulty rules see it. -/
def view (s : Headers) (chain : Nat) : ChainView :=
  { coin := s.coin, H := s.H, raw_header_at_height := s.raw_header_at_height chain }

/-- `header_at_height(chain, height)`, bitcoinx/chain.py:411-413. -/
def header_at_height (s : Headers) (chain : Nat) (height : Int) : Res Header :=
  (s.view chain).header_at_height height

/-- `chainwork_range(chain, start_height, end_height)`, bitcoinx/chain.py:396-402. -/
def chainwork_range (s : Headers) (chain : Nat) (start_height end_height : Int) : Res Nat :=
  (s.view chain).chainwork_range start_height end_height

/-- `chainwork_to_height(chain, height)`, bitcoinx/chain.py:404-406. -/
def chainwork_to_height (s : Headers) (chain : Nat) (height : Int) : Res Int :=
  match s.chains[chain]? with
  | none => .error .runtimeError
  | some ch => do
    let r ← s.chainwork_range chain (height + 1) (ch.tip.height + 1)
    return ch.work - r

/-- `required_bits(chain, height, timestamp)`, bitcoinx/chain.py:481-484. -/
def required_bits (s : Headers) (chain : Nat) (height timestamp : Int) : Res Int :=
  (s.view chain).required_bits height timestamp

/-- `median_time_past(chain, height)`, bitcoinx/chain.py:473-479. -/
def median_time_past (s : Headers) (chain : Nat) (height : Int) : Res Int :=
  (s.view chain).median_time_past height

/-- The first lines of `_read_header`, bitcoinx/chain.py:366-368: the new tip with its height, the
previous header and its chain. -/
def read_prev (s : Headers) (header_index : Nat) : Res (Header × Header × Nat) := do
  let raw ← s.storage.get header_index
  let new_tip ← deserialized_header s.H raw (-1)
  let (prev_header, chain) ← s.lookup new_tip.prev_hash
  return ({ new_tip with height := prev_header.height + 1 }, prev_header, chain)

/-- `_read_header(header_index)`, bitcoinx/chain.py:362-376. -/
def read_header (s : Headers) (header_index : Nat) : Headers × Res Nat :=
  match s.read_prev header_index with
  | .error e => (s, .error e)
  | .ok (new_tip, prev_header, c) =>
    match s.chains[c]? with
    | none => (s, .error .runtimeError)
    | some chain =>
      if chain.tip.hash = prev_header.hash then
        match chain.append new_tip header_index with
        | (chain, .error e) => ({ s with chains := s.chains.set c chain }, .error e)
        | (chain, .ok ()) =>
          match add_chain_tip { s with chains := s.chains.set c chain } chain c with
          | (s, .error e) => (s, .error e)
          | (s, .ok ()) => (s, .ok c)
      else
        match s.chainwork_to_height c prev_header.height with
        | .error e => (s, .error e)
        | .ok prev_work =>
          match Chain.new (some c) new_tip header_index prev_work with
          | .error e => (s, .error e)
          | .ok chain =>
            match s.add_chain chain with
            | (s', .error e) => (s', .error e)
            | (s', .ok ()) => (s', .ok s.chains.length)

/-- The loop of `_read_headers()`, bitcoinx/chain.py:356-360, for the given number of headers from
an index on. -/
def read_headers (s : Headers) : Nat → Nat → Headers × Res Unit
  | _, 0 => (s, .ok ())
  | header_index, n + 1 =>
    match s.read_header header_index with
    | (s, .error e) => (s, .error e)
    | (s, .ok _) => read_headers s (header_index + 1) n

/-- `Headers.__init__(coin, storage, checkpoint)`, bitcoinx/chain.py:308-321.  An exception leaves no
object. -/
def init (H : Hashes) (coin : Coin) (storage : Storage) (checkpoint : CheckPoint) : Res Headers := do
  let chain ← Chain.from_checkpoint H checkpoint
  let s : Headers := { H, coin, checkpoint, storage, chains := [], short_hashes := [], heights := [],
                       chain_indices := [], cache := [] }
  let (s, r) := s.add_chain chain
  r
  let n ← s.storage.len
  let (s, r) := s.read_headers (checkpoint.height + 1) (n - (checkpoint.height + 1)).toNat
  r
  return s

/-- `from_file(coin, file_path, checkpoint)`, bitcoinx/chain.py:382-386: the file afterwards and the
result. -/
def from_file (H : Hashes) (coin : Coin) (file : Option Bytes) (checkpoint : CheckPoint) :
    Option Bytes × Res Headers :=
  match Storage.open_or_create file checkpoint with
  | (file, .error e) => (file, .error e)
  | (file, .ok storage) => (file, init H coin storage checkpoint)

/-- `set_one(height, raw_header)`, bitcoinx/chain.py:388-394. -/
def set_one (s : Headers) (height : Int) (raw_header : Bytes) : Headers × Res Unit :=
  if ¬ (0 ≤ height ∧ height ≤ s.checkpoint.height) then (s, .error .valueError)
  else
    match s.storage.set_raw_header height.toNat raw_header with
    | (storage, r) => ({ s with storage }, r)

/-- `connect(raw_header)` up to the decision to store, bitcoinx/chain.py:435-450: `inl` an existing
header and its chain (the early return), `inr` the checked new header. -/
def connect_check (s : Headers) (raw_header : Bytes) : Res ((Header × Nat) ⊕ Header) := do
  let header ← deserialized_header s.H raw_header (-1)
  let (prev_header, c) ← s.lookup header.prev_hash
  let header := { header with height := prev_header.height + 1 }
  match s.chains[c]? with
  | none => .error .runtimeError
  | some chain =>
    let existing : Option (Res (Header × Nat)) :=
      if chain.tip.hash ≠ prev_header.hash then
        match s.lookup header.hash with
        | .error .missingHeader => none
        | r => some r
      else none
    match existing with
    | some r => do return .inl (← r)
    | none => do
      let required_bits ← s.required_bits c header.height header.timestamp
      if header.bits ≠ required_bits then .error .incorrectBits
      else do
        let target ← header.target
        if header.hash_value > target then .error .insufficientPoW
        else return .inr header

/-- `connect(raw_header)`, bitcoinx/chain.py:423-454. -/
def connect (s : Headers) (raw_header : Bytes) : Headers × Res (Header × Nat) :=
  match s.connect_check raw_header with
  | .error e => (s, .error e)
  | .ok (.inl r) => (s, .ok r)
  | .ok (.inr header) =>
    match s.storage.append raw_header with
    | (storage, .error e) => ({ s with storage }, .error e)
    | (storage, .ok header_index) =>
      match read_header { s with storage } header_index with
      | (s, .error e) => (s, .error e)
      | (s, .ok chain) => (s, .ok (header, chain))

/-- `len(headers)`, bitcoinx/chain.py:456-458. -/
def len (s : Headers) : Res Int := s.storage.len

/-- The loop of `longest_chain`, bitcoinx/chain.py:467-470, on the remaining chains from index `i`. -/
def longest_loop (longest : Nat × Chain) : Nat → List Chain → Nat × Chain
  | _, [] => longest
  | i, ch :: rest => longest_loop (if ch.work > longest.2.work then (i, ch) else longest) (i + 1) rest

/-- `longest_chain()`, bitcoinx/chain.py:466-471. -/
def longest_chain (s : Headers) : Res Nat :=
  match s.chains with
  | [] => .error .indexError
  | ch :: _ => .ok (longest_loop (0, ch) 0 s.chains).1

end Headers

end Bitcoinx
