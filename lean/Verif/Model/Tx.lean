import Verif.Model.Signature

/-! # Model of `bitcoinx/tx.py`

Not modelled: `repr`.  JSON and `locktime_description` are in `Verif.Model.Json`.  Scripts are their
bytes; the numeric fields are arbitrary integers, as in Python. -/

namespace Bitcoinx

/-- `ZERO`, bitcoinx/tx.py:45. -/
def ZERO : Bytes := zeros 32

/-- `UINT32_MAX`, bitcoinx/tx.py:46. -/
def UINT32_MAX : Int := 4294967295

/-- `LOCKTIME_THRESHOLD`, bitcoinx/tx.py:47. -/
def LOCKTIME_THRESHOLD : Int := 500000000

/-- `TxInput`, bitcoinx/tx.py:200-206. -/
structure TxInput where
  prev_hash : Bytes
  prev_idx : Int
  script_sig : Bytes
  sequence : Int
  deriving DecidableEq, Repr

/-- `TxOutput`, bitcoinx/tx.py:285-289. -/
structure TxOutput where
  value : Int
  script_pubkey : Bytes
  deriving DecidableEq, Repr

/-- `Tx`, bitcoinx/tx.py:50-56. -/
structure Tx where
  version : Int
  inputs : List TxInput
  outputs : List TxOutput
  locktime : Int
  deriving DecidableEq, Repr

namespace TxInput

/-- `is_coinbase()`, bitcoinx/tx.py:208-210. -/
def is_coinbase (i : TxInput) : Bool := decide (i.prev_idx = UINT32_MAX) && decide (i.prev_hash = ZERO)

/-- `TxInput.read(read)`, bitcoinx/tx.py:212-219.  `read(32)` may return less at the end of the
stream. -/
def read : Reader TxInput := fun s => do
  let prev_hash := s.take 32
  let s := s.drop 32
  let (prev_idx, s) ← read_le_uint32 s
  let (script_sig, s) ← read_varbytes s
  let (sequence, s) ← read_le_uint32 s
  return ({ prev_hash, prev_idx, script_sig, sequence }, s)

/-- `prevout_bytes()`, bitcoinx/tx.py:221-222. -/
def prevout_bytes (i : TxInput) : Res Bytes := do return i.prev_hash ++ (← pack_le_uint32 i.prev_idx)

/-- `to_bytes_for_signature(value, script)`, bitcoinx/tx.py:224-230. -/
def to_bytes_for_signature (i : TxInput) (value : Int) (script : Bytes) : Res Bytes := do
  let a ← prevout_bytes i
  let b ← pack_varbytes script
  let c ← pack_le_int64 value
  let d ← pack_le_uint32 i.sequence
  return a ++ (b ++ (c ++ d))

/-- `to_bytes()`, bitcoinx/tx.py:232-237. -/
def to_bytes (i : TxInput) : Res Bytes := do
  let a ← prevout_bytes i
  let b ← pack_varbytes i.script_sig
  let c ← pack_le_uint32 i.sequence
  return a ++ (b ++ c)

/-- `to_hex()`, bitcoinx/tx.py:239-240. -/
def to_hex (i : TxInput) : Res Str := do return hex (← to_bytes i)

/-- `from_bytes(raw)`, bitcoinx/tx.py:242-244. -/
def from_bytes (raw : Bytes) : Res TxInput := do return (← read raw).1

/-- `from_hex(hex_str)`, bitcoinx/tx.py:246-248. -/
def from_hex (hex_str : Str) : Res TxInput := do from_bytes (← fromhex hex_str)

/-- `size()`, bitcoinx/tx.py:250-254. -/
def size (i : TxInput) : Res Nat := do
  let n := i.script_sig.length
  return 40 + (← varint_len n) + n

/-- `is_final()`, bitcoinx/tx.py:256-257. -/
def is_final (i : TxInput) : Bool := decide (i.sequence = 0xffffffff)

end TxInput

namespace TxOutput

/-- `TxOutput.read(read)`, bitcoinx/tx.py:291-296. -/
def read : Reader TxOutput := fun s => do
  let (value, s) ← read_le_int64 s
  let (script_pubkey, s) ← read_varbytes s
  return ({ value, script_pubkey }, s)

/-- `to_bytes()`, bitcoinx/tx.py:298-302. -/
def to_bytes (o : TxOutput) : Res Bytes := do
  let a ← pack_le_int64 o.value
  let b ← pack_varbytes o.script_pubkey
  return a ++ b

/-- `size()`, bitcoinx/tx.py:304-308. -/
def size (o : TxOutput) : Res Nat := do
  let n := o.script_pubkey.length
  return 8 + (← varint_len n) + n

/-- `to_hex()`, bitcoinx/tx.py:310-311. -/
def to_hex (o : TxOutput) : Res Str := do return hex (← to_bytes o)

/-- `from_bytes(raw)`, bitcoinx/tx.py:313-315. -/
def from_bytes (raw : Bytes) : Res TxOutput := do return (← read raw).1

/-- `from_hex(hex_str)`, bitcoinx/tx.py:317-319. -/
def from_hex (hex_str : Str) : Res TxOutput := do from_bytes (← fromhex hex_str)

end TxOutput

namespace Tx

/-- `is_coinbase()`, bitcoinx/tx.py:58-60. -/
def is_coinbase (tx : Tx) : Res Bool :=
  match tx.inputs with
  | [] => .error .indexError
  | i :: _ => .ok i.is_coinbase

/-- `Tx.read(read)`, bitcoinx/tx.py:62-69. -/
def read : Reader Tx := fun s => do
  let (version, s) ← read_le_int32 s
  let (inputs, s) ← read_list TxInput.read s
  let (outputs, s) ← read_list TxOutput.read s
  let (locktime, s) ← read_le_uint32 s
  return ({ version, inputs, outputs, locktime }, s)

/-- `from_bytes(raw)`, bitcoinx/tx.py:71-73. -/
def from_bytes (raw : Bytes) : Res Tx := do return (← read raw).1

/-- `to_bytes()`, bitcoinx/tx.py:75-81. -/
def to_bytes (tx : Tx) : Res Bytes := do
  let a ← pack_le_int32 tx.version
  let b ← pack_list tx.inputs TxInput.to_bytes
  let c ← pack_list tx.outputs TxOutput.to_bytes
  let d ← pack_le_uint32 tx.locktime
  return a ++ (b ++ (c ++ d))

/-- `from_hex(hex_str)`, bitcoinx/tx.py:83-85. -/
def from_hex (hex_str : Str) : Res Tx := do from_bytes (← fromhex hex_str)

/-- `to_hex()`, bitcoinx/tx.py:87-88. -/
def to_hex (tx : Tx) : Res Str := do return hex (← to_bytes tx)

/-- `_hash_prevouts()`, bitcoinx/tx.py:90-92. -/
def hash_prevouts (H : Hashes) (tx : Tx) : Res Bytes := do
  return H.double_sha256 (← packAll TxInput.prevout_bytes tx.inputs).flatten

/-- `_hash_sequence()`, bitcoinx/tx.py:94-96. -/
def hash_sequence (H : Hashes) (tx : Tx) : Res Bytes := do
  return H.double_sha256 (← packAll (fun txin : TxInput => pack_le_uint32 txin.sequence) tx.inputs).flatten

/-- `_hash_outputs()`, bitcoinx/tx.py:98-100. -/
def hash_outputs (H : Hashes) (tx : Tx) : Res Bytes := do
  return H.double_sha256 (← packAll TxOutput.to_bytes tx.outputs).flatten

/-- `sighash_not_single_none`, bitcoinx/tx.py:115. -/
def sighash_not_single_none (sighash : Nat) : Bool :=
  ¬ (SigHash.base sighash = SigHash.SINGLE ∨ SigHash.base sighash = SigHash.NONE)

/-- `hash_prevouts`, bitcoinx/tx.py:113-117. -/
def sighash_prevouts (H : Hashes) (tx : Tx) (sighash : Nat) : Res Bytes :=
  if !SigHash.anyone_can_pay sighash then hash_prevouts H tx else .ok ZERO

/-- `hash_sequence`, bitcoinx/tx.py:113-119. -/
def sighash_sequence (H : Hashes) (tx : Tx) (sighash : Nat) : Res Bytes :=
  if !SigHash.anyone_can_pay sighash && sighash_not_single_none sighash then hash_sequence H tx
  else .ok ZERO

/-- `hash_outputs`, bitcoinx/tx.py:113 and 120-123. -/
def sighash_outputs (H : Hashes) (tx : Tx) (input_index sighash : Nat) : Res Bytes :=
  if sighash_not_single_none sighash then hash_outputs H tx
  else if SigHash.base sighash = SigHash.SINGLE then
    match tx.outputs[input_index]? with
    | some o => do return H.double_sha256 (← o.to_bytes)
    | none => .ok ZERO
  else .ok ZERO

/-- The preimage, bitcoinx/tx.py:116-133. -/
def sighash_preimage (H : Hashes) (tx : Tx) (input_index : Nat) (txin : TxInput) (value : Int)
    (script : Bytes) (sighash : Nat) : Res Bytes := do
  let prevouts ← sighash_prevouts H tx sighash
  let sequence ← sighash_sequence H tx sighash
  let outputs ← sighash_outputs H tx input_index sighash
  let a ← pack_le_int32 tx.version
  let b ← txin.to_bytes_for_signature value script
  let c ← pack_le_uint32 tx.locktime
  let d ← pack_le_uint32 sighash
  return a ++ (prevouts ++ (sequence ++ (b ++ (outputs ++ (c ++ d)))))

/-- `signature_hash(input_index, value, script, *, sighash=None)`, bitcoinx/tx.py:102-135, for a
sighash of type `SigHash` (other types raise `TypeError`). -/
def signature_hash (H : Hashes) (tx : Tx) (input_index value : Int) (script : Bytes)
    (sighash : Option Nat := none) : Res Bytes :=
  if ¬ (0 ≤ input_index ∧ input_index < tx.inputs.length) then .error .indexError
  else if value < 0 then .error .valueError
  else
    let sighash := sighash.getD (SigHash.ALL ||| SigHash.FORKID)
    match tx.inputs[input_index.toNat]? with
    | none => .error .indexError
    | some txin => do
      return H.double_sha256 (← sighash_preimage H tx input_index.toNat txin value script sighash)

/-- `are_inputs_final()`, bitcoinx/tx.py:137-139. -/
def are_inputs_final (tx : Tx) : Bool := tx.inputs.all TxInput.is_final

/-- `is_final_for_block(block_height, timestamp)`, bitcoinx/tx.py:141-153. -/
def is_final_for_block (tx : Tx) (block_height timestamp : Int) : Bool :=
  decide (tx.locktime = 0)
    || decide (tx.locktime < if tx.locktime < LOCKTIME_THRESHOLD then block_height else timestamp)
    || tx.are_inputs_final

/-- `hash()`, bitcoinx/tx.py:155-157. -/
def hash (H : Hashes) (tx : Tx) : Res Bytes := do return H.double_sha256 (← to_bytes tx)

/-- `hex_hash()`, bitcoinx/tx.py:159-162; the hash is not empty. -/
def hex_hash (H : Hashes) (tx : Tx) : Res Str := do return hash_to_hex_str (← hash H tx)

/-- Sum of the sizes of a list, `sum(x.size() for x in items)`. -/
def sumSizes {α : Type} (size : α → Res Nat) : List α → Res Nat
  | [] => .ok 0
  | x :: xs => do return (← size x) + (← sumSizes size xs)

/-- `Tx.size_io(inputs, outputs)`, bitcoinx/tx.py:164-172. -/
def size_io (inputs : List TxInput) (outputs : List TxOutput) : Res Nat := do
  return (← varint_len inputs.length) + (← sumSizes TxInput.size inputs)
    + (← varint_len outputs.length) + (← sumSizes TxOutput.size outputs) + 8

/-- `size()`, bitcoinx/tx.py:174-176. -/
def size (tx : Tx) : Res Nat := size_io tx.inputs tx.outputs

/-- `total_output_value()`, bitcoinx/tx.py:178-180. -/
def total_output_value (tx : Tx) : Int := (tx.outputs.map TxOutput.value).sum

end Tx

end Bitcoinx
