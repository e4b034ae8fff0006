import Verif.Model.Tx
import Verif.Spec.Bytes

/-! # Specification of transactions: ranges, serialization, what a signature commits to, finality -/

namespace Bitcoinx.Spec

/-- The integers of an unsigned field of `w` bytes. -/
def UInt (w : Nat) (v : Int) : Prop := 0 ≤ v ∧ v < 256 ^ w

/-- The integers of a signed field of `w` bytes. -/
def SInt (w : Nat) (v : Int) : Prop := -(256 ^ w / 2 : Int) ≤ v ∧ v < 256 ^ w / 2

/-- The fields of an input are in range.  The hash is not included: it is written as it is. -/
def InRangeInput (i : TxInput) : Prop :=
  UInt 4 i.prev_idx ∧ i.script_sig.length < 2 ^ 64 ∧ UInt 4 i.sequence

/-- The fields of an output are in range. -/
def InRangeOutput (o : TxOutput) : Prop := SInt 8 o.value ∧ o.script_pubkey.length < 2 ^ 64

/-- The fields of a transaction are in range. -/
def InRangeTx (tx : Tx) : Prop :=
  SInt 4 tx.version ∧ tx.inputs.length < 2 ^ 64 ∧ (∀ i ∈ tx.inputs, InRangeInput i) ∧
    tx.outputs.length < 2 ^ 64 ∧ (∀ o ∈ tx.outputs, InRangeOutput o) ∧ UInt 4 tx.locktime

/-- The spent transactions' hashes have the size of a hash. -/
def HashSized (tx : Tx) : Prop := ∀ i ∈ tx.inputs, i.prev_hash.length = 32

/-- The scripts are no longer than an object of Python can be on a 64-bit machine. -/
def Held (tx : Tx) : Prop :=
  (∀ i ∈ tx.inputs, i.script_sig.length < 2 ^ 63) ∧ ∀ o ∈ tx.outputs, o.script_pubkey.length < 2 ^ 63

/-- The low `w` bytes of an integer in two's complement, little-endian. -/
def leInt (w : Nat) (v : Int) : Bytes := (List.range w).map (fun i => UInt8.ofNat (v / 256 ^ i % 256).toNat)

/-- The variable-length encoding of a number. -/
def varint (n : Nat) : Bytes :=
  if n < 253 then leInt 1 n
  else if n < 2 ^ 16 then 0xfd :: leInt 2 n
  else if n < 2 ^ 32 then 0xfe :: leInt 4 n
  else 0xff :: leInt 8 n

/-- Data with its length. -/
def varbytes (d : Bytes) : Bytes := varint d.length ++ d

/-- The output an input spends. -/
def outpoint (i : TxInput) : Bytes := i.prev_hash ++ leInt 4 i.prev_idx

/-- The serialization of an output. -/
def outputBytes (o : TxOutput) : Bytes := leInt 8 o.value ++ varbytes o.script_pubkey

/-- The serialization of an input. -/
def inputBytes (i : TxInput) : Bytes := outpoint i ++ varbytes i.script_sig ++ leInt 4 i.sequence

/-- The serialization of a transaction. -/
def txBytes (tx : Tx) : Bytes :=
  leInt 4 tx.version ++ varint tx.inputs.length ++ tx.inputs.flatMap inputBytes ++
    varint tx.outputs.length ++ tx.outputs.flatMap outputBytes ++ leInt 4 tx.locktime

/-! ## Signature hash types -/

/-- Bit 7: other inputs are left open. -/
def AnyoneCanPay (t : Nat) : Prop := t / 128 % 2 = 1

/-- Low five bits 2: all outputs are left open. -/
def IsNone (t : Nat) : Prop := t % 32 = 2

/-- Low five bits 3: the outputs other than that of the input's index are left open. -/
def IsSingle (t : Nat) : Prop := t % 32 = 3

instance (t : Nat) : Decidable (AnyoneCanPay t) := inferInstanceAs (Decidable (_ = _))
instance (t : Nat) : Decidable (IsNone t) := inferInstanceAs (Decidable (_ = _))
instance (t : Nat) : Decidable (IsSingle t) := inferInstanceAs (Decidable (_ = _))

/-- The parts of the transactions to which a signature of type `t` on input `i1` of `tx1` and on
input `i2` of `tx2` commits are the same. -/
structure SigAgree (t : Nat) (tx1 : Tx) (i1 : Nat) (tx2 : Tx) (i2 : Nat) : Prop where
  version : tx1.version = tx2.version
  locktime : tx1.locktime = tx2.locktime
  /-- the input signed: what it spends, and its sequence -/
  spent : tx1.inputs[i1]?.map (fun i => (i.prev_hash, i.prev_idx, i.sequence)) =
    tx2.inputs[i2]?.map (fun i => (i.prev_hash, i.prev_idx, i.sequence))
  /-- what all inputs spend -/
  outpoints : ¬ AnyoneCanPay t → tx1.inputs.map (fun i => (i.prev_hash, i.prev_idx)) =
    tx2.inputs.map (fun i => (i.prev_hash, i.prev_idx))
  /-- the sequences of all inputs -/
  sequences : ¬ AnyoneCanPay t → ¬ IsNone t → ¬ IsSingle t →
    tx1.inputs.map (·.sequence) = tx2.inputs.map (·.sequence)
  /-- all outputs -/
  outputs : ¬ IsNone t → ¬ IsSingle t → tx1.outputs = tx2.outputs
  /-- the output with the input's index -/
  single : IsSingle t → tx1.outputs[i1]? = tx2.outputs[i2]?

/-- The byte strings hashed inside the preimage. -/
def prevoutsPart (tx : Tx) : Bytes := tx.inputs.flatMap outpoint
def sequencePart (tx : Tx) : Bytes := tx.inputs.flatMap (fun i => leInt 4 i.sequence)
def outputsPart (tx : Tx) (i t : Nat) : Option Bytes :=
  if IsNone t then none
  else if IsSingle t then tx.outputs[i]?.map outputBytes
  else some (tx.outputs.flatMap outputBytes)

/-- The hash twice. -/
def twice (hash : Bytes → Bytes) (x : Bytes) : Bytes := hash (hash x)

/-- The preimage of the signature hash of input `i`: the "hash" of nothing is zero. -/
def preimage (hash : Bytes → Bytes) (tx : Tx) (i : Nat) (txin : TxInput) (value : Int) (script : Bytes)
    (t : Nat) : Bytes :=
  leInt 4 tx.version ++
  (if AnyoneCanPay t then zeros 32 else hash (prevoutsPart tx)) ++
  (if AnyoneCanPay t ∨ IsNone t ∨ IsSingle t then zeros 32 else hash (sequencePart tx)) ++
  outpoint txin ++ varbytes script ++ leInt 8 value ++ leInt 4 txin.sequence ++
  ((outputsPart tx i t).map hash).getD (zeros 32) ++
  leInt 4 tx.locktime ++ leInt 4 t

/-- All byte strings that are hashed for a signature. -/
def hashed (hash : Bytes → Bytes) (tx : Tx) (i : Nat) (value : Int) (script : Bytes) (t : Nat) : List Bytes :=
  (tx.inputs[i]?.toList.map (fun txin => preimage hash tx i txin value script t)) ++
    (if AnyoneCanPay t then [] else [prevoutsPart tx]) ++
    (if AnyoneCanPay t ∨ IsNone t ∨ IsSingle t then [] else [sequencePart tx]) ++
    (outputsPart tx i t).toList

/-- The fields that go into the preimage are in range. -/
structure SigRange (tx : Tx) (i : Nat) (txin : TxInput) (value : Int) (script : Bytes) (t : Nat) : Prop where
  version : SInt 4 tx.version
  locktime : UInt 4 tx.locktime
  type : UInt 4 t
  prev_idx : UInt 4 txin.prev_idx
  sequence : UInt 4 txin.sequence
  script : script.length < 2 ^ 64
  value : SInt 8 value
  outpoints : ¬ AnyoneCanPay t → ∀ j ∈ tx.inputs, UInt 4 j.prev_idx
  sequences : ¬ AnyoneCanPay t → ¬ IsNone t → ¬ IsSingle t → ∀ j ∈ tx.inputs, UInt 4 j.sequence
  outputs : ¬ IsNone t → ¬ IsSingle t → ∀ o ∈ tx.outputs, InRangeOutput o
  single : IsSingle t → ∀ o, tx.outputs[i]? = some o → InRangeOutput o

/-- No two different strings of the list have the same hash, and none has hash zero. -/
def NoCollision (hash : Bytes → Bytes) (l : List Bytes) : Prop :=
  (∀ x ∈ l, ∀ y ∈ l, hash x = hash y → x = y) ∧ ∀ x ∈ l, hash x ≠ zeros 32

/-! ## Finality -/

/-- The consensus rule: no lock time; or a lock time that is a height below that of the block, or a
time below that of the block; or all inputs opt out. -/
def Final (tx : Tx) (height time : Int) : Prop :=
  tx.locktime = 0 ∨ (tx.locktime < 500000000 ∧ tx.locktime < height) ∨
    (500000000 ≤ tx.locktime ∧ tx.locktime < time) ∨ ∀ i ∈ tx.inputs, i.sequence = 2 ^ 32 - 1

end Bitcoinx.Spec
