import Verif.Model.Address
import Verif.Model.Tx

/-! # Model of the JSON form of transactions, `bitcoinx/tx.py`

A JSON object is a structure; a key that may be missing is an `Option`. -/

namespace Bitcoinx

/-- `JSONFlags`, bitcoinx/consts.py:35-48. -/
def JSONFlags.ENUMERATE_INPUTS : Nat := 1
/-- bitcoinx/consts.py:40. -/
def JSONFlags.ENUMERATE_OUTPUTS : Nat := 2
/-- bitcoinx/consts.py:42. -/
def JSONFlags.SIZE : Nat := 4
/-- bitcoinx/consts.py:44. -/
def JSONFlags.LOCKTIME_MEANING : Nat := 8
/-- bitcoinx/consts.py:46. -/
def JSONFlags.CLASSIFY_OUTPUT_SCRIPT : Nat := 16

/-- `bool(flags & flag)`. -/
def hasFlag (flags flag : Nat) : Bool := flags &&& flag != 0

/-! ## The description of lock times -/

/-- Separators in reversed digits. -/
def groupLoop : Str → Str
  | a :: b :: c :: d :: rest => a :: b :: c :: ',' :: groupLoop (d :: rest)
  | digits => digits

/-- `format(n, ',d')`. -/
def formatCommas (n : Int) : Str :=
  let digits := (groupLoop (strNat n.natAbs).reverse).reverse
  if n < 0 then '-' :: digits else digits

/-- Leap years of the C library's `gmtime`. -/
def isLeap (year : Nat) : Bool := year % 4 == 0 && (year % 100 != 0 || year % 400 == 0)

/-- The year and the day in it (from 0) of a day counted from the start of `year`. -/
def yearLoop : Nat → Nat → Nat → Nat × Nat
  | 0, year, days => (year, days)
  | fuel + 1, year, days =>
    let n := if isLeap year then 366 else 365
    if days < n then (year, days) else yearLoop fuel (year + 1) (days - n)

/-- The lengths of the months. -/
def monthLengths (leap : Bool) : List Nat := [31, if leap then 29 else 28, 31, 30, 31, 30, 31, 31, 30, 31, 30, 31]

/-- The month (from `month`) and the day in it (from 0). -/
def monthLoop : Nat → List Nat → Nat → Nat × Nat
  | month, [], days => (month, days)
  | month, n :: rest, days => if days < n then (month, days) else monthLoop (month + 1) rest (days - n)

/-- `'%0wd' % n`. -/
def zeroPad (w n : Nat) : Str := List.replicate (w - (strNat n).length) '0' ++ strNat n

/-- `datetime.datetime.utcfromtimestamp(t).isoformat(' ')` for a non-negative integer; the year 10000
is out of range.  Simplifications: the calendar computation of the C library is replaced by walking over
the years and months; times beyond the range of the platform's `time_t`, for which the exception is
`OverflowError`, are not distinguished. -/
def utcIso (t : Nat) : Res Str :=
  if t ≥ 253402300800 then .error .valueError
  else
    let days := t / 86400
    let secs := t % 86400
    let (year, yday) := yearLoop days 1970 days
    let (month, mday) := monthLoop 1 (monthLengths (isLeap year)) yday
    .ok (zeroPad 4 year ++ ['-'] ++ zeroPad 2 month ++ ['-'] ++ zeroPad 2 (mday + 1) ++ [' ']
      ++ zeroPad 2 (secs / 3600) ++ [':'] ++ zeroPad 2 (secs % 3600 / 60) ++ [':'] ++ zeroPad 2 (secs % 60))

/-- `locktime_description(locktime)`, bitcoinx/tx.py:336-343. -/
def locktime_description (locktime : Int) : Res Str :=
  if locktime = 0 then .ok "valid in any block".toList
  else if locktime < 500000000 then
    .ok ("valid in blocks with height greater than ".toList ++ formatCommas locktime)
  else do
    let utc ← utcIso locktime.toNat
    return "valid in blocks with MTP greater than ".toList ++ utc ++ " UTC".toList

/-! ## Transactions -/

/-- The object made by `txin.to_json`. -/
inductive InputJson
  | coinbase (coinbase text : Str) (sequence : Int) (nInput : Option Nat)
  | spend (hash : Str) (idx : Int) (script : ScriptJson) (sequence : Int) (nInput : Option Nat)
  deriving DecidableEq

/-- The object made by `txout.to_json`. -/
structure OutputJson where
  value : Int
  script : ScriptJson
  nOutput : Option Nat := none
  deriving DecidableEq

/-- The object made by `tx.to_json`. -/
structure TxJson where
  version : Int
  nInputs : Nat
  vin : List InputJson
  nOutputs : Nat
  vout : List OutputJson
  locktime : Int
  hash : Str
  size : Option Nat := none
  locktimeMeaning : Option Str := none
  deriving DecidableEq

/-- `txin.to_json(flags, index)`, bitcoinx/tx.py:259-276; `decode` is `bytes.decode(errors='replace')`.
The coin passed for the script is `None` in the source, and is not used. -/
def TxInput.to_json (H : Hashes) (L : Secp) (decode : Bytes → Str) (i : TxInput) (flags : Nat)
    (index : Option Nat := none) : Res InputJson :=
  let nInput := if hasFlag flags JSONFlags.ENUMERATE_INPUTS then index else none
  if i.is_coinbase then
    return .coinbase (hex i.script_sig) (decode i.script_sig) i.sequence nInput
  else do
    let script ← Script.to_json H L i.script_sig (hasFlag flags JSONFlags.CLASSIFY_OUTPUT_SCRIPT) true Bitcoin
    return .spend (hex i.prev_hash) i.prev_idx script i.sequence nInput

/-- `txout.to_json(flags, coin, index)`, bitcoinx/tx.py:321-328. -/
def TxOutput.to_json (H : Hashes) (L : Secp) (o : TxOutput) (flags : Nat) (coin : Coin)
    (index : Option Nat := none) : Res OutputJson := do
  let script ← Script.to_json H L o.script_pubkey (hasFlag flags JSONFlags.CLASSIFY_OUTPUT_SCRIPT) false coin
  return { value := o.value, script,
           nOutput := if hasFlag flags JSONFlags.ENUMERATE_OUTPUTS then index else none }

/-- `[f(item, index) for index, item in enumerate(items)]`. -/
def enumMap {α β : Type} (f : α → Nat → Res β) : Nat → List α → Res (List β)
  | _, [] => .ok []
  | n, x :: xs => do
    let y ← f x n
    let ys ← enumMap f (n + 1) xs
    return y :: ys

/-- A key that is set if the flags have `flag`, as in bitcoinx/tx.py:193-196. -/
def whenFlag {α : Type} (flags flag : Nat) (value : Res α) : Res (Option α) :=
  if hasFlag flags flag then do return some (← value) else return none

/-- `tx.to_json(flags, coin)`, bitcoinx/tx.py:182-197. -/
def Tx.to_json (H : Hashes) (L : Secp) (decode : Bytes → Str) (tx : Tx) (flags : Nat) (coin : Coin) :
    Res TxJson := do
  let vin ← enumMap (fun i n => i.to_json H L decode flags (some n)) 0 tx.inputs
  let vout ← enumMap (fun o n => o.to_json H L flags coin (some n)) 0 tx.outputs
  let hash ← tx.hex_hash H
  let size ← whenFlag flags JSONFlags.SIZE tx.size
  let locktimeMeaning ← whenFlag flags JSONFlags.LOCKTIME_MEANING (locktime_description tx.locktime)
  return { version := tx.version, nInputs := tx.inputs.length, vin, nOutputs := tx.outputs.length, vout,
           locktime := tx.locktime, hash, size, locktimeMeaning }

end Bitcoinx
