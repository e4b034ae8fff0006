import Verif.Model.Json
import Verif.Spec.Tx
import Verif.Spec.Classify

/-! # Specification of the JSON form of transactions and of lock time descriptions -/

namespace Bitcoinx.Spec

/-! ## The calendar -/

/-- A date of the Gregorian calendar. -/
structure Date where
  year : Nat
  month : Nat
  day : Nat
  deriving DecidableEq, Repr

/-- Every fourth year is a leap year, except the centuries not divisible by 400. -/
def LeapYear (y : Nat) : Prop := 4 ∣ y ∧ (100 ∣ y → 400 ∣ y)

instance (y : Nat) : Decidable (LeapYear y) := inferInstanceAs (Decidable (_ ∧ _))

/-- The last day of a month. -/
def lastDay (y m : Nat) : Nat :=
  if m = 2 then (if LeapYear y then 29 else 28)
  else if m = 4 ∨ m = 6 ∨ m = 9 ∨ m = 11 then 30 else 31

/-- The day after. -/
def Date.next (d : Date) : Date :=
  if d.day < lastDay d.year d.month then { d with day := d.day + 1 }
  else if d.month < 12 then { d with month := d.month + 1, day := 1 }
  else { year := d.year + 1, month := 1, day := 1 }

/-- The date `n` days after 1 January 1970. -/
def dateOf (n : Nat) : Date := Date.next^[n] ⟨1970, 1, 1⟩

/-- The last `w` decimal digits of a number. -/
def fixed : Nat → Nat → Str
  | 0, _ => []
  | w + 1, n => fixed w (n / 10) ++ ["0123456789".toList.getD (n % 10) '?']

/-- The text of a date. -/
def dateText (d : Date) : Str := fixed 4 d.year ++ "-".toList ++ fixed 2 d.month ++ "-".toList ++ fixed 2 d.day

/-- The text of the time `t` seconds after the start of 1970. -/
def timeText (t : Nat) : Str :=
  dateText (dateOf (t / 86400)) ++ " ".toList ++ fixed 2 (t / 3600 % 24) ++ ":".toList ++ fixed 2 (t / 60 % 60) ++
    ":".toList ++ fixed 2 (t % 60)

/-- The text of a number with commas: without them it is the decimal numeral, and there is one
wherever the number of characters that follow is 3, 7, 11, … -/
structure WithCommas (n : Nat) (t : Str) : Prop where
  digits : t.filter (· ≠ ',') = strNat n
  first : t.head? ≠ some ','
  commas : ∀ i (h : i < t.length), t[i] = ',' ↔ (t.length - 1 - i) % 4 = 3

/-! ## Reading JSON back -/

/-- The bytes of a hexadecimal text. -/
def unhex (t : Str) : Option Bytes := (fromhex t).toOption

/-- The input described by a JSON object. -/
def readInput : InputJson → Option TxInput
  | .coinbase h _ sequence _ => do
    let script_sig ← unhex h
    return { prev_hash := zeros 32, prev_idx := 2 ^ 32 - 1, script_sig, sequence }
  | .spend h prev_idx script sequence _ => do
    let prev_hash ← unhex h
    let script_sig ← unhex script.hex
    return { prev_hash, prev_idx, script_sig, sequence }

/-- The output described by a JSON object. -/
def readOutput (j : OutputJson) : Option TxOutput := do
  let script_pubkey ← unhex j.script.hex
  return { value := j.value, script_pubkey }

/-- The transaction described by a JSON object. -/
def readTx (j : TxJson) : Option Tx := do
  let inputs ← j.vin.mapM readInput
  let outputs ← j.vout.mapM readOutput
  return { version := j.version, inputs, outputs, locktime := j.locktime }

/-- The number given to an input. -/
def inputNumber : InputJson → Option Nat
  | .coinbase _ _ _ n => n
  | .spend _ _ _ _ n => n

/-- Bit `k` of the flags. -/
def FlagSet (flags k : Nat) : Prop := flags / 2 ^ k % 2 = 1

/-- The output is classified as paying to a script hash. -/
def PaysToScriptHash (L : Secp) (coin : Coin) (o : TxOutput) : Prop :=
  ∃ h, Standard L coin (Script.stripped_ops o.script_pubkey) (.address (.P2SH h coin))

end Bitcoinx.Spec
