import Verif.Model.Address
import Verif.Spec.Tx
import Verif.Spec.Script
import Verif.Spec.Keys

/-! # What the network requires of an input, and how a program signs one -/

namespace Bitcoinx.Spec
variable {L : Secp}

/-- The data with the byte of its length. -/
def sized (d : Bytes) : Bytes := UInt8.ofNat d.length :: d

/-- `RIPEMD160(SHA256(x))`. -/
def hashOf (H : Hashes) (x : Bytes) : Bytes := H.ripemd160 (H.sha256 x)

/-- `sig` is a DER signature and a sighash byte, and the signature is one by the point over what the byte says of the
transaction. -/
def SignedBy (H : Hashes) (L : Secp) (tx : Tx) (i : Nat) (value : Int) (code : Bytes) (sig : Bytes) (p : L.Point) :
    Prop :=
  ∃ der t txin s, sig = der ++ [t] ∧ sig.length < 76 ∧ tx.inputs[i]? = some txin ∧ L.parse_der der = some s ∧
    L.verify s (twice H.sha256 (preimage (twice H.sha256) tx i txin value code t.toNat)) p = true

/-- The unlocking script satisfies the locking script, for the four common forms. -/
inductive Satisfied (H : Hashes) (L : Secp) (tx : Tx) (i : Nat) (value : Int) : (code unlock lock : Bytes) → Prop
  /-- `<sig>` for `<key> CHECKSIG` -/
  | key {code sig key p} : L.parse key = some p → SignedBy H L tx i value code sig p →
      Satisfied H L tx i value code (sized sig) (sized key ++ [0xac])
  /-- `<sig> <key>` for `DUP HASH160 <hash> EQUALVERIFY CHECKSIG` -/
  | hash {code sig key p} : L.parse key = some p → SignedBy H L tx i value code sig p →
      Satisfied H L tx i value code (sized sig ++ sized key) ([0x76, 0xa9, 20] ++ hashOf H key ++ [0x88, 0xac])
  /-- `0 <sig> ... <sig>` for `m <key> ... <key> n CHECKMULTISIG`: signatures by `m` of the keys, in their order -/
  | multi {code sigs keys ps qs} {m : Nat} : List.Forall₂ (fun k p => L.parse k = some p) keys ps → qs.Sublist ps →
      List.Forall₂ (SignedBy H L tx i value code) sigs qs → sigs.length = m →
      Satisfied H L tx i value code (0 :: sigs.flatMap sized)
        (UInt8.ofNat (0x50 + m) :: (keys.flatMap sized ++ [UInt8.ofNat (0x50 + keys.length), 0xae]))

/-- Input `i` may spend an output of this value with this locking script: its script satisfies it, or, if it is
`HASH160 <hash> EQUAL`, ends with the push of a script with this hash that the part before satisfies. -/
def Spends (H : Hashes) (L : Secp) (tx : Tx) (i : Nat) (value : Int) (lock : Bytes) : Prop :=
  ∃ txin, tx.inputs[i]? = some txin ∧ (Satisfied H L tx i value lock txin.script_sig lock ∨
    ∃ redeem unlock e, lock = [0xa9, 20] ++ hashOf H redeem ++ [0x87] ∧ Encodes e (.data redeem) ∧
      txin.script_sig = unlock ++ e ∧ Satisfied H L tx i value redeem unlock redeem)

/-! ## A program that signs -/

/-- The outputs it can spend. -/
inductive Lock (L : Secp)
  | key (p : PublicKey L)
  | hash (p : PublicKey L)
  | multi (ps : List (PublicKey L)) (m : Nat)
  | script (ps : List (PublicKey L)) (m : Nat)

/-- The locking script: `P2PK_script()`, `P2PKH_script()`, `P2MultiSig_Output(keys, m).to_script_bytes()`, or
`P2SH_Address(hash160(script), coin).to_script_bytes()` of the last. -/
def Lock.to_script (H : Hashes) : Lock L → Res Bytes
  | .key p => p.P2PK_script
  | .hash p => p.P2PKH_script H
  | .multi ps m => (Output.P2MultiSig ps m).to_script_bytes
  | .script ps m => do
    (← P2SH_Address (H.hash160 (← (Output.P2MultiSig ps m).to_script_bytes)) Bitcoin).to_script_bytes

/-- The script that is signed. -/
def Lock.code (H : Hashes) : Lock L → Res Bytes
  | .script ps m => (Output.P2MultiSig ps m).to_script_bytes
  | lock => lock.to_script H

/-- `Script().push_many(...)` of what unlocks it. -/
def Lock.unlock (sigs : List Bytes) : Lock L → Res Bytes
  | .key _ => Script.push_many [] (sigs.map .data)
  | .hash p => Script.push_many [] (sigs.map .data ++ [.data p.to_bytes])
  | .multi _ _ => Script.push_many [] (.op 0 :: sigs.map .data)
  | .script ps m => do
    Script.push_many [] (.op 0 :: sigs.map .data ++ [.data (← (Output.P2MultiSig ps m).to_script_bytes)])

/-- `Signature.from_der_sig(key.sign(tx.signature_hash(i, value, code, sighash), None), sighash)`. -/
def txSignature (H : Hashes) (L : Secp) (tx : Tx) (i : Nat) (value : Int) (code : Bytes) (t : Nat) (k : PrivateKey) :
    Res Bytes := do
  Signature.from_der_sig L (← k.sign L (← tx.signature_hash H i value code (some t)) none) t

/-- What is to be signed: the output that an input spends, the keys to sign with, and the sighash. -/
structure Job (L : Secp) where
  i : Nat
  value : Int
  lock : Lock L
  signers : List PrivateKey
  sighash : Nat

/-- `tx.inputs[i].script_sig = ...` -/
def setScript (tx : Tx) (i : Nat) (script_sig : Bytes) : Tx :=
  { tx with inputs := tx.inputs.modify i (fun txin => { txin with script_sig }) }

/-- Sign one input. -/
def signInput (H : Hashes) (L : Secp) (tx : Tx) (job : Job L) : Res Tx := do
  let code ← job.lock.code H
  let sigs ← packAll (txSignature H L tx job.i job.value code job.sighash) job.signers
  return setScript tx job.i (← job.lock.unlock sigs)

/-- Sign inputs one after another. -/
def signAll (H : Hashes) (L : Secp) : Tx → List (Job L) → Res Tx
  | tx, [] => .ok tx
  | tx, job :: jobs => do signAll H L (← signInput H L tx job) jobs

/-- The signers are those that the output asks for. -/
def Lock.Signers : Lock L → List PrivateKey → Prop
  | .key p, ks => ∃ k, ks = [k] ∧ IsPublicKeyOf p k
  | .hash p, ks => ∃ k, ks = [k] ∧ IsPublicKeyOf p k
  | .multi ps m, ks => 1 ≤ m ∧ ks.length = m ∧ ps.length ≤ 16 ∧ (∀ p ∈ ps, PubValid p) ∧
      ∃ qs, qs.Sublist ps ∧ List.Forall₂ (fun k q => q.point = secretNumber k • L.gen) ks qs
  | .script ps m, ks => 1 ≤ m ∧ ks.length = m ∧ ps.length ≤ 16 ∧ (∀ p ∈ ps, PubValid p) ∧
      ∃ qs, qs.Sublist ps ∧ List.Forall₂ (fun k q => q.point = secretNumber k • L.gen) ks qs

/-- A job that can be done. -/
structure Job.Valid (job : Job L) (tx : Tx) : Prop where
  input : job.i < tx.inputs.length
  value : 0 ≤ job.value ∧ job.value < 2 ^ 63
  sighash : job.sighash < 256
  keys : ∀ k ∈ job.signers, PrivValid k
  signers : job.lock.Signers job.signers

end Bitcoinx.Spec
