import Verif.Model.Address
import Verif.Spec.Script

/-! # Specification of standard output scripts and of operations without effect -/

namespace Bitcoinx.Spec

/-- The standard forms of output scripts, as lists of operations, and what they pay to. -/
inductive Standard (L : Secp) (coin : Coin) : List Op → Output L → Prop
  /-- DUP HASH160 h EQUALVERIFY CHECKSIG -/
  | pubkeyhash (h : Bytes) : h.length = 20 →
      Standard L coin [.code 0x76, .code 0xa9, .data h, .code 0x88, .code 0xac] (.address (.P2PKH h coin))
  /-- HASH160 h EQUAL -/
  | scripthash (h : Bytes) : h.length = 20 →
      Standard L coin [.code 0xa9, .data h, .code 0x87] (.address (.P2SH h coin))
  /-- key CHECKSIG -/
  | pubkey (d : Bytes) (k : PublicKey L) : PublicKey.from_bytes L d = .ok k →
      Standard L coin [.data d, .code 0xac] (.P2PK k coin)
  /-- pushes and RETURN, then anything -/
  | op_return (ds : List Bytes) (rest : List Op) :
      Standard L coin (ds.map .data ++ .code 0x6a :: rest) .OP_RETURN
  /-- threshold keys count CHECKMULTISIG -/
  | multisig (t : Bytes) (ds : List Bytes) (n : Bytes) (keys : List (PublicKey L)) :
      List.Forall₂ (fun d k => PublicKey.from_bytes L d = .ok k) ds keys →
      itemValue n = ds.length → 1 ≤ itemValue t → itemValue t ≤ ds.length →
      Standard L coin (.data t :: (ds.map .data ++ [.data n, .code 0xae])) (.P2MultiSig keys (itemValue t))

/-- Removal of an operation, or operations, without effect. -/
inductive Removes : List Op → List Op → Prop
  | nop (a b : List Op) : Removes (a ++ .code 0x61 :: b) (a ++ b)
  | drop (a b : List Op) (d : Bytes) : Removes (a ++ .data d :: .code 0x75 :: b) (a ++ b)
  | drop2 (a b : List Op) (d e : Bytes) : Removes (a ++ .data d :: .data e :: .code 0x6d :: b) (a ++ b)

/-- Any number of removals. -/
inductive RemovesAll : List Op → List Op → Prop
  | refl (a : List Op) : RemovesAll a a
  | step {a b c : List Op} : Removes a b → RemovesAll b c → RemovesAll a c

/-- Evaluation of operations by an interpreter given as its step function on some type of states. -/
def evalWith {σ : Type} (step : Op → σ → Option σ) : List Op → σ → Option σ
  | [], s => some s
  | op :: ops, s => (step op s).bind (evalWith step ops)

/-- `OP_NOP` has no effect and the drops undo pushes. -/
def DropsUndo {σ : Type} (step : Op → σ → Option σ) : Prop :=
  (∀ s, step (.code 0x61) s = some s) ∧
  (∀ s d, evalWith step [.data d, .code 0x75] s = some s) ∧
  (∀ s d e, evalWith step [.data d, .data e, .code 0x6d] s = some s)

end Bitcoinx.Spec
