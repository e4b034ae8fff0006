import Verif.Model.Secp

/-! # Specification vocabulary for signatures -/

namespace Bitcoinx.Spec

/-- A compact signature: 64 bytes, the big-endian `r` and `s` both below the group order. -/
def IsCompact (s : Bytes) : Prop :=
  s.length = 64 ∧ be_bytes_to_int (s.take 32) < CURVE_ORDER ∧ be_bytes_to_int (s.drop 32) < CURVE_ORDER

/-- A recoverable signature: 64 bytes and the recovery id. -/
def IsRecoverable (s : Bytes) : Prop := ∃ c r, s = c ++ [r] ∧ c.length = 64 ∧ r.toNat ≤ 3

/-- A message signature: a byte 27 + recovery id, or 31 + recovery id, and 64 bytes. -/
def IsMessageSig (m : Bytes) : Prop := ∃ b c, m = b :: c ∧ c.length = 64 ∧ 27 ≤ b.toNat ∧ b.toNat ≤ 34

end Bitcoinx.Spec
