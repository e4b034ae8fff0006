import Verif.Spec.Chain

/-! # Histories that differ in the order in which headers arrive -/

namespace Bitcoinx.Spec

/-- `connect` accepts the headers one after the other. -/
inductive Accepts : Headers → List Bytes → Headers → Prop
  | nil {s : Headers} : Accepts s [] s
  | cons {s s1 s2 : Headers} {raw : Bytes} {r : Header × Nat} {rest : List Bytes} :
      s.connect raw = (s1, .ok r) → Accepts s1 rest s2 → Accepts s (raw :: rest) s2

/-- Each header comes after its predecessor, or its predecessor is known from the start. -/
def ParentsFirst (H : Hashes) (known L : List Bytes) : Prop :=
  ∀ u x v, L = u ++ x :: v → ∃ y ∈ known ++ u, header_hash H y = header_prev_hash x

/-- There is room for `n` more headers (see `Room`). -/
def RoomFor (s : Headers) (n : Nat) : Prop :=
  s.chains.length + n ≤ 65536 ∧ ∀ k, s.len = .ok k → k + n < 2 ^ 32

end Bitcoinx.Spec
