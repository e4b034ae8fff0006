import Verif.Model.Packing

/-! # Specification of a self-delimiting stream reader -/

namespace Bitcoinx.Spec

/-- A reader that, whenever it returns a value, consumed a prefix `p` of the stream; the value
depends on `p` only; and on every strictly shorter prefix of `p` it raises `struct.error`. -/
def ReadsExactly {α : Type} (r : Reader α) : Prop :=
  ∀ s v rest, r s = .ok (v, rest) →
    ∃ p, s = p ++ rest ∧ (∀ t, r (p ++ t) = .ok (v, t)) ∧
      ∀ q, q <+: p → q ≠ p → r q = .error .structError

/-- The only exception the reader raises is `struct.error`. -/
def OnlyStructError {α : Type} (r : Reader α) : Prop :=
  ∀ s e, r s = .error e → e = .structError

/-- The only exceptions the reader raises are `struct.error` and `OverflowError`. -/
def OnlyReadError {α : Type} (r : Reader α) : Prop :=
  ∀ s e, r s = .error e → e = .structError ∨ e = .overflowError

/-- On the items of `items`, `pack_one` succeeds and `read_one` recovers the item in front of any
continuation of the stream. -/
def InvertsOn {α : Type} (pack_one : α → Res Bytes) (read_one : Reader α) (items : List α) : Prop :=
  ∀ x ∈ items, ∃ b, pack_one x = .ok b ∧ ∀ rest, read_one (b ++ rest) = .ok (x, rest)

end Bitcoinx.Spec
