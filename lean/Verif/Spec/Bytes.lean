import Verif.Model.Base

/-! # Specification vocabulary for byte strings

Independent of the model's conversion functions. -/

namespace Bitcoinx.Spec

/-- The number a big-endian byte string denotes: the first byte is the most significant. -/
def beValue : Bytes → Nat
  | [] => 0
  | b :: bs => b.toNat * 256 ^ bs.length + beValue bs

/-- The number a little-endian byte string denotes: the first byte is the least significant. -/
def leValue : Bytes → Nat
  | [] => 0
  | b :: bs => b.toNat + 256 * leValue bs

/-- `pack`/`unpack` are exact inverses between the integers `lo..hi` and the byte strings of
length `width`, congruent to the value `denote` of the bytes; everything else is `struct.error`. -/
structure ExactCodec (pack : Int → Res Bytes) (unpack : Bytes → Res Int) (lo hi : Int)
    (width : Nat) (denote : Bytes → Nat) : Prop where
  /-- in range: packs to `width` bytes, which unpack to the same value -/
  pack_ok : ∀ v, lo ≤ v → v ≤ hi → ∃ b, pack v = .ok b ∧ b.length = width ∧ unpack b = .ok v
  /-- out of range: `struct.error` -/
  pack_err : ∀ v, ¬ (lo ≤ v ∧ v ≤ hi) → pack v = .error .structError
  /-- each byte string of the right width unpacks to an in-range value that packs to it -/
  unpack_ok : ∀ b, b.length = width → ∃ v, lo ≤ v ∧ v ≤ hi ∧ unpack b = .ok v ∧ pack v = .ok b ∧
    (denote b : Int) % 256 ^ width = v % 256 ^ width
  /-- wrong width: `struct.error` -/
  unpack_err : ∀ b, b.length ≠ width → unpack b = .error .structError

end Bitcoinx.Spec
