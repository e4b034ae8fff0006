import Mathlib.AlgebraicGeometry.EllipticCurve.Affine.Point
import Mathlib.Algebra.Field.ZMod
import Verif.Lemmas.FieldPrime
import Verif.Spec.Bytes

/-! # The curve secp256k1, SEC 1 and SEC 2

The curve and its group are those of Mathlib. -/

namespace Bitcoinx.Spec

open WeierstrassCurve

/-- `y² = x³ + 7` over the integers modulo `FIELD`. -/
def secpCurve : Affine (ZMod FIELD) := { a₁ := 0, a₂ := 0, a₃ := 0, a₄ := 0, a₆ := 7 }

/-- The base point of SEC 2, section 2.4.1. -/
def IsBase (B : secpCurve.Point) : Prop :=
  ∃ h, B = .some
    (0x79be667ef9dcbbac55a06295ce870b07029bfcdb2dce28d959f2815b16f81798 : Nat)
    (0x483ada7726a3c4655da4fbfc0e1108a8fd17b448a68554199c47d08ffb10d4b8 : Nat) h

/-- The encodings of a point with coordinates `x` and `y`, SEC 1, section 2.3.3, and the hybrid form
of X9.62.  The first byte and the numbers that follow: -/
def IsSec1 (b : Bytes) (x y : Nat) : Prop :=
  (∃ a X, b = a :: X ∧ X.length = 32 ∧ beValue X = x ∧ a.toNat = 2 + y % 2) ∨
  (∃ a X Y, b = a :: (X ++ Y) ∧ X.length = 32 ∧ Y.length = 32 ∧ beValue X = x ∧ beValue Y = y ∧
    (a.toNat = 4 ∨ a.toNat = 6 + y % 2))

/-- The point `u₁ B + u₂ Q` of the verification of ECDSA, SEC 1, section 4.1.4, where
`u₁ = e / s` and `u₂ = r / s` modulo the order `n`. -/
noncomputable def ecdsaPoint (n : Nat) (B Q : secpCurve.Point) (e r s : Nat) : secpCurve.Point :=
  ((e : ZMod n) * (s : ZMod n)⁻¹).val • B + ((r : ZMod n) * (s : ZMod n)⁻¹).val • Q

/-- `(r, s)` is a signature of the number `e` for the public key `Q`, SEC 1, section 4.1.4. -/
def EcdsaValid (n : Nat) (B Q : secpCurve.Point) (e r s : Nat) : Prop :=
  0 < r ∧ r < n ∧ 0 < s ∧ s < n ∧
    ∃ x y h, ecdsaPoint n B Q e r s = .some x y h ∧ x.val % n = r

/-- The bytes of a number that is not negative in DER, X.690, section 8.3: at least one byte, the first
bit is zero, the first nine bits are not all zero. -/
def IsDerNumber (b : Bytes) (v : Nat) : Prop :=
  b ≠ [] ∧ beValue b = v ∧ v < 128 * 256 ^ (b.length - 1) ∧
    (2 ≤ b.length → 128 * 256 ^ (b.length - 2) ≤ v)

/-- `b` is the DER form of the signature `(r, s)`: a sequence of two integers. -/
def IsDerSignature (b : Bytes) (r s : Nat) : Prop :=
  ∃ R S lr ls l, IsDerNumber R r ∧ IsDerNumber S s ∧ R.length = lr ∧ S.length = ls ∧
    lr < 128 ∧ ls < 128 ∧ 4 + lr + ls = l ∧ l < 128 ∧
    b = [0x30, UInt8.ofNat l] ++ [0x02, UInt8.ofNat lr] ++ R ++ [0x02, UInt8.ofNat ls] ++ S

end Bitcoinx.Spec
