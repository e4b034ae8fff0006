import Mathlib.AlgebraicGeometry.EllipticCurve.Affine.Point
import Mathlib.Algebra.Field.ZMod
import Mathlib.FieldTheory.Finite.Basic
import Mathlib.Tactic.FieldSimp
import Mathlib.Tactic.LinearCombination
import Verif.Model.Secp256k1
import Verif.Spec.Secp256k1

/-! # The functions on coordinates are those of the elliptic curve

The curve is that of Mathlib, over the integers modulo `FIELD`. -/

namespace Bitcoinx.K1

open WeierstrassCurve

/-- The field. -/
abbrev F := ZMod FIELD

/-- `y² = x³ + 7` -/
abbrev W : Affine F := Spec.secpCurve

theorem small_ne (n : Nat) (h0 : 0 < n) (h : n < FIELD) : ((n : Nat) : F) ≠ 0 := by
  rw [ne_eq, ZMod.natCast_eq_zero_iff]
  exact fun hd => absurd (Nat.le_of_dvd h0 hd) (by omega)

theorem two_ne : (2 : F) ≠ 0 := by
  have := small_ne 2 (by norm_num) (by norm_num [FIELD]); exact_mod_cast this
theorem three_ne : (3 : F) ≠ 0 := by
  have := small_ne 3 (by norm_num) (by norm_num [FIELD]); exact_mod_cast this
theorem seven_ne : (7 : F) ≠ 0 := by
  have := small_ne 7 (by norm_num) (by norm_num [FIELD]); exact_mod_cast this

theorem equation_iff (x y : F) : W.Equation x y ↔ y ^ 2 = x ^ 3 + 7 := by
  rw [Affine.equation_iff]; simp [W, Spec.secpCurve]

theorem nonsingular_iff (x y : F) : W.Nonsingular x y ↔ y ^ 2 = x ^ 3 + 7 := by
  rw [Affine.nonsingular_iff', equation_iff]
  constructor
  · exact fun h => h.1
  · intro h
    refine ⟨h, ?_⟩
    by_cases hy : y = 0
    · left
      have hx : x ≠ 0 := by
        rintro rfl
        rw [hy] at h
        apply seven_ne
        linear_combination -h
      have : (3 : F) * x ^ 2 ≠ 0 := mul_ne_zero three_ne (pow_ne_zero 2 hx)
      simpa [W, Spec.secpCurve] using this
    · right
      have : (2 : F) * y ≠ 0 := mul_ne_zero two_ne hy
      simpa [W, Spec.secpCurve] using this

theorem curveEq_iff (x y : Nat) : curveEq x y = true ↔ W.Nonsingular (x : F) (y : F) := by
  rw [nonsingular_iff, curveEq, beq_iff_eq]
  have h : ((y * y : Nat) : F) = ((x * x * x + 7 : Nat) : F) ↔ (y : F) ^ 2 = (x : F) ^ 3 + 7 := by
    push_cast
    rw [show (y : F) * y = (y : F) ^ 2 by ring, show (x : F) * x * x = (x : F) ^ 3 by ring]
  rw [← h, ZMod.natCast_eq_natCast_iff]
  rfl

/-- Reduced numbers are equal if they are equal in the field. -/
theorem cast_inj {x y : Nat} (hx : x < FIELD) (hy : y < FIELD) : (x : F) = (y : F) ↔ x = y := by
  constructor
  · intro h
    rw [← ZMod.val_natCast_of_lt hx, ← ZMod.val_natCast_of_lt hy, h]
  · rintro rfl; rfl

theorem cast_sub {y : Nat} (hy : y ≤ FIELD) : ((FIELD - y : Nat) : F) = -(y : F) := by
  rw [Nat.cast_sub hy]; simp

theorem cast_mod (n : Nat) : ((n % FIELD : Nat) : F) = (n : F) := ZMod.natCast_mod n FIELD

theorem field_lt : FIELD < 2 ^ 256 := by decide +kernel

theorem inv_cast (a : Nat) : ((inv FIELD a : Nat) : F) = (a : F)⁻¹ := by
  have h : FIELD - 2 < 2 ^ 256 := by have := field_lt; omega
  rw [inv, powMod_eq _ _ _ _ h, cast_mod, Nat.cast_pow]
  by_cases ha : (a : F) = 0
  · rw [ha, inv_zero, zero_pow]
    have : FIELD - 2 ≠ 0 := by norm_num [FIELD]
    exact this
  · have h1 := ZMod.pow_card_sub_one_eq_one ha
    have h2 : FIELD - 1 = (FIELD - 2) + 1 := by norm_num [FIELD]
    rw [h2, pow_succ] at h1
    exact eq_inv_of_mul_eq_one_left h1

/-- The point of the curve with given coordinates. -/
def toPoint : (r : Raw) → valid r = true → W.Point
  | none, _ => 0
  | some (x, y), h => .some (x : F) (y : F) ((curveEq_iff x y).1 (by
      simp only [valid, Bool.and_eq_true] at h; exact h.2))

/-- The coordinates of a point. -/
def fromPoint : W.Point → Raw
  | .zero => none
  | .some x y _ => some (x.val, y.val)

theorem valid_some {x y : Nat} : valid (some (x, y)) = true ↔
    x < FIELD ∧ y < FIELD ∧ curveEq x y = true := by
  simp [valid, and_assoc]

theorem valid_fromPoint (p : W.Point) : valid (fromPoint p) = true := by
  cases p with
  | zero => rfl
  | some x y h =>
    rw [fromPoint, valid_some]
    refine ⟨ZMod.val_lt x, ZMod.val_lt y, ?_⟩
    rw [curveEq_iff]; simpa using h

theorem toPoint_fromPoint (p : W.Point) : toPoint (fromPoint p) (valid_fromPoint p) = p := by
  cases p with
  | zero => rfl
  | some x y h => simp [fromPoint, toPoint]

theorem fromPoint_toPoint (r : Raw) (h : valid r = true) : fromPoint (toPoint r h) = r := by
  cases r with
  | none => rfl
  | some q =>
    obtain ⟨x, y⟩ := q
    have h' := valid_some.1 h
    simp [toPoint, fromPoint, ZMod.val_natCast_of_lt h'.1, ZMod.val_natCast_of_lt h'.2.1]

theorem toPoint_inj {r s : Raw} (hr : valid r = true) (hs : valid s = true)
    (h : toPoint r hr = toPoint s hs) : r = s := by
  rw [← fromPoint_toPoint r hr, h, fromPoint_toPoint]

theorem fromPoint_inj {p q : W.Point} (h : fromPoint p = fromPoint q) : p = q := by
  have : ∀ (r s : Raw) (hr : valid r = true) (hs : valid s = true), r = s → toPoint r hr = toPoint s hs := by
    rintro r s hr hs rfl; rfl
  rw [← toPoint_fromPoint p, ← toPoint_fromPoint q]
  exact this _ _ _ _ h

/-- The formula for the negative. -/
theorem neg_eq (r : Raw) (h : valid r = true) : neg r = fromPoint (-toPoint r h) := by
  cases r with
  | none => rfl
  | some q =>
    obtain ⟨x, y⟩ := q
    have h' := valid_some.1 h
    simp only [neg, toPoint, Affine.Point.neg_some, fromPoint]
    rw [ZMod.val_natCast_of_lt h'.1]
    congr 2
    have e : W.negY (x : F) (y : F) = (((FIELD - y) % FIELD : Nat) : F) := by
      rw [cast_mod, cast_sub (by omega)]; simp [Affine.negY, W, Spec.secpCurve]
    rw [e, ZMod.val_natCast_of_lt (Nat.mod_lt _ field_prime.pos)]

/-- The formula for the line through two points. -/
theorem chord_eq (l x1 y1 x2 : Nat) (hx1 : x1 < FIELD) (hx2 : x2 < FIELD) (hy1 : y1 < FIELD) (s : F)
    (hl : (l : F) = s) :
    chord l x1 y1 x2 = some ((W.addX (x1 : F) (x2 : F) s).val, (W.addY (x1 : F) (x2 : F) (y1 : F) s).val) := by
  have e1 : W.addX (x1 : F) (x2 : F) s =
      (((l * l + (FIELD - x1) + (FIELD - x2)) % FIELD : Nat) : F) := by
    rw [cast_mod]
    push_cast [cast_sub hx1.le, cast_sub hx2.le]
    rw [hl]; simp [Affine.addX, W, Spec.secpCurve]; ring
  have hlt : (l * l + (FIELD - x1) + (FIELD - x2)) % FIELD < FIELD := Nat.mod_lt _ field_prime.pos
  have e2 : W.addY (x1 : F) (x2 : F) (y1 : F) s =
      (((l * (x1 + (FIELD - (l * l + (FIELD - x1) + (FIELD - x2)) % FIELD)) + (FIELD - y1)) % FIELD : Nat) : F) := by
    rw [cast_mod]
    rw [Nat.cast_add, Nat.cast_mul, Nat.cast_add, cast_sub hlt.le, cast_sub hy1.le, ← e1, hl]
    simp only [Affine.addY, Affine.negAddY, Affine.negY]
    simp [W, Spec.secpCurve]; ring
  rw [chord]
  rw [e1, e2, ZMod.val_natCast_of_lt hlt, ZMod.val_natCast_of_lt (Nat.mod_lt _ field_prime.pos)]

/-- The formula for the sum. -/
theorem add_eq (r s : Raw) (hr : valid r = true) (hs : valid s = true) :
    add r s = fromPoint (toPoint r hr + toPoint s hs) := by
  match r, s, hr, hs with
  | none, s, hr, hs =>
    have : toPoint none hr = 0 := rfl
    rw [this, zero_add, fromPoint_toPoint]
    cases s <;> rfl
  | some (x1, y1), none, hr, hs =>
    have : toPoint none hs = 0 := rfl
    rw [this, add_zero, fromPoint_toPoint]
    rfl
  | some (x1, y1), some (x2, y2), hr, hs =>
    obtain ⟨hx1, hy1, c1⟩ := valid_some.1 hr
    obtain ⟨hx2, hy2, c2⟩ := valid_some.1 hs
    have n1 := (nonsingular_iff _ _).1 ((curveEq_iff x1 y1).1 c1)
    have n2 := (nonsingular_iff _ _).1 ((curveEq_iff x2 y2).1 c2)
    have hneg : W.negY (x2 : F) (y2 : F) = -(y2 : F) := by simp [Affine.negY, W, Spec.secpCurve]
    have hy0 : (y1 : F) = -(y2 : F) ↔ (y1 + y2) % FIELD = 0 := by
      rw [eq_neg_iff_add_eq_zero, ← Nat.cast_add, ZMod.natCast_eq_zero_iff, Nat.dvd_iff_mod_eq_zero]
    simp only [add, toPoint]
    by_cases hx : x1 = x2
    · subst hx
      rw [if_pos rfl]
      by_cases hy : (y1 + y2) % FIELD = 0
      · rw [if_pos hy, Affine.Point.add_of_Y_eq rfl (by rw [hneg]; exact hy0.2 hy)]
        rfl
      · have hne : (y1 : F) ≠ W.negY (x1 : F) (y2 : F) := by rw [hneg]; exact fun h => hy (hy0.1 h)
        rw [if_neg hy, Affine.Point.add_of_Y_ne hne, fromPoint]
        refine chord_eq _ _ _ _ hx1 hx1 hy1 _ ?_
        have hyy : (y1 : F) = (y2 : F) := by
          have h : ((y1 : F) - y2) * (y1 + y2) = 0 := by linear_combination n1 - n2
          rcases mul_eq_zero.1 h with h | h
          · exact sub_eq_zero.1 h
          · exact absurd (eq_neg_iff_add_eq_zero.2 h) (by rw [← hneg]; exact hne)
        rw [cast_mod, Affine.slope_of_Y_ne rfl hne]
        push_cast [inv_cast]
        simp only [Affine.negY, W, Spec.secpCurve]
        rw [show (3 : F) * x1 * x1 * (2 * (y1 : F))⁻¹ = 3 * (x1 : F) ^ 2 / (2 * y1) by
          rw [div_eq_mul_inv]; ring]
        congr 1 <;> ring
    · have hx' : (x1 : F) ≠ (x2 : F) := fun h => hx ((cast_inj hx1 hx2).1 h)
      rw [if_neg hx, Affine.Point.add_of_X_ne hx', fromPoint]
      refine chord_eq _ _ _ _ hx1 hx2 hy1 _ ?_
      rw [cast_mod, Affine.slope_of_X_ne hx']
      push_cast [inv_cast, cast_sub hx2.le, cast_sub hy2.le]
      rw [div_eq_mul_inv, sub_eq_add_neg, sub_eq_add_neg]

theorem valid_add (r s : Raw) (hr : valid r = true) (hs : valid s = true) : valid (add r s) = true := by
  rw [add_eq r s hr hs]; exact valid_fromPoint _

theorem valid_neg (r : Raw) (hr : valid r = true) : valid (neg r) = true := by
  rw [neg_eq r hr]; exact valid_fromPoint _

theorem toPoint_add (r s : Raw) (hr : valid r = true) (hs : valid s = true) :
    toPoint (add r s) (valid_add r s hr hs) = toPoint r hr + toPoint s hs :=
  fromPoint_inj (by rw [fromPoint_toPoint, add_eq])

theorem toPoint_neg (r : Raw) (hr : valid r = true) :
    toPoint (neg r) (valid_neg r hr) = -toPoint r hr :=
  fromPoint_inj (by rw [fromPoint_toPoint, neg_eq])

theorem mulLoop_eq (k : Nat) : ∀ (n : Nat) (r : Raw) (hr : valid r = true), n < 2 ^ k →
    mulLoop k n r = fromPoint (n • toPoint r hr) := by
  induction k with
  | zero =>
    intro n r hr hn
    have : n = 0 := by simpa using hn
    subst this
    rw [zero_nsmul]; rfl
  | succ k ih =>
    intro n r hr hn
    have h1 : n / 2 < 2 ^ k := by rw [pow_succ] at hn; omega
    have h2 := ih (n / 2) (add r r) (valid_add r r hr hr) h1
    rw [toPoint_add r r hr hr, ← two_nsmul, ← mul_nsmul', mul_comm (n / 2) 2] at h2
    rw [mulLoop]
    split
    · next ho =>
      have hv : valid (mulLoop k (n / 2) (add r r)) = true := by rw [h2]; exact valid_fromPoint _
      have ht : toPoint _ hv = (2 * (n / 2)) • toPoint r hr :=
        fromPoint_inj (by rw [fromPoint_toPoint, h2])
      rw [add_eq _ _ hr hv, ht, ← succ_nsmul', show 2 * (n / 2) + 1 = n by omega]
    · next ho => rw [h2, show 2 * (n / 2) = n by omega]

theorem mul_eq (n : Nat) (r : Raw) (hr : valid r = true) : mul n r = fromPoint (n • toPoint r hr) :=
  mulLoop_eq _ n r hr Nat.lt_log2_self

theorem valid_mul (n : Nat) (r : Raw) (hr : valid r = true) : valid (mul n r) = true := by
  rw [mul_eq n r hr]; exact valid_fromPoint _

theorem valid_G : valid G = true := by decide +kernel

end Bitcoinx.K1
