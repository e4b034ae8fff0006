import Mathlib.Algebra.Group.InjSurj
import Mathlib.GroupTheory.Perm.Cycle.Type
import Mathlib.GroupTheory.OrderOfElement
import Verif.Lemmas.Curve

/-! # The group of the curve has prime order

`CURVE_ORDER` times the generator is zero (the kernel evaluates it).  A point is determined by its
first coordinate and the parity of the second, so there are at most `2 * FIELD + 1` points, fewer than
three times `CURVE_ORDER`.  There is no point of order two, as `-7` is not a cube. -/

namespace Bitcoinx.K1

open WeierstrassCurve

/-- The points of the curve in reduced coordinates. -/
def Pt := { r : Raw // valid r = true }

namespace Pt

instance : DecidableEq Pt := fun a b => decidable_of_iff (a.1 = b.1) Subtype.ext_iff.symm

instance : Zero Pt := ⟨⟨none, rfl⟩⟩
instance : Add Pt := ⟨fun a b => ⟨add a.1 b.1, valid_add _ _ a.2 b.2⟩⟩
instance : Neg Pt := ⟨fun a => ⟨neg a.1, valid_neg _ a.2⟩⟩
instance : Sub Pt := ⟨fun a b => a + -b⟩
instance : SMul ℕ Pt := ⟨fun n a => ⟨mul n a.1, valid_mul _ _ a.2⟩⟩
instance : SMul ℤ Pt := ⟨fun n a =>
  match n with
  | .ofNat n => n • a
  | .negSucc n => -((n + 1) • a)⟩

/-- As a point of Mathlib's curve. -/
def point (a : Pt) : W.Point := toPoint a.1 a.2

theorem point_injective : Function.Injective point :=
  fun _ _ h => Subtype.ext (toPoint_inj _ _ h)

theorem point_zero : point 0 = 0 := rfl
theorem point_add (a b : Pt) : point (a + b) = point a + point b := toPoint_add _ _ a.2 b.2
theorem point_neg (a : Pt) : point (-a) = -point a := toPoint_neg _ a.2
theorem point_sub (a b : Pt) : point (a - b) = point a - point b := by
  rw [sub_eq_add_neg, ← point_neg, ← point_add]; rfl
theorem point_nsmul (a : Pt) (n : ℕ) : point (n • a) = n • point a :=
  fromPoint_inj (by
    have h1 : fromPoint (point (n • a)) = mul n a.1 := fromPoint_toPoint _ _
    rw [h1, mul_eq n a.1 a.2]; rfl)
theorem point_zsmul (a : Pt) (n : ℤ) : point (n • a) = n • point a := by
  cases n with
  | ofNat n =>
    have : (Int.ofNat n) • a = n • a := rfl
    rw [this, point_nsmul]; simp
  | negSucc n =>
    have : (Int.negSucc n) • a = -((n + 1) • a) := rfl
    rw [this, point_neg, point_nsmul, negSucc_zsmul]

instance : AddCommGroup Pt :=
  Function.Injective.addCommGroup point point_injective point_zero point_add point_neg point_sub
    point_nsmul point_zsmul

/-- The generator. -/
def gen : Pt := ⟨G, valid_G⟩

theorem ext {a b : Pt} (h : a.1 = b.1) : a = b := Subtype.ext h

theorem val_add (a b : Pt) : (a + b).1 = add a.1 b.1 := rfl
theorem val_nsmul (n : ℕ) (a : Pt) : (n • a).1 = mul n a.1 := rfl
theorem val_neg (a : Pt) : (-a).1 = neg a.1 := rfl
theorem val_zero : (0 : Pt).1 = none := rfl

theorem eq_zero_iff (a : Pt) : a = 0 ↔ a.1 = none := Subtype.ext_iff

theorem gen_ne : gen ≠ 0 := by rw [ne_eq, eq_zero_iff]; simp [gen, G]

/-- Evaluated by the kernel. -/
theorem order_G : mul CURVE_ORDER G = none := by decide +kernel

theorem order_smul_gen : CURVE_ORDER • gen = 0 :=
  (eq_zero_iff _).2 ((val_nsmul CURVE_ORDER gen).trans order_G)

theorem addOrderOf_gen : addOrderOf gen = CURVE_ORDER := by
  rcases (Nat.dvd_prime curve_order_prime).1 (addOrderOf_dvd_of_nsmul_eq_zero order_smul_gen) with h | h
  · exact absurd (AddMonoid.addOrderOf_eq_one_iff.1 h) gen_ne
  · exact h

/-- The first coordinate and the parity of the second. -/
def key : Pt → Option (Fin FIELD × Bool)
  | ⟨none, _⟩ => none
  | ⟨some (x, y), h⟩ => some (⟨x, (valid_some.1 h).1⟩, decide (y % 2 = 1))

theorem field_odd : FIELD % 2 = 1 := by norm_num [FIELD]

theorem y_eq {x y z : Nat} (h1 : valid (some (x, y)) = true) (h2 : valid (some (x, z)) = true) :
    y = z ∨ (y + z = FIELD ∧ 0 < y ∧ 0 < z) := by
  obtain ⟨hx, hy, c1⟩ := valid_some.1 h1
  obtain ⟨_, hz, c2⟩ := valid_some.1 h2
  have n1 := (nonsingular_iff _ _).1 ((curveEq_iff x y).1 c1)
  have n2 := (nonsingular_iff _ _).1 ((curveEq_iff x z).1 c2)
  have h : ((y : F) - z) * (y + z) = 0 := by linear_combination n1 - n2
  rcases mul_eq_zero.1 h with h | h
  · exact .inl ((cast_inj hy hz).1 (sub_eq_zero.1 h))
  · rw [← Nat.cast_add, ZMod.natCast_eq_zero_iff] at h
    obtain ⟨c, hc⟩ := h
    have : c < 2 := by
      by_contra hcc
      have : FIELD * 2 ≤ FIELD * c := Nat.mul_le_mul_left _ (by omega)
      omega
    rcases Nat.lt_or_ge c 1 with h0 | h1
    · have : c = 0 := by omega
      subst this
      left; omega
    · have : c = 1 := by omega
      subst this
      by_cases hyz : y = z
      · exact .inl hyz
      · right; omega

theorem key_injective : Function.Injective key := by
  rintro ⟨a, ha⟩ ⟨b, hb⟩ h
  match a, b, ha, hb, h with
  | none, none, _, _, _ => rfl
  | none, some _, _, _, h => simp [key] at h
  | some _, none, _, _, h => simp [key] at h
  | some (x, y), some (x', z), ha, hb, h =>
    simp only [key, Option.some.injEq, Prod.mk.injEq, Fin.mk.injEq] at h
    obtain ⟨rfl, h⟩ := h
    apply ext
    rcases y_eq ha hb with e | ⟨e, _, _⟩
    · simp [e]
    · have := field_odd
      rw [decide_eq_decide] at h
      omega

instance : Finite Pt := Finite.of_injective key key_injective

theorem card_le : Nat.card Pt ≤ 2 * FIELD + 1 := by
  have h := Nat.card_le_card_of_injective key key_injective
  have e : Nat.card (Option (Fin FIELD × Bool)) = FIELD * 2 + 1 := by
    rw [Nat.card_eq_fintype_card, Fintype.card_option, Fintype.card_prod, Fintype.card_fin,
      Fintype.card_bool]
  omega

theorem order_dvd_card : CURVE_ORDER ∣ Nat.card Pt := by
  have := addOrderOf_dvd_natCard gen
  rwa [addOrderOf_gen] at this

/-- `-7` is not a cube. -/
theorem not_cube (x : F) : x ^ 3 + 7 ≠ 0 := by
  intro h
  have hx : x ≠ 0 := by
    rintro rfl
    apply seven_ne
    linear_combination h
  have h1 : (x ^ 3) ^ ((FIELD - 1) / 3) = 1 := by
    rw [← pow_mul, show 3 * ((FIELD - 1) / 3) = FIELD - 1 by norm_num [FIELD]]
    exact ZMod.pow_card_sub_one_eq_one hx
  have h2 : x ^ 3 = ((FIELD - 7 : Nat) : F) := by
    rw [cast_sub (by norm_num [FIELD])]
    linear_combination h
  rw [h2, ← Nat.cast_pow, ← cast_mod, ← powMod_eq FIELD 256 _ _ (by norm_num [FIELD])] at h1
  have h3 : powMod FIELD (FIELD - 7) 256 ((FIELD - 1) / 3) = 1 := by
    have hlt : powMod FIELD (FIELD - 7) 256 ((FIELD - 1) / 3) < FIELD := by
      rw [powMod_eq _ _ _ _ (by norm_num [FIELD])]
      exact Nat.mod_lt _ field_prime.pos
    exact (cast_inj hlt (by norm_num [FIELD])).1 (by rw [h1]; simp)
  exact absurd h3 (by decide +kernel)

theorem y_ne_zero {x y : Nat} (h : valid (some (x, y)) = true) : 0 < y := by
  rcases Nat.eq_zero_or_pos y with h0 | h0
  · subst h0
    have n := (nonsingular_iff _ _).1 ((curveEq_iff x 0).1 (valid_some.1 h).2.2)
    exact absurd (by rw [← n]; simp) (not_cube (x : F))
  · exact h0

theorem no_two_torsion (a : Pt) (h : 2 • a = 0) : a = 0 := by
  have h1 : a = -a := by rw [two_nsmul] at h; exact eq_neg_of_add_eq_zero_left h
  obtain ⟨r, hr⟩ := a
  cases r with
  | none => rfl
  | some q =>
    obtain ⟨x, y⟩ := q
    have h2 : some (x, y) = neg (some (x, y)) := congrArg Subtype.val h1
    simp only [neg, Option.some.injEq, Prod.mk.injEq, true_and] at h2
    have h0 := y_ne_zero hr
    have := (valid_some.1 hr).2.1
    rw [Nat.mod_eq_of_lt (by omega)] at h2
    have := field_odd
    omega

/-- The number of points of the curve. -/
theorem card_eq : Nat.card Pt = CURVE_ORDER := by
  obtain ⟨c, hc⟩ := order_dvd_card
  have hpos : 0 < Nat.card Pt := Nat.card_pos
  have hlt : 2 * FIELD + 1 < CURVE_ORDER * 3 := by norm_num [FIELD, CURVE_ORDER]
  have hle := card_le
  have hc3 : c < 3 := by
    by_contra h
    have : CURVE_ORDER * 3 ≤ CURVE_ORDER * c := Nat.mul_le_mul_left _ (by omega)
    omega
  have hc0 : c ≠ 0 := by rintro rfl; omega
  have hc2 : c ≠ 2 := by
    rintro rfl
    haveI : Fact (Nat.Prime 2) := ⟨Nat.prime_two⟩
    obtain ⟨a, ha⟩ := exists_prime_addOrderOf_dvd_card' (G := Pt) 2 (by rw [hc]; exact Dvd.intro_left _ rfl)
    have h2 : 2 • a = 0 := by rw [← ha]; exact addOrderOf_nsmul_eq_zero a
    rw [no_two_torsion a h2, addOrderOf_zero] at ha
    omega
  have : c = 1 := by omega
  rw [hc, this, mul_one]

theorem torsion (a : Pt) : CURVE_ORDER • a = 0 := by
  rw [← card_eq]; exact card_nsmul_eq_zero'

end Pt

end Bitcoinx.K1
