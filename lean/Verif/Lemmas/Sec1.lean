import Verif.Lemmas.Secp256k1

/-! # The functions written out and the standards -/

namespace Bitcoinx.K1

open Spec WeierstrassCurve

theorem point_bijective : Function.Bijective Pt.point :=
  ⟨Pt.point_injective, fun p => ⟨⟨fromPoint p, valid_fromPoint p⟩, toPoint_fromPoint p⟩⟩

theorem point_some (p : Pt) (x y : Nat) (h : p.1 = some (x, y)) :
    ∃ hn, p.point = .some (x : F) (y : F) hn ∧ (x : F).val = x ∧ (y : F).val = y := by
  obtain ⟨r, hr⟩ := p
  simp only at h
  subst h
  have hv := valid_some.1 hr
  exact ⟨_, rfl, ZMod.val_natCast_of_lt hv.1, ZMod.val_natCast_of_lt hv.2.1⟩

theorem point_eq_some (p : Pt) (x y : F) (hn : W.Nonsingular x y) :
    p.point = .some x y hn ↔ p.1 = some (x.val, y.val) := by
  constructor
  · intro h
    have h1 : fromPoint (toPoint p.1 p.2) = p.1 := fromPoint_toPoint p.1 p.2
    rw [← h1]
    exact congrArg fromPoint h
  · intro h
    obtain ⟨hn', e, _, _⟩ := point_some p _ _ h
    rw [e]
    congr 1 <;> exact ZMod.natCast_zmod_val _

theorem point_zero_iff (p : Pt) : p.point = 0 ↔ p = 0 := by
  rw [← Pt.point_zero]; exact Pt.point_injective.eq_iff

theorem isBase_gen : IsBase Pt.gen.point := by
  obtain ⟨hn, h, _⟩ := point_some Pt.gen _ _ rfl
  exact ⟨hn, h⟩

theorem isBase_unique {B : secpCurve.Point} (h : IsBase B) : B = Pt.gen.point := by
  obtain ⟨h1, rfl⟩ := h
  obtain ⟨h2, e⟩ := isBase_gen
  rw [e]

theorem isSec1_iff (b : Bytes) (x y : Nat) (hx : x < 256 ^ 32) (hy : y < 256 ^ 32) :
    IsSec1 b x y ↔ b = serialize true (some (x, y)) ∨ b = serialize false (some (x, y)) ∨ b = hybrid x y := by
  have key : ∀ (X : Bytes) (v : Nat), v < 256 ^ 32 → (X = beBytes 32 v ↔ X.length = 32 ∧ beValue X = v) := by
    intro X v hv
    constructor
    · rintro rfl; exact ⟨by simp, beValue_beBytes _ _ hv⟩
    · rintro ⟨h1, rfl⟩
      have := beBytes_beValue X
      rw [h1] at this
      exact this.symm
  have hd : ∀ (a : UInt8) (n : Nat), n < 256 → (a.toNat = n ↔ a = UInt8.ofNat n) := by
    intro a n hn
    rw [← UInt8.toNat_inj, UInt8.toNat_ofNat', Nat.mod_eq_of_lt hn]
  unfold IsSec1
  constructor
  · rintro (⟨a, X, rfl, h1, h2, h3⟩ | ⟨a, X, Y, rfl, h1, h2, h3, h4, h5⟩)
    · left
      rw [(key X x hx).2 ⟨h1, h2⟩, (hd a _ (by omega)).1 h3]
      simp only [serialize, if_true]
      rcases Nat.mod_two_eq_zero_or_one y with h | h <;> simp [h]
    · right
      rw [(key X x hx).2 ⟨h1, h3⟩, (key Y y hy).2 ⟨h2, h4⟩]
      rcases h5 with h5 | h5
      · left; rw [(hd a _ (by omega)).1 h5]; simp [serialize]
      · right
        rw [(hd a _ (by omega)).1 h5, hybrid]
        rcases Nat.mod_two_eq_zero_or_one y with h | h <;> simp [h]
  · rintro (rfl | rfl | rfl)
    · left
      refine ⟨_, _, by rw [serialize, if_pos rfl], by simp, beValue_beBytes _ _ hx, ?_⟩
      rcases Nat.mod_two_eq_zero_or_one y with h | h <;> simp [h]
    · right
      refine ⟨4, _, _, by rw [serialize]; simp, by simp, by simp, beValue_beBytes _ _ hx, beValue_beBytes _ _ hy, .inl rfl⟩
    · right
      refine ⟨_, _, _, by rw [hybrid], by simp, by simp, beValue_beBytes _ _ hx, beValue_beBytes _ _ hy, .inr ?_⟩
      rcases Nat.mod_two_eq_zero_or_one y with h | h <;> simp [h]

theorem val_smul (a : N) (p : Pt) : a.val • p = a • p := by
  rw [← cast_nsmul, ZMod.natCast_zmod_val]

/-- The point of the verification and the equation. -/
theorem ecdsaPoint_iff (R Q : Pt) (e r s : Nat) (hs : (s : N) ≠ 0) :
    ecdsaPoint CURVE_ORDER Pt.gen.point Q.point e r s = R.point ↔ Eqn r s e R Q := by
  have h : ecdsaPoint CURVE_ORDER Pt.gen.point Q.point e r s =
      (((e : N) * (s : N)⁻¹).val • Pt.gen + ((r : N) * (s : N)⁻¹).val • Q : Pt).point := by
    rw [ecdsaPoint, Pt.point_add, Pt.point_nsmul, Pt.point_nsmul]
  rw [h, Pt.point_injective.eq_iff, val_smul, val_smul]
  have e1 : ((e : N) * (s : N)⁻¹) • Pt.gen + ((r : N) * (s : N)⁻¹) • Q =
      (s : N)⁻¹ • ((e : N) • Pt.gen + (r : N) • Q) := by
    rw [smul_add, smul_smul, smul_smul, mul_comm (e : N), mul_comm (r : N)]
  rw [e1, inv_smul_eq_iff₀ hs, Eqn, eq_comm]

theorem castN_ne {s : Nat} (h0 : 0 < s) (h : s < CURVE_ORDER) : (s : N) ≠ 0 := by
  rw [ne_eq, castN_eq_zero h]; omega

/-- A signature is valid if the equation holds for a point whose first coordinate is `r` modulo the
order. -/
theorem ecdsaValid_iff (Q : Pt) (e r s : Nat) : EcdsaValid CURVE_ORDER Pt.gen.point Q.point e r s ↔
    0 < r ∧ r < CURVE_ORDER ∧ 0 < s ∧ s < CURVE_ORDER ∧
      ∃ (R : Pt) (x y : Nat), R.1 = some (x, y) ∧ x % CURVE_ORDER = r ∧ Eqn r s e R Q := by
  unfold EcdsaValid
  refine and_congr_right fun h1 => and_congr_right fun h2 => and_congr_right fun h3 => and_congr_right fun h4 => ?_
  have hs := castN_ne h3 h4
  constructor
  · rintro ⟨x, y, hn, he, hx⟩
    obtain ⟨R, hR⟩ := point_bijective.2 (.some x y hn)
    refine ⟨R, x.val, y.val, (point_eq_some R x y hn).1 hR, hx, ?_⟩
    rw [← ecdsaPoint_iff R Q e r s hs, hR]; exact he
  · rintro ⟨R, x, y, hR, hx, he⟩
    obtain ⟨hn, hp, hxv, hyv⟩ := point_some R x y hR
    refine ⟨x, y, hn, ?_, by rw [hxv]; exact hx⟩
    rw [← hp]; exact (ecdsaPoint_iff R Q e r s hs).2 he

theorem scalar_cast (m : Bytes) : ((scalar m : Nat) : N) = ((beValue m : Nat) : N) := by
  rw [scalar, castN_mod, be_bytes_to_int_eq]

theorem eqn_scalar (r s : Nat) (m : Bytes) (R Q : Pt) : Eqn r s (scalar m) R Q ↔ Eqn r s (beValue m) R Q := by
  unfold Eqn; rw [scalar_cast]

/-- Verification of the library and that of the standard. -/
theorem verify_valid (sig m : Bytes) (Q : Pt) (r s : Nat) (hr : beValue (sig.take 32) = r)
    (hs : beValue (sig.drop 32) = s) (hrlt : r < CURVE_ORDER) :
    verify sig m Q.1 = true ↔ EcdsaValid CURVE_ORDER Pt.gen.point Q.point (beValue m) r s ∧ s ≤ CURVE_ORDER / 2 := by
  rw [verify_iff sig m Q r s (by rw [be_bytes_to_int_eq]; exact hr) (by rw [be_bytes_to_int_eq]; exact hs) hrlt,
    ecdsaValid_iff]
  simp only [eqn_scalar]
  have := half_lt
  unfold HALF_ORDER at *
  constructor
  · rintro ⟨h1, h2, h3, h4⟩; exact ⟨⟨h1, hrlt, h2, by omega, h4⟩, h3⟩
  · rintro ⟨⟨h1, _, h2, _, h4⟩, h3⟩; exact ⟨h1, h2, h3, h4⟩

/-- Recovery of the library and the point of the standard. -/
theorem recover_valid_iff (sig m : Bytes) (v : Nat) (Q : Pt) (r s : Nat) (hr : beValue (sig.take 32) = r)
    (hs : beValue (sig.drop 32) = s) (hrlt : r < CURVE_ORDER) (hslt : s < CURVE_ORDER) :
    Pt.recover sig v m = some Q ↔ 0 < r ∧ 0 < s ∧ Q.point ≠ 0 ∧
      ∃ x y h, ecdsaPoint CURVE_ORDER Pt.gen.point Q.point (beValue m) r s = .some x y h ∧
        x.val = r + CURVE_ORDER * (v / 2 % 2) ∧ y.val % 2 = v % 2 := by
  rw [Pt.recover_eq_some, recover_iff sig m v r s (by rw [be_bytes_to_int_eq]; exact hr)
    (by rw [be_bytes_to_int_eq]; exact hs) hrlt Q, ← Nat.pos_iff_ne_zero, ne_eq Q.point, point_zero_iff]
  refine and_congr_right fun h1 => and_congr_right fun h2 => and_congr_right fun h3 => ?_
  have hsN := castN_ne h2 hslt
  have hv : (if v / 2 % 2 = 1 then r + CURVE_ORDER else r) = r + CURVE_ORDER * (v / 2 % 2) := by
    rcases Nat.mod_two_eq_zero_or_one (v / 2) with h | h <;> simp [h]
  constructor
  · rintro ⟨R, ⟨x, y, hR, hx, hy⟩, he⟩
    obtain ⟨hn, hp, hxv, hyv⟩ := point_some R x y hR
    rw [eqn_scalar] at he
    refine ⟨x, y, hn, ?_, by rw [hxv, hx, hv], by rw [hyv]; exact hy⟩
    rw [← hp]; exact (ecdsaPoint_iff R Q _ r s hsN).2 he
  · rintro ⟨x, y, hn, he, hx, hy⟩
    obtain ⟨R, hR⟩ := point_bijective.2 (.some x y hn)
    refine ⟨R, ⟨x.val, y.val, (point_eq_some R x y hn).1 hR, by rw [hv]; exact hx, hy⟩, ?_⟩
    rw [eqn_scalar, ← ecdsaPoint_iff R Q _ r s hsN, hR]; exact he

theorem isDerNumber_iff (b : Bytes) (v : Nat) : IsDerNumber b v ↔ Minimal b ∧ beValue b = v := by
  constructor
  · rintro ⟨h0, rfl, hu, hl⟩
    refine ⟨?_, rfl⟩
    match b, h0 with
    | [a], _ => simpa [Minimal, beValue] using hu
    | a :: c :: t, _ =>
      simp only [beValue, List.length_cons] at hu hl
      have e1 : t.length + 1 + 1 - 1 = t.length + 1 := by omega
      have e2 : t.length + 1 + 1 - 2 = t.length := by omega
      rw [e1] at hu
      rw [e2] at hl
      have hl := hl (by omega)
      constructor
      · by_contra hc
        have : 128 * 256 ^ (t.length + 1) ≤ a.toNat * 256 ^ (t.length + 1) := Nat.mul_le_mul_right _ (by omega)
        omega
      · by_contra hc
        push Not at hc
        obtain ⟨rfl, hc⟩ := hc
        have h1 : c.toNat * 256 ^ t.length + beValue t < 128 * 256 ^ t.length := by
          have h2 := beValue_lt t
          have h3 : (c.toNat + 1) * 256 ^ t.length ≤ 128 * 256 ^ t.length := Nat.mul_le_mul_right _ (by omega)
          rw [add_mul, one_mul] at h3
          omega
        simp at hl
        omega
  · rintro ⟨hm, rfl⟩
    refine ⟨?_, rfl, hm.upper, hm.lower⟩
    have := hm.pos
    intro h
    rw [h] at this
    simp at this

theorem compact_take (r s : Nat) : (compact r s).take 32 = beBytes 32 r := List.take_left' (by simp)
theorem compact_drop (r s : Nat) : (compact r s).drop 32 = beBytes 32 s := List.drop_left' (by simp)

/-- The DER form of the standard is the one that is written. -/
theorem isDerSignature_iff (b : Bytes) (r s : Nat) (hr : r < CURVE_ORDER) (hs : s < CURVE_ORDER) :
    IsDerSignature b r s ↔ b = serialize_der (compact r s) := by
  have hr' := hr.trans order_lt_256
  have hs' := hs.trans order_lt_256
  have hlen : (compact r s).length = 64 := by simp [compact]
  rw [serialize_der_eq _ hlen, compact_take, compact_drop]
  obtain ⟨m1, v1, l1⟩ := derBody_spec (beBytes 32 r)
  obtain ⟨m2, v2, l2⟩ := derBody_spec (beBytes 32 s)
  rw [beValue_beBytes _ _ hr'] at v1
  rw [beValue_beBytes _ _ hs'] at v2
  rw [beBytes_length] at l1 l2
  constructor
  · rintro ⟨R, S, lr, ls, l, hR, hS, rfl, rfl, h1, h2, rfl, h3, rfl⟩
    rw [isDerNumber_iff] at hR hS
    obtain rfl : derBody (beBytes 32 r) = R := m1.unique hR.1 (by rw [v1, hR.2])
    obtain rfl : derBody (beBytes 32 s) = S := m2.unique hS.1 (by rw [v2, hS.2])
    simp
  · rintro rfl
    refine ⟨_, _, _, _, _, (isDerNumber_iff _ _).2 ⟨m1, v1⟩, (isDerNumber_iff _ _).2 ⟨m2, v2⟩, rfl, rfl,
      by omega, by omega, rfl, by omega, by simp⟩

end Bitcoinx.K1
