import Mathlib.Algebra.Module.ZMod
import Mathlib.Tactic.Module
import Verif.Lemmas.CurveCodec

/-! # ECDSA over the curve -/

namespace Bitcoinx.K1

open Spec

instance : Fact CURVE_ORDER.Prime := ⟨curve_order_prime⟩

/-- Numbers modulo the order. -/
abbrev N := ZMod CURVE_ORDER

instance : Module N Pt := AddCommGroup.zmodModule Pt.torsion

theorem cast_nsmul (n : Nat) (p : Pt) : (n : N) • p = n • p := Nat.cast_smul_eq_nsmul N n p

theorem castN_mod (n : Nat) : ((n % CURVE_ORDER : Nat) : N) = (n : N) := ZMod.natCast_mod n CURVE_ORDER

theorem order_lt : CURVE_ORDER < 2 ^ 256 := by decide +kernel

theorem inv_castN (a : Nat) : ((inv CURVE_ORDER a : Nat) : N) = (a : N)⁻¹ := by
  have h : CURVE_ORDER - 2 < 2 ^ 256 := by have := order_lt; omega
  rw [inv, powMod_eq _ _ _ _ h, castN_mod, Nat.cast_pow]
  by_cases ha : (a : N) = 0
  · rw [ha, inv_zero, zero_pow]
    have : CURVE_ORDER - 2 ≠ 0 := by norm_num [CURVE_ORDER]
    exact this
  · have h1 := ZMod.pow_card_sub_one_eq_one ha
    have h2 : CURVE_ORDER - 1 = (CURVE_ORDER - 2) + 1 := by norm_num [CURVE_ORDER]
    rw [h2, pow_succ] at h1
    exact eq_inv_of_mul_eq_one_left h1

theorem castN_eq_zero {n : Nat} (h : n < CURVE_ORDER) : (n : N) = 0 ↔ n = 0 := by
  rw [ZMod.natCast_eq_zero_iff]
  constructor
  · intro hd
    by_contra h0
    exact absurd (Nat.le_of_dvd (by omega) hd) (by omega)
  · rintro rfl; exact dvd_zero _

theorem mul_pt (n : Nat) (p : Pt) : mul n p.1 = (n • p).1 := rfl
theorem add_pt (p q : Pt) : add p.1 q.1 = (p + q).1 := rfl
theorem gen_val : Pt.gen.1 = G := rfl

/-- `R` has the first coordinate that `r` and the recovery id tell, and the parity. -/
def Tells (r v : Nat) (R : Pt) : Prop :=
  ∃ x y, R.1 = some (x, y) ∧ x = (if v / 2 % 2 = 1 then r + CURVE_ORDER else r) ∧ y % 2 = v % 2

/-- The equation of ECDSA. -/
def Eqn (r s z : Nat) (R P : Pt) : Prop := (s : N) • R = (z : N) • Pt.gen + (r : N) • P

theorem field_lt_two_order : FIELD < 2 * CURVE_ORDER := by norm_num [FIELD, CURVE_ORDER]
theorem order_lt_field : CURVE_ORDER < FIELD := by norm_num [FIELD, CURVE_ORDER]
theorem order_odd : CURVE_ORDER % 2 = 1 := by norm_num [CURVE_ORDER]

/-- What signing with one nonce gives. -/
theorem signWith_some (d z k r s v : Nat) (h : signWith d z k = some (r, s, v)) :
    0 < r ∧ r < CURVE_ORDER ∧ 0 < s ∧ s ≤ HALF_ORDER ∧ v ≤ 3 ∧
      ∃ R : Pt, Tells r v R ∧ Eqn r s z R (d • Pt.gen) ∧ (R = k • Pt.gen ∨ R = -(k • Pt.gen)) := by
  unfold signWith at h
  have hkG : mul k G = (k • Pt.gen).1 := rfl
  have hvalid := (k • Pt.gen).2
  rw [← hkG] at hvalid
  split at h
  · cases h
  · next x y hxy =>
    rw [hxy] at hvalid hkG
    obtain ⟨hx, hy, _⟩ := valid_some.1 hvalid
    simp only at h
    split at h
    · cases h
    · next hc =>
      push Not at hc
      obtain ⟨hk0, hr0, hs0⟩ := hc
      have hrlt : x % CURVE_ORDER < CURVE_ORDER := Nat.mod_lt _ curve_order_pos
      have hk : (k : N) ≠ 0 := by
        rw [← castN_mod, ne_eq, castN_eq_zero (Nat.mod_lt _ curve_order_pos)]
        exact hk0
      generalize hs : inv CURVE_ORDER k * (z + x % CURVE_ORDER * d) % CURVE_ORDER = s' at *
      have hslt : s' < CURVE_ORDER := by rw [← hs]; exact Nat.mod_lt _ curve_order_pos
      have hsN : (s' : N) = (k : N)⁻¹ * (z + ((x % CURVE_ORDER : Nat) : N) * d) := by
        rw [← hs, castN_mod]; push_cast [inv_castN]; ring
      have hx2 : x = x % CURVE_ORDER + (if CURVE_ORDER ≤ x then CURVE_ORDER else 0) := by
        have := field_lt_two_order
        split
        · rw [Nat.mod_eq_sub_mod (by omega), Nat.mod_eq_of_lt (by omega)]; omega
        · rw [Nat.mod_eq_of_lt (by omega)]; omega
      have hEq : Eqn (x % CURVE_ORDER) s' z (k • Pt.gen) (d • Pt.gen) := by
        unfold Eqn
        rw [← cast_nsmul, ← cast_nsmul, hsN, smul_smul, smul_smul, ← add_smul]
        congr 1
        field_simp
      have hpos := Pt.y_ne_zero hvalid
      have hodd := Pt.field_odd
      split at h
      · next hhigh =>
        simp only [Option.some.injEq, Prod.mk.injEq] at h
        obtain ⟨rfl, rfl, rfl⟩ := h
        refine ⟨by omega, hrlt, by omega, ?_, ?_, -(k • Pt.gen), ⟨x, FIELD - y, ?_, ?_, ?_⟩, ?_, .inr rfl⟩
        · have := order_odd
          unfold HALF_ORDER at *; omega
        · split <;> omega
        · have : (-(k • Pt.gen)).1 = neg (k • Pt.gen).1 := rfl
          rw [this, ← hkG, neg, Nat.mod_eq_of_lt (by omega)]
        · by_cases hcx : CURVE_ORDER ≤ x
          · rw [if_pos hcx] at hx2
            rw [if_pos hcx, if_pos (by omega)]; exact hx2
          · rw [if_neg hcx] at hx2
            rw [if_neg hcx, if_neg (by omega)]; exact hx2
        · split <;> omega
        · unfold Eqn at *
          rw [← hEq, Nat.cast_sub hslt.le]
          simp
      · next hlow =>
        simp only [Option.some.injEq, Prod.mk.injEq] at h
        obtain ⟨rfl, rfl, rfl⟩ := h
        refine ⟨by omega, hrlt, by omega, by omega, ?_, k • Pt.gen, ⟨x, y, hkG.symm, ?_, ?_⟩, hEq, .inl rfl⟩
        · split <;> omega
        · by_cases hcx : CURVE_ORDER ≤ x
          · rw [if_pos hcx] at hx2
            rw [if_pos hcx, if_pos (by omega)]; exact hx2
          · rw [if_neg hcx] at hx2
            rw [if_neg hcx, if_neg (by omega)]; exact hx2
        · split <;> omega

/-- When signing with a nonce fails. -/
theorem signWith_none (d z k x y : Nat) (hxy : mul k G = some (x, y)) (hk : k % CURVE_ORDER ≠ 0)
    (hx : x % CURVE_ORDER ≠ 0) (h : signWith d z k = none) : (z : N) + (x : N) * d = 0 := by
  unfold signWith at h
  rw [hxy] at h
  simp only at h
  split at h
  · next hc =>
    have hs : inv CURVE_ORDER k * (z + x % CURVE_ORDER * d) % CURVE_ORDER = 0 := by
      rcases hc with hc | hc | hc
      · exact absurd hc hk
      · exact absurd hc hx
      · exact hc
    have h1 : ((inv CURVE_ORDER k * (z + x % CURVE_ORDER * d) % CURVE_ORDER : Nat) : N) = 0 := by
      rw [hs]; simp
    rw [castN_mod] at h1
    push_cast [inv_castN, castN_mod] at h1
    rcases mul_eq_zero.1 h1 with h2 | h2
    · rw [inv_eq_zero, ← castN_mod, castN_eq_zero (Nat.mod_lt _ curve_order_pos)] at h2
      exact absurd h2 hk
    · exact h2
  · split at h <;> cases h

/-- The double of the generator. -/
def G2 : Nat × Nat :=
  (0xc6047f9441ed7d6d3045406e95c07cd85c778e4b8cef3ca7abac09b95c709ee5,
   0x1ae168fea63dc339a3c58419466ceaeef7f632653266d0e1236431a950cfe52a)

/-- One of the nonces 1 and 2 works. -/
theorem signWith_one_or_two (d z : Nat) (h0 : 0 < d) (hd : d < CURVE_ORDER) :
    signWith d z 1 ≠ none ∨ signWith d z 2 ≠ none := by
  by_contra hcon
  push Not at hcon
  have g1 : mul 1 G = some (0x79be667ef9dcbbac55a06295ce870b07029bfcdb2dce28d959f2815b16f81798,
    0x483ada7726a3c4655da4fbfc0e1108a8fd17b448a68554199c47d08ffb10d4b8) := by decide +kernel
  have g2 : mul 2 G = some (0xc6047f9441ed7d6d3045406e95c07cd85c778e4b8cef3ca7abac09b95c709ee5,
    0x1ae168fea63dc339a3c58419466ceaeef7f632653266d0e1236431a950cfe52a) := by decide +kernel
  have h1 := signWith_none d z 1 _ _ g1 (by norm_num [CURVE_ORDER]) (by norm_num [CURVE_ORDER]) hcon.1
  have h2 := signWith_none d z 2 _ _ g2 (by norm_num [CURVE_ORDER]) (by norm_num [CURVE_ORDER]) hcon.2
  have h3 : (((0xc6047f9441ed7d6d3045406e95c07cd85c778e4b8cef3ca7abac09b95c709ee5 -
      0x79be667ef9dcbbac55a06295ce870b07029bfcdb2dce28d959f2815b16f81798 : Nat) : N)) * (d : N) = 0 := by
    rw [Nat.cast_sub (by norm_num)]
    linear_combination h2 - h1
  rcases mul_eq_zero.1 h3 with h | h
  · rw [castN_eq_zero (by norm_num [CURVE_ORDER])] at h
    norm_num at h
  · rw [castN_eq_zero hd] at h
    omega

/-- What signing gives, whatever the nonces. -/
theorem signFirst_spec (d z : Nat) (h0 : 0 < d) (hd : d < CURVE_ORDER) (ks : List Nat) :
    ∃ k, signWith d z k = some (signFirst d z ks) := by
  induction ks with
  | nil =>
    unfold signFirst
    rcases signWith_one_or_two d z h0 hd with h | h
    · obtain ⟨sig, hs⟩ := Option.ne_none_iff_exists'.1 h
      exact ⟨1, by rw [hs]; rfl⟩
    · obtain ⟨sig, hs⟩ := Option.ne_none_iff_exists'.1 h
      cases h1 : signWith d z 1 with
      | some s1 => exact ⟨1, by rw [h1]; rfl⟩
      | none => exact ⟨2, by rw [hs]; rfl⟩
  | cons k ks ih =>
    unfold signFirst
    split
    · next sig h => exact ⟨k, h⟩
    · exact ih

theorem sig_take (r s : Nat) (hr : r < CURVE_ORDER) : be_bytes_to_int ((compact r s).take 32) = r := by
  rw [compact, List.take_left' (by simp), be_bytes_to_int_eq,
    beValue_beBytes _ _ (hr.trans curve_order_lt)]

theorem sig_drop (r s : Nat) (hs : s < CURVE_ORDER) : be_bytes_to_int ((compact r s).drop 32) = s := by
  rw [compact, List.drop_left' (by simp), be_bytes_to_int_eq,
    beValue_beBytes _ _ (hs.trans curve_order_lt)]

/-- Verification, for `r` below the order: `s` is low and the equation holds for a point whose first
coordinate is `r` modulo the order. -/
theorem verify_iff (sig msg : Bytes) (p : Pt) (r s : Nat) (hr : be_bytes_to_int (sig.take 32) = r)
    (hs : be_bytes_to_int (sig.drop 32) = s) (hrlt : r < CURVE_ORDER) :
    verify sig msg p.1 = true ↔ 0 < r ∧ 0 < s ∧ s ≤ HALF_ORDER ∧
      ∃ (R : Pt) (x y : Nat), R.1 = some (x, y) ∧ x % CURVE_ORDER = r ∧ Eqn r s (scalar msg) R p := by
  unfold verify
  rw [hr, hs]
  simp only
  by_cases hc : s > HALF_ORDER ∨ r = 0 ∨ s = 0
  · rw [if_pos hc]
    constructor
    · simp
    · rintro ⟨h1, h2, h3, _⟩; omega
  · rw [if_neg hc]
    push Not at hc
    have hslt : s < CURVE_ORDER := by
      have : HALF_ORDER < CURVE_ORDER := by unfold HALF_ORDER; have := curve_order_pos; omega
      omega
    have hsN : (s : N) ≠ 0 := by rw [ne_eq, castN_eq_zero hslt]; exact hc.2.2
    set w := inv CURVE_ORDER s with hw
    have hwN : (w : N) = (s : N)⁻¹ := inv_castN s
    set T : Pt := (w * r % CURVE_ORDER) • p + (w * scalar msg % CURVE_ORDER) • Pt.gen with hT
    have hTv : add (mul (w * r % CURVE_ORDER) p.1) (mul (w * scalar msg % CURVE_ORDER) G) = T.1 := rfl
    rw [hTv]
    have hTe : ∀ R : Pt, Eqn r s (scalar msg) R p ↔ R = T := by
      intro R
      have e : T = (s : N)⁻¹ • ((scalar msg : N) • Pt.gen + (r : N) • p) := by
        rw [hT, ← cast_nsmul, ← cast_nsmul, castN_mod, castN_mod]
        push_cast
        rw [hwN, smul_add, smul_smul, smul_smul, add_comm]
      rw [e, Eqn, eq_inv_smul_iff₀ hsN]
    constructor
    · intro h
      refine ⟨by omega, by omega, by omega, T, ?_⟩
      cases hR : T.1 with
      | none => rw [hR] at h; simp at h
      | some q =>
        obtain ⟨x, y⟩ := q
        rw [hR] at h
        simp only [Bool.or_eq_true, Bool.and_eq_true, decide_eq_true_eq] at h
        refine ⟨x, y, rfl, ?_, (hTe T).2 rfl⟩
        rcases h with rfl | ⟨rfl, _⟩
        · exact Nat.mod_eq_of_lt hrlt
        · rw [Nat.add_mod_right, Nat.mod_eq_of_lt hrlt]
    · rintro ⟨_, _, _, R, x, y, hR, hx, he⟩
      have hRT := (hTe R).1 he
      rw [hRT] at hR
      rw [hR]
      simp only [Bool.or_eq_true, Bool.and_eq_true, decide_eq_true_eq]
      have hv := T.2
      rw [hR] at hv
      have hxlt := (valid_some.1 hv).1
      have := field_lt_two_order
      rcases Nat.lt_or_ge x CURVE_ORDER with h | h
      · left; rw [← hx, Nat.mod_eq_of_lt h]
      · right
        rw [Nat.mod_eq_sub_mod h, Nat.mod_eq_of_lt (by omega)] at hx
        omega

/-- The point that a recovery id tells, found by `lift`. -/
theorem lift_tells (r v : Nat) (R : Raw) :
    lift (if v / 2 % 2 = 1 then r + CURVE_ORDER else r) (decide (v % 2 = 1)) = some R ↔
      ∃ R' : Pt, R'.1 = R ∧ Tells r v R' := by
  rw [lift_iff]
  constructor
  · rintro ⟨y, rfl, hv, hp⟩
    refine ⟨⟨_, hv⟩, rfl, _, y, rfl, rfl, ?_⟩
    rw [decide_eq_decide] at hp; omega
  · rintro ⟨R', rfl, x, y, h1, rfl, h2⟩
    refine ⟨y, h1, ?_, ?_⟩
    · have := R'.2; rwa [h1] at this
    · rw [decide_eq_decide]; omega

/-- Recovery, for `r` and `s` below the order: the equation holds for the point told by `r` and the
recovery id. -/
theorem recover_iff (sig msg : Bytes) (v r s : Nat) (hr : be_bytes_to_int (sig.take 32) = r)
    (hs : be_bytes_to_int (sig.drop 32) = s) (hrlt : r < CURVE_ORDER) (p : Pt) :
    recover sig v msg = some p.1 ↔ 0 < r ∧ s ≠ 0 ∧ p ≠ 0 ∧
      ∃ R : Pt, Tells r v R ∧ Eqn r s (scalar msg) R p := by
  unfold recover
  rw [hr, hs]
  simp only
  by_cases hc : r = 0 ∨ s = 0
  · rw [if_pos hc]
    constructor
    · simp
    · rintro ⟨h1, h2, _⟩; omega
  · rw [if_neg hc]
    push Not at hc
    have hrN : (r : N) ≠ 0 := by rw [ne_eq, castN_eq_zero hrlt]; exact hc.1
    by_cases ho : v / 2 % 2 = 1 ∧ FIELD - CURVE_ORDER ≤ r
    · rw [if_pos ho]
      constructor
      · simp
      · rintro ⟨_, _, _, R, ⟨x, y, h1, h2, _⟩, _⟩
        have hv := R.2
        rw [h1] at hv
        have := (valid_some.1 hv).1
        rw [if_pos ho.1] at h2
        omega
    · rw [if_neg ho]
      set w := inv CURVE_ORDER r with hw
      have hwN : (w : N) = (r : N)⁻¹ := inv_castN r
      have hstep : ∀ R : Pt, add (mul (w * s % CURVE_ORDER) R.1)
          (mul ((CURVE_ORDER - w * scalar msg % CURVE_ORDER) % CURVE_ORDER) G) = p.1 ↔
          Eqn r s (scalar msg) R p := by
        intro R
        set T : Pt := (w * s % CURVE_ORDER) • R +
          ((CURVE_ORDER - w * scalar msg % CURVE_ORDER) % CURVE_ORDER) • Pt.gen with hT
        have hTv : add (mul (w * s % CURVE_ORDER) R.1)
          (mul ((CURVE_ORDER - w * scalar msg % CURVE_ORDER) % CURVE_ORDER) G) = T.1 := rfl
        have e : T = (r : N)⁻¹ • ((s : N) • R - (scalar msg : N) • Pt.gen) := by
          rw [hT, ← cast_nsmul, ← cast_nsmul, castN_mod, castN_mod,
            Nat.cast_sub (Nat.mod_lt _ curve_order_pos).le, castN_mod]
          push_cast
          rw [hwN, smul_sub, smul_smul, smul_smul, ZMod.natCast_self, zero_sub, neg_smul, sub_eq_add_neg]
        rw [hTv, show T.1 = p.1 ↔ T = p from ⟨Pt.ext, fun h => h ▸ rfl⟩, e, inv_smul_eq_iff₀ hrN, Eqn, sub_eq_iff_eq_add']
      cases hl : lift (if v / 2 % 2 = 1 then r + CURVE_ORDER else r) (decide (v % 2 = 1)) with
      | none =>
        simp only
        constructor
        · simp
        · rintro ⟨_, _, _, R, hR, _⟩
          rw [(lift_tells r v R.1).2 ⟨R, rfl, hR⟩] at hl
          cases hl
      | some R0 =>
        obtain ⟨R, rfl, hR⟩ := (lift_tells r v R0).1 hl
        simp only
        have huniq : ∀ R' : Pt, Tells r v R' → R' = R := by
          intro R' h'
          have := (lift_tells r v R'.1).2 ⟨R', rfl, h'⟩
          rw [hl] at this
          exact Pt.ext (Option.some.inj this).symm
        constructor
        · intro h
          split at h
          · cases h
          · next hne =>
            have h' := Option.some.inj h
            refine ⟨by omega, hc.2, ?_, R, hR, (hstep R).1 h'⟩
            rintro rfl
            exact hne h'
        · rintro ⟨_, _, hp, R', hR', he⟩
          obtain rfl := huniq R' hR'
          have h' := (hstep R').2 he
          split
          · next hn =>
            rw [h'] at hn
            exact absurd ((Pt.eq_zero_iff p).2 hn) hp
          · rw [h']

end Bitcoinx.K1
