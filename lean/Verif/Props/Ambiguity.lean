import Verif.Props.Secp256k1
import Mathlib.Data.Fintype.Pigeonhole
import Mathlib.Tactic.LinearCombination

/-! # C130: for how many digests and keys a signature verifies -/

namespace Bitcoinx
open Spec K1 WeierstrassCurve

variable {nonces : Bytes → Bytes → List Nat}

theorem der_unique {der : Bytes} {r s r' s' : Nat} (hr : r < CURVE_ORDER) (hs : s < CURVE_ORDER) (hr' : r' < CURVE_ORDER)
    (hs' : s' < CURVE_ORDER) (h : IsDerSignature der r s) (h' : IsDerSignature der r' s') : r = r' ∧ s = s' := by
  rw [isDerSignature_iff _ _ _ hr hs] at h
  rw [isDerSignature_iff _ _ _ hr' hs', h] at h'
  have p := parse_serialize_der (compact r s) (by simp [compact]) (by rw [sig_take r s hr]; exact hr)
    (by rw [sig_drop r s hs]; exact hs)
  have p' := parse_serialize_der (compact r' s') (by simp [compact]) (by rw [sig_take r' s' hr']; exact hr')
    (by rw [sig_drop r' s' hs']; exact hs')
  rw [h', p'] at p
  have e := Option.some.inj p
  constructor
  · rw [← sig_take r s hr, ← sig_take r' s' hr', e]
  · rw [← sig_drop r s hs, ← sig_drop r' s' hs', e]

/-- The same point: its first coordinate is known modulo the order, and two bits more are known. -/
theorem point_told {R R' : Pt} {x y x' y' r : Nat} (h : R.1 = some (x, y)) (h' : R'.1 = some (x', y')) (hx : x % CURVE_ORDER = r)
    (hx' : x' % CURVE_ORDER = r) (h1 : decide (x < CURVE_ORDER) = decide (x' < CURVE_ORDER))
    (h2 : decide (y % 2 = 0) = decide (y' % 2 = 0)) : R = R' := by
  have v : valid (some (x, y)) = true := by rw [← h]; exact R.2
  have v' : valid (some (x', y')) = true := by rw [← h']; exact R'.2
  have l := (valid_some.1 v).1
  have l' := (valid_some.1 v').1
  have hf := field_lt_two_order
  rw [decide_eq_decide] at h1 h2
  have ex : x = x' := by
    by_cases q : x < CURVE_ORDER
    · have q' := h1.1 q
      rw [Nat.mod_eq_of_lt q] at hx
      rw [Nat.mod_eq_of_lt q'] at hx'
      omega
    · have q' : ¬ x' < CURVE_ORDER := fun a => q (h1.2 a)
      rw [Nat.mod_eq_sub_mod (by omega), Nat.mod_eq_of_lt (by omega)] at hx
      rw [Nat.mod_eq_sub_mod (by omega), Nat.mod_eq_of_lt (by omega)] at hx'
      omega
  subst ex
  apply Pt.ext
  rw [h, h']
  have := Pt.field_odd
  rcases Pt.y_eq v v' with e | ⟨e, _, _⟩
  · rw [e]
  · omega

theorem five (der : Bytes) (K : Fin 5 → PublicKey (secp256k1 nonces)) (m e : Fin 5 → Bytes)
    (hasher : Option (Bytes → Bytes)) (he : ∀ i, hasher.elim (m i) (· (m i)) = e i) (hl : ∀ i, (e i).length = 32)
    (h : ∀ i, (K i).verify_der_signature der (m i) hasher = .ok true) (P : Fin 5 → Pt) (hP : ∀ i, P i = (K i).point) :
    ∃ i j, i ≠ j ∧ ∃ r : N, r ≠ 0 ∧ (beValue (e i) : N) • Pt.gen + r • P i = (beValue (e j) : N) • Pt.gen + r • P j := by
  have key : ∀ i, ∃ (r s : Nat) (R : Pt) (x y : Nat), IsDerSignature der r s ∧ 0 < r ∧ r < CURVE_ORDER ∧ s < CURVE_ORDER ∧
      R.1 = some (x, y) ∧ x % CURVE_ORDER = r ∧ Eqn r s (beValue (e i)) R (P i) := by
    intro i
    rw [hP i]
    obtain ⟨r, s, h1, h2, _⟩ := (C96_verify_der nonces (K i) der (m i) (e i) hasher (he i) (hl i) _ isBase_gen).1 (h i)
    obtain ⟨a, b, c, d, R, x, y, f, g, q⟩ := (ecdsaValid_iff (K i).point _ r s).1 h2
    exact ⟨r, s, R, x, y, h1, a, b, d, f, g, q⟩
  choose r s R x y k1 k2 k3 k4 k5 k6 k7 using key
  obtain ⟨i, j, hij, hg⟩ := Fintype.exists_ne_map_eq_of_card_lt
    (fun i => (decide (x i < CURVE_ORDER), decide (y i % 2 = 0))) (by decide)
  obtain ⟨g1, g2⟩ := Prod.mk.inj hg
  obtain ⟨er, es⟩ := der_unique (k3 i) (k4 i) (k3 j) (k4 j) (k1 i) (k1 j)
  have hR := point_told (k5 i) (k5 j) (k6 i) (by rw [k6 j, er]) g1 g2
  refine ⟨i, j, hij, (r i : N), castN_ne (k2 i) (k3 i), ?_⟩
  have a := k7 i
  have b := k7 j
  unfold Eqn at a b
  rw [← er, ← es, ← hR] at b
  exact a.symm.trans b

/-- **C130** (digests).  Of five messages for which a signature verifies with one key, two have digests that are the same
number modulo the order of the curve. -/
theorem C130_digests (k : PublicKey (secp256k1 nonces)) (der : Bytes) (m e : Fin 5 → Bytes) (hasher : Option (Bytes → Bytes))
    (he : ∀ i, hasher.elim (m i) (· (m i)) = e i) (hl : ∀ i, (e i).length = 32)
    (h : ∀ i, k.verify_der_signature der (m i) hasher = .ok true) :
    ∃ i j, i ≠ j ∧ beValue (e i) % CURVE_ORDER = beValue (e j) % CURVE_ORDER := by
  obtain ⟨i, j, hij, r, _, q⟩ := five der (fun _ => k) m e hasher he hl h (fun _ => k.point) (fun _ => rfl)
  refine ⟨i, j, hij, ?_⟩
  have q := add_right_cancel q
  have q : ((beValue (e i) : N) - (beValue (e j) : N)) • Pt.gen = 0 := by rw [sub_smul, q, sub_self]
  rcases smul_eq_zero.1 q with a | a
  · exact (ZMod.natCast_eq_natCast_iff' _ _ _).1 (sub_eq_zero.1 a)
  · exact absurd a Pt.gen_ne

/-- **C130** (keys).  Of five keys with which a signature verifies for one message, two are the same point. -/
theorem C130_keys (K : Fin 5 → PublicKey (secp256k1 nonces)) (der m e : Bytes) (hasher : Option (Bytes → Bytes))
    (he : hasher.elim m (· m) = e) (hl : e.length = 32)
    (h : ∀ i, (K i).verify_der_signature der m hasher = .ok true) :
    ∃ i j, i ≠ j ∧ (K i).point = (K j).point := by
  obtain ⟨i, j, hij, r, hr, q⟩ := five der K (fun _ => m) (fun _ => e) hasher (fun _ => he) (fun _ => hl) h
    (fun i => (K i).point) (fun _ => rfl)
  exact ⟨i, j, hij, smul_right_injective Pt hr (add_left_cancel q)⟩

/-- **C130** (two digests).  One digest is not all there is: whoever knows the private key knows, for every signature that
verifies for some digest, another digest for which it verifies as well. -/
theorem C130_another (k : PrivateKey) (hk : PrivValid k) (p : PublicKey (secp256k1 nonces))
    (hp : k.public_key (secp256k1 nonces) = .ok p) (der e : Bytes) (hl : e.length = 32)
    (h : p.verify_der_signature der e none = .ok true) :
    ∃ r s e', IsDerSignature der r s ∧ e'.length = 32 ∧ p.verify_der_signature der e' none = .ok true ∧
      (beValue e + beValue e' + 2 * r * secretNumber k) % CURVE_ORDER = 0 ∧
      beValue e' % CURVE_ORDER ≠ beValue e % CURVE_ORDER := by
  obtain ⟨r, s, h1, h2, h3⟩ := (C96_verify_der nonces p der e e none rfl hl _ isBase_gen).1 h
  have hpe : p.point = secretNumber k • (secp256k1 nonces).gen := by
    rw [PrivateKey.public_key_ok _ _ hk] at hp
    rw [← Except.ok.inj hp]
    rfl
  obtain ⟨Q, hpQ⟩ : ∃ Q : Pt, Q = p.point := ⟨p.point, rfl⟩
  have hQ : Q = (secretNumber k : N) • Pt.gen := by
    rw [cast_nsmul, hpQ]; exact hpe
  have hval : ∀ e, EcdsaValid CURVE_ORDER Pt.gen.point (pointOf p.point) e r s ↔
      EcdsaValid CURVE_ORDER Pt.gen.point Q.point e r s := fun e => by rw [hpQ]; rfl
  obtain ⟨a, b, c, d, R, x, y, f, g, q⟩ := (ecdsaValid_iff Q _ r s).1 ((hval _).1 h2)
  have hR0 : R ≠ 0 := by
    intro z
    rw [z] at f
    cases f
  unfold Eqn at q
  obtain ⟨t, ht, etN⟩ : ∃ t : Nat, t < CURVE_ORDER ∧ (t : N) = ((beValue e + 2 * r * secretNumber k : Nat) : N) :=
    ⟨_, Nat.mod_lt _ curve_order_pos, castN_mod _⟩
  obtain ⟨v, hv, evN⟩ : ∃ v : Nat, v < CURVE_ORDER ∧ (v : N) = ((CURVE_ORDER - t : Nat) : N) :=
    ⟨_, Nat.mod_lt _ curve_order_pos, castN_mod _⟩
  have hb : beValue (beBytes 32 v) = v := by rw [← be_bytes_to_int_eq]; exact beBytes32 v hv
  have hvN : (v : N) = -((beValue e : N) + 2 * (r : N) * (secretNumber k : N)) := by
    rw [evN, Nat.cast_sub ht.le, etN]
    push_cast
    rw [ZMod.natCast_self]
    ring
  refine ⟨r, s, beBytes 32 v, h1, by simp, ?_, ?_, ?_⟩
  · refine (C96_verify_der nonces p der (beBytes 32 v) (beBytes 32 v) none rfl (by simp) _ isBase_gen).2 ⟨r, s, h1, ?_, h3⟩
    rw [hb, hval]
    refine (ecdsaValid_iff Q _ r s).2 ⟨a, b, c, d, -R, x, (FIELD - y) % FIELD, ?_, g, ?_⟩
    · have : (-R).1 = neg R.1 := rfl
      rw [this, f]; rfl
    · unfold Eqn
      rw [smul_neg, q, hvN, hQ, smul_smul, ← add_smul, ← add_smul, ← neg_smul]
      exact congrArg (fun a : N => a • Pt.gen) (by ring)
  · rw [hb]
    have : ((beValue e + v + 2 * r * secretNumber k : Nat) : N) = 0 := by
      push_cast
      rw [hvN]
      ring
    exact Nat.mod_eq_zero_of_dvd ((ZMod.natCast_eq_zero_iff _ _).1 this)
  · rw [hb]
    intro z
    have z := (ZMod.natCast_eq_natCast_iff' _ _ _).2 z
    rw [hvN] at z
    have z2 : (2 : N) * ((beValue e : N) + (r : N) * (secretNumber k : N)) = 0 := by linear_combination -z
    have two : (2 : N) ≠ 0 := by
      have := castN_ne (s := 2) (by norm_num) (by norm_num [CURVE_ORDER])
      exact_mod_cast this
    have z3 := (mul_eq_zero.1 z2).resolve_left two
    rw [hQ, smul_smul, ← add_smul, z3, zero_smul] at q
    rcases smul_eq_zero.1 q with w | w
    · exact castN_ne c d w
    · exact hR0 w

/-- A signature by the key 1 that verifies for two digests, and so five digests not all of which are the same: what
`C130_digests` and `C130_another` ask for.  Five times the same key will do for `C130_keys`. -/
example : ∃ (k : PrivateKey) (p : PublicKey (secp256k1 nonces)) (der : Bytes) (e : Fin 5 → Bytes), PrivValid k ∧
    k.public_key (secp256k1 nonces) = .ok p ∧ (∀ i, (e i).length = 32) ∧
    (∀ i, p.verify_der_signature der (e i) none = .ok true) ∧ e 0 ≠ e 1 := by
  obtain ⟨k, hk⟩ : ∃ k : PrivateKey, PrivValid k := ⟨⟨beBytes 32 1, true, Bitcoin⟩, by unfold PrivValid; decide +kernel⟩
  obtain ⟨p, hp⟩ : ∃ p, k.public_key (secp256k1 nonces) = .ok p := ⟨_, PrivateKey.public_key_ok _ _ hk⟩
  obtain ⟨⟨der, _, h⟩, _⟩ := (C80_sign (secp256k1 nonces) k hk p hp (zeros 32) none).1 (by simp [zeros])
  obtain ⟨r, s, e', _, h1, h2, _, h3⟩ := C130_another k hk p hp der (zeros 32) (by simp [zeros]) h
  refine ⟨k, p, der, fun i => if i = 0 then zeros 32 else e', hk, hp, fun i => ?_, fun i => ?_, ?_⟩
  · dsimp only; split
    · simp [zeros]
    · exact h1
  · dsimp only; split
    · exact h
    · exact h2
  · intro z
    simp only [if_true, Fin.one_eq_zero_iff] at z
    rw [if_neg (by decide)] at z
    rw [← z] at h3
    exact h3 rfl

end Bitcoinx
