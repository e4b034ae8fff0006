import Verif.Lemmas.Sec1
import Verif.Spec.Keys
import Verif.Spec.Signature
import Verif.Props.KeySign

/-! # Keys and signatures over the curve itself

The other claims about keys and signatures hold for any library that satisfies the laws of
`Model/Secp.lean`.  Here the library is `secp256k1`, whose functions are written out in
`Model/Secp256k1.lean`; its group is compared with that of Mathlib, its encodings and its verification
with SEC 1. -/

namespace Bitcoinx
open Spec K1 WeierstrassCurve

variable (nonces : Bytes → Bytes → List Nat)

/-- The point of the curve that a point of the library stands for. -/
def pointOf {nonces : Bytes → Bytes → List Nat} (p : (secp256k1 nonces).Point) : secpCurve.Point := Pt.point p

/-! ## C95: public keys are the points of the curve -/

/-- The field and the curve of SEC 2: the curve has exactly `CURVE_ORDER` points, a prime number. -/
theorem C95_curve : FIELD = 2 ^ 256 - 2 ^ 32 - 977 ∧ FIELD.Prime ∧ CURVE_ORDER.Prime ∧
    Nat.card secpCurve.Point = CURVE_ORDER := by
  refine ⟨by norm_num [FIELD], field_prime, curve_order_prime, ?_⟩
  rw [← Pt.card_eq]
  exact (Nat.card_congr (Equiv.ofBijective _ point_bijective)).symm

/-- The group of the library is the group of the curve, its generator the base point. -/
theorem C95_group : Function.Bijective (pointOf (nonces := nonces)) ∧
    (∀ p q, pointOf (nonces := nonces) (p + q) = pointOf p + pointOf q) ∧
    (∀ p, pointOf (nonces := nonces) (-p) = -pointOf p) ∧
    (∀ (n : Nat) p, pointOf (nonces := nonces) (n • p) = n • pointOf p) ∧
    (∀ p, pointOf (nonces := nonces) p = 0 ↔ p = 0) ∧ IsBase (pointOf (secp256k1 nonces).gen) :=
  ⟨point_bijective, Pt.point_add, Pt.point_neg, fun n p => Pt.point_nsmul p n, point_zero_iff, isBase_gen⟩

theorem field_lt_32 : FIELD < 256 ^ 32 := by norm_num [FIELD]

theorem parse_point (b : Bytes) (p : Pt) : Pt.parse b = some p ↔
    ∃ x y h, p.point = .some x y h ∧ IsSec1 b x.val y.val := by
  rw [Pt.parse_spec]
  constructor
  · rintro ⟨h0, h⟩
    obtain ⟨r, hr⟩ := p
    match r, hr, h0, h with
    | none, _, h0, _ => exact absurd rfl h0
    | some (x, y), hr, _, h =>
      obtain ⟨hn, hp, hx, hy⟩ := point_some ⟨some (x, y), hr⟩ x y rfl
      have hv := valid_some.1 hr
      refine ⟨x, y, hn, hp, ?_⟩
      rw [hx, hy, isSec1_iff _ _ _ (hv.1.trans field_lt_32) (hv.2.1.trans field_lt_32)]
      rcases h with h | h | ⟨x', y', h1, h⟩
      · exact .inl h
      · exact .inr (.inl h)
      · simp only [Option.some.injEq, Prod.mk.injEq] at h1
        rw [h1.1, h1.2]; exact .inr (.inr h)
  · rintro ⟨x, y, hn, hp, h⟩
    have h1 := (point_eq_some p x y hn).1 hp
    rw [isSec1_iff _ _ _ ((ZMod.val_lt x).trans field_lt_32) ((ZMod.val_lt y).trans field_lt_32)] at h
    refine ⟨by rw [ne_eq, Pt.eq_zero_iff, h1]; simp, ?_⟩
    rw [h1]
    rcases h with h | h | h
    · exact .inl h
    · exact .inr (.inl h)
    · exact .inr (.inr ⟨_, _, rfl, h⟩)

/-- `PublicKey.from_bytes` accepts exactly the encodings of the points of the curve other than
infinity, and gives the point; the flag tells the compressed form. -/
theorem C95_from_bytes (b : Bytes) :
    (∀ P : secpCurve.Point, (∃ k, PublicKey.from_bytes (secp256k1 nonces) b = .ok k ∧ pointOf k.point = P ∧
        k.compressed = decide (b.length = 33)) ↔ ∃ x y h, P = .some x y h ∧ IsSec1 b x.val y.val) ∧
    (PublicKey.from_bytes (secp256k1 nonces) b = .error .valueError ↔
      ¬ ∃ (x y : ZMod FIELD), secpCurve.Nonsingular x y ∧ IsSec1 b x.val y.val) := by
  have e : PublicKey.from_bytes (secp256k1 nonces) b = match Pt.parse b with
    | none => .error .valueError
    | some point => .ok ⟨point, b.length == 33, Bitcoin⟩ := by
    have h : (secp256k1 nonces).parse b = Pt.parse b := rfl
    unfold PublicKey.from_bytes
    rw [h]
    cases Pt.parse b <;> rfl
  constructor
  · intro P
    constructor
    · rintro ⟨k, hk, rfl, _⟩
      rw [e] at hk
      cases hp : Pt.parse b with
      | none => rw [hp] at hk; cases hk
      | some p => rw [hp] at hk; cases hk; exact (parse_point b p).1 hp
    · rintro ⟨x, y, h, rfl, hs⟩
      obtain ⟨p, hp⟩ := point_bijective.2 (.some x y h)
      have := (parse_point b p).2 ⟨x, y, h, hp, hs⟩
      rw [e, this]
      exact ⟨_, rfl, hp, rfl⟩
  · rw [e]
    constructor
    · rintro h ⟨x, y, hn, hs⟩
      obtain ⟨p, hp⟩ := point_bijective.2 (.some x y hn)
      rw [(parse_point b p).2 ⟨x, y, hn, hp, hs⟩] at h
      cases h
    · intro h
      cases hp : Pt.parse b with
      | none => rfl
      | some p =>
        obtain ⟨x, y, hn, _, hs⟩ := (parse_point b p).1 hp
        exact absurd ⟨x, y, hn, hs⟩ h

theorem some_of_ne (p : Pt) (h : p ≠ 0) : ∃ x y, p.1 = some (x, y) ∧ x < FIELD ∧ y < FIELD := by
  rw [ne_eq, Pt.eq_zero_iff] at h
  obtain ⟨⟨x, y⟩, hxy⟩ := Option.ne_none_iff_exists'.1 h
  have hv := p.2
  rw [hxy] at hv
  exact ⟨x, y, hxy, (valid_some.1 hv).1, (valid_some.1 hv).2.1⟩

theorem exists_key (p : Pt) (h : p ≠ 0) : ∃ d, 0 < d ∧ d < CURVE_ORDER ∧ d • Pt.gen = p := by
  have htop : AddSubgroup.zmultiples Pt.gen = ⊤ := by
    apply AddSubgroup.eq_top_of_card_eq
    rw [Nat.card_zmultiples, Pt.addOrderOf_gen, Pt.card_eq]
  have hmem : p ∈ AddSubgroup.zmultiples Pt.gen := by rw [htop]; trivial
  rw [AddSubgroup.mem_zmultiples_iff] at hmem
  obtain ⟨z, hz⟩ := hmem
  have hne : (CURVE_ORDER : Int) ≠ 0 := by have := curve_order_pos; omega
  have hzn : (z % (CURVE_ORDER : Int)).toNat • Pt.gen = p := by
    rw [← hz, ← natCast_zsmul, Int.toNat_of_nonneg (Int.emod_nonneg _ hne),
      ← Pt.addOrderOf_gen, mod_addOrderOf_zsmul]
  have hlt : (z % (CURVE_ORDER : Int)).toNat < CURVE_ORDER := by
    have := Int.emod_lt_of_pos z (b := (CURVE_ORDER : Int)) (by exact_mod_cast curve_order_pos)
    have h0 := Int.emod_nonneg z (b := (CURVE_ORDER : Int)) hne
    omega
  refine ⟨_, ?_, hlt, hzn⟩
  rw [Nat.pos_iff_ne_zero]
  intro h0
  rw [h0, zero_nsmul] at hzn
  exact h hzn.symm

/-- The coordinates of a valid public key. -/
theorem coordinates {nonces : Bytes → Bytes → List Nat} (k : PublicKey (secp256k1 nonces)) (hk : PubValid k) :
    ∃ x y, Subtype.val (p := fun r => valid r = true) k.point = some (x, y) ∧ x < FIELD ∧ y < FIELD := by
  exact some_of_ne k.point hk

/-- `to_point` gives the coordinates, below `FIELD`. -/
theorem C95_to_point (k : PublicKey (secp256k1 nonces)) (hk : PubValid k) :
    k.to_point.1 < FIELD ∧ k.to_point.2 < FIELD ∧
      ∃ h, pointOf k.point = .some (k.to_point.1 : ZMod FIELD) (k.to_point.2 : ZMod FIELD) h := by
  obtain ⟨x, y, hxy, hx, hy⟩ := coordinates k hk
  have hb : k.to_bytes (some false) = 4 :: (beBytes 32 x ++ beBytes 32 y) := by
    have : k.to_bytes (some false) = serialize false (Subtype.val (p := fun r => valid r = true) k.point) := rfl
    rw [this, hxy]; rfl
  have h1 : k.to_point = (x, y) := by
    simp only [PublicKey.to_point, hb]
    have s1 : slice ((4 : UInt8) :: (beBytes 32 x ++ beBytes 32 y)) 1 33 = beBytes 32 x := by
      simp [slice]
    have s2 : List.drop 33 ((4 : UInt8) :: (beBytes 32 x ++ beBytes 32 y)) = beBytes 32 y := by
      simp
    rw [s1, s2, be32 hx, be32 hy]
  rw [h1]
  obtain ⟨hn, hp, _⟩ := point_some k.point x y hxy
  exact ⟨hx, hy, hn, hp⟩

/-- `from_point` accepts exactly the coordinates of the points of the curve, each below `FIELD`. -/
theorem C95_from_point (x y : Int) (P : secpCurve.Point) :
    (∃ k, PublicKey.from_point (secp256k1 nonces) x y = .ok k ∧ pointOf k.point = P) ↔
      0 ≤ x ∧ x < FIELD ∧ 0 ≤ y ∧ y < FIELD ∧ ∃ h, P = .some (x : ZMod FIELD) (y : ZMod FIELD) h := by
  constructor
  · rintro ⟨k, hk, rfl⟩
    have hv : PubValid k ∧ ((k.to_point.1 : Int), (k.to_point.2 : Int)) = (x, y) := by
      by_cases h0 : PubValid k
      · exact (C78_point (secp256k1 nonces) k h0).2 x y k hk
      · exact (C78_point (secp256k1 nonces) ⟨(secp256k1 nonces).gen, true, Bitcoin⟩ (secp256k1 nonces).gen_ne).2 x y k hk
    obtain ⟨hx, hy, hn, hp⟩ := C95_to_point nonces k hv.1
    have h2 := hv.2
    simp only [Prod.mk.injEq] at h2
    obtain ⟨rfl, rfl⟩ := h2
    refine ⟨by omega, by omega, by omega, by omega, by simpa using hn, ?_⟩
    rw [hp]
    congr 1 <;> simp
  · rintro ⟨hx0, hx, hy0, hy, hn, rfl⟩
    obtain ⟨a, rfl⟩ := Int.eq_ofNat_of_zero_le hx0
    obtain ⟨b, rfl⟩ := Int.eq_ofNat_of_zero_le hy0
    obtain ⟨p, hp⟩ := point_bijective.2 (.some _ _ hn)
    have hp' := (point_eq_some p _ _ hn).1 hp
    have hk : PubValid (L := secp256k1 nonces) ⟨p, false, Bitcoin⟩ := by
      show ¬ ((p : Pt) = 0)
      rw [Pt.eq_zero_iff, hp']; simp
    have hcast : ∀ n : Nat, (n : Int) < FIELD → (((n : Int) : ZMod FIELD)).val = n := by
      intro n hn
      rw [Int.cast_natCast, ZMod.val_natCast_of_lt (by omega)]
    obtain ⟨t1, t2, hn', hp2⟩ := C95_to_point nonces ⟨p, false, Bitcoin⟩ hk
    have hq := (point_eq_some p _ _ hn').1 hp2
    rw [hp', hcast _ hx, hcast _ hy, ZMod.val_natCast_of_lt t1, ZMod.val_natCast_of_lt t2] at hq
    simp only [Option.some.injEq, Prod.mk.injEq] at hq
    have := (C78_point (secp256k1 nonces) ⟨p, false, Bitcoin⟩ hk).1
    rw [← hq.1, ← hq.2] at this
    exact ⟨_, this, hp⟩

/-- Every valid public key has exactly one private key. -/
theorem C95_private (p : PublicKey (secp256k1 nonces)) (hp : PubValid p) :
    ∃! k : PrivateKey, PrivValid k ∧ k.public_key (secp256k1 nonces) = .ok p := by
  obtain ⟨d, hd0, hlt, hzn⟩ := exists_key p.point hp
  obtain ⟨pt, pc, pcoin⟩ := p
  simp only at hzn
  have hb : be_bytes_to_int (beBytes 32 d) = d := beBytes32 d hlt
  have hpv : PrivValid ⟨beBytes 32 d, pc, pcoin⟩ := ⟨by simp, by rw [hb]; exact hd0, by rw [hb]; exact hlt⟩
  refine ⟨⟨beBytes 32 d, pc, pcoin⟩, ⟨hpv, ?_⟩, ?_⟩
  · rw [PrivateKey.public_key_ok _ _ hpv]
    simp only [hb]
    exact congrArg Except.ok (by rw [PublicKey.mk.injEq]; exact ⟨hzn, rfl, rfl⟩)
  · rintro ⟨s, c, coin⟩ ⟨hv, hpk⟩
    rw [PrivateKey.public_key_ok _ _ hv] at hpk
    simp only [Except.ok.injEq, PublicKey.mk.injEq] at hpk
    obtain ⟨h1, rfl, rfl⟩ := hpk
    have h2 : be_bytes_to_int s • Pt.gen = d • Pt.gen := h1.trans hzn.symm
    have h3 : be_bytes_to_int s = d := by
      have := nsmul_injOn_Iio_addOrderOf (x := Pt.gen) (by rw [Pt.addOrderOf_gen]; exact hv.2.2)
        (by rw [Pt.addOrderOf_gen]; exact hlt) h2
      exact this
    have h4 : beBytes 32 d = s := by rw [← h3]; exact be32' s hv.1
    rw [h4]

/-- The compressed form of the base point is accepted. -/
example : ∃ k, PublicKey.from_bytes (secp256k1 nonces)
    (2 :: beBytes 32 0x79be667ef9dcbbac55a06295ce870b07029bfcdb2dce28d959f2815b16f81798) = .ok k ∧
      k.point = (secp256k1 nonces).gen ∧ k.compressed = true ∧ PubValid k :=
  ⟨_, (C78_bytes (secp256k1 nonces) ⟨(secp256k1 nonces).gen, true, Bitcoin⟩ (secp256k1 nonces).gen_ne none).1,
    rfl, rfl, (secp256k1 nonces).gen_ne⟩

/-- There is no point with first coordinate 5. -/
example : K1.parse (2 :: beBytes 32 5) = none ∧ K1.parse (3 :: beBytes 32 5) = none := by decide +kernel

/-- The point with first coordinate 1 is on the curve, and its hybrid forms parse if the parity is
right. -/
example : (K1.parse (2 :: beBytes 32 1)).isSome = true ∧
    K1.parse (K1.hybrid 1 0x4218f20ae6c646b363db68605822fb14264ca8d2587fdd6fbc750d587e76a7ee) =
      K1.parse (2 :: beBytes 32 1) ∧
    K1.parse (7 :: (K1.hybrid 1 0x4218f20ae6c646b363db68605822fb14264ca8d2587fdd6fbc750d587e76a7ee).drop 1) = none := by
  decide +kernel

/-! ## C96: ECDSA -/

theorem message_hash_eq (m : Bytes) (hasher : Option (Bytes → Bytes)) (e : Bytes)
    (he : hasher.elim m (· m) = e) (hl : e.length = 32) : message_hash m hasher = .ok e := by
  subst he
  cases hasher <;> simp_all [message_hash]

/-- A DER signature verifies exactly if it is the DER form of numbers `r` and `s` that satisfy the
standard, and `s` is in the lower half. -/
theorem C96_verify_der (k : PublicKey (secp256k1 nonces)) (der m e : Bytes) (hasher : Option (Bytes → Bytes))
    (he : hasher.elim m (· m) = e) (hl : e.length = 32) (B : secpCurve.Point) (hB : IsBase B) :
    k.verify_der_signature der m hasher = .ok true ↔ ∃ r s, IsDerSignature der r s ∧
      EcdsaValid CURVE_ORDER B (pointOf k.point) (beValue e) r s ∧ s ≤ CURVE_ORDER / 2 := by
  rw [isBase_unique hB]
  have h0 : k.verify_der_signature der m hasher = match parse_der der with
      | none => .error .invalidSignatureError
      | some sig => .ok (verify sig e (Subtype.val (p := fun r => valid r = true) k.point)) := by
    unfold PublicKey.verify_der_signature
    rw [message_hash_eq m hasher e he hl, ok_bind']
    unfold verify_der_signature der_signature_to_cdata
    have : (secp256k1 nonces).parse_der der = parse_der der := rfl
    rw [this]
    cases parse_der der <;> rfl
  rw [h0]
  constructor
  · intro h
    cases hp : parse_der der with
    | none => rw [hp] at h; cases h
    | some sig =>
      rw [hp] at h
      simp only [Except.ok.injEq] at h
      obtain ⟨_, r, s, rfl, hr, hs, hu⟩ := parse_der_some hp
      have hr' := hr.trans order_lt_256
      have hs' := hs.trans order_lt_256
      rw [verify_valid (compact r s) e k.point r s (by rw [compact_take, beValue_beBytes _ _ hr'])
        (by rw [compact_drop, beValue_beBytes _ _ hs']) hr] at h
      refine ⟨r, s, ?_, h⟩
      rw [isDerSignature_iff _ _ _ hr hs]
      exact hu (by have := h.1.1; omega) (by have := h.1.2.2.1; omega)
  · rintro ⟨r, s, hd, hv, hlow⟩
    have hr := hv.2.1
    have hs := hv.2.2.2.1
    have hr' := hr.trans order_lt_256
    have hs' := hs.trans order_lt_256
    rw [isDerSignature_iff _ _ _ hr hs] at hd
    have hp : parse_der der = some (compact r s) := by
      rw [hd]
      exact parse_serialize_der _ (by simp [compact]) (by rw [sig_take r s hr]; exact hr)
        (by rw [sig_drop r s hs]; exact hs)
    rw [hp]
    simp only [Except.ok.injEq]
    exact (verify_valid (compact r s) e k.point r s (by rw [compact_take, beValue_beBytes _ _ hr'])
        (by rw [compact_drop, beValue_beBytes _ _ hs']) hr).2 ⟨hv, hlow⟩

theorem valid_flip (Q : Pt) (e r s : Nat) (h : EcdsaValid CURVE_ORDER Pt.gen.point Q.point e r s) :
    EcdsaValid CURVE_ORDER Pt.gen.point Q.point e r (CURVE_ORDER - s) := by
  rw [ecdsaValid_iff] at h ⊢
  obtain ⟨r0, r1, s0, s1, R, x, y, hR, hx, hE⟩ := h
  refine ⟨r0, r1, by omega, by omega, -R, x, (FIELD - y) % FIELD, ?_, hx, ?_⟩
  · have : (-R).1 = neg R.1 := rfl
    rw [this, hR]; rfl
  · unfold Eqn at *
    rw [← hE, Nat.cast_sub s1.le]; simp

/-- Of the signatures `(r, s)` and `(r, n - s)`, both of which satisfy the standard if one does,
exactly one verifies, and in exactly one DER form. -/
theorem C96_one (k : PublicKey (secp256k1 nonces)) (m e : Bytes) (hasher : Option (Bytes → Bytes))
    (he : hasher.elim m (· m) = e) (hl : e.length = 32) (B : secpCurve.Point) (hB : IsBase B) (r s : Nat)
    (h : EcdsaValid CURVE_ORDER B (pointOf k.point) (beValue e) r s) :
    EcdsaValid CURVE_ORDER B (pointOf k.point) (beValue e) r (CURVE_ORDER - s) ∧
    ∃! der, k.verify_der_signature der m hasher = .ok true ∧
      (IsDerSignature der r s ∨ IsDerSignature der r (CURVE_ORDER - s)) := by
  have hflip : EcdsaValid CURVE_ORDER B (pointOf k.point) (beValue e) r (CURVE_ORDER - s) := by
    rw [isBase_unique hB] at h ⊢
    exact valid_flip k.point _ _ _ h
  refine ⟨hflip, ?_⟩
  have hu : ∀ der r' s' der' , r' < CURVE_ORDER → s' < CURVE_ORDER → IsDerSignature der r' s' →
      IsDerSignature der' r' s' → der = der' := by
    intro der r' s' der' h1 h2 h3 h4
    rw [isDerSignature_iff _ _ _ h1 h2] at h3 h4
    rw [h3, h4]
  have hinj : ∀ der r' s' r'' s'', r' < CURVE_ORDER → s' < CURVE_ORDER → r'' < CURVE_ORDER → s'' < CURVE_ORDER →
      IsDerSignature der r' s' → IsDerSignature der r'' s'' → s' = s'' := by
    intro der r' s' r'' s'' h1 h2 h3 h4 h5 h6
    rw [isDerSignature_iff _ _ _ h1 h2] at h5
    rw [isDerSignature_iff _ _ _ h3 h4, h5] at h6
    have p1 := parse_serialize_der (compact r' s') (by simp [compact]) (by rw [sig_take r' s' h1]; exact h1)
        (by rw [sig_drop r' s' h2]; exact h2)
    have p2 := parse_serialize_der (compact r'' s'') (by simp [compact]) (by rw [sig_take r'' s'' h3]; exact h3)
        (by rw [sig_drop r'' s'' h4]; exact h4)
    rw [h6, p2] at p1
    have := Option.some.inj p1
    rw [← sig_drop r' s' h2, ← sig_drop r'' s'' h4, this]
  have hodd := order_odd
  have hr := h.2.1
  have hs0 := h.2.2.1
  have hs1 := h.2.2.2.1
  by_cases hlow : s ≤ CURVE_ORDER / 2
  · refine ⟨serialize_der (compact r s), ⟨?_, .inl ((isDerSignature_iff _ _ _ hr hs1).2 rfl)⟩, ?_⟩
    · exact (C96_verify_der nonces k _ m e hasher he hl B hB).2
        ⟨r, s, (isDerSignature_iff _ _ _ hr hs1).2 rfl, h, hlow⟩
    · rintro der ⟨hv, hd⟩
      obtain ⟨r', s', hd', hv', hl'⟩ := (C96_verify_der nonces k _ m e hasher he hl B hB).1 hv
      rcases hd with hd | hd
      · exact (isDerSignature_iff _ _ _ hr hs1).1 hd
      · have := hinj der _ _ _ _ hr (by omega) hv'.2.1 hv'.2.2.2.1 hd hd'
        omega
  · refine ⟨serialize_der (compact r (CURVE_ORDER - s)), ⟨?_, .inr ((isDerSignature_iff _ _ _ hr (by omega)).2 rfl)⟩, ?_⟩
    · exact (C96_verify_der nonces k _ m e hasher he hl B hB).2
        ⟨r, CURVE_ORDER - s, (isDerSignature_iff _ _ _ hr (by omega)).2 rfl, hflip, by omega⟩
    · rintro der ⟨hv, hd⟩
      obtain ⟨r', s', hd', hv', hl'⟩ := (C96_verify_der nonces k _ m e hasher he hl B hB).1 hv
      rcases hd with hd | hd
      · have := hinj der _ _ _ _ hr hs1 hv'.2.1 hv'.2.2.2.1 hd hd'
        omega
      · exact (isDerSignature_iff _ _ _ hr (by omega)).1 hd

theorem cdata_recsig_eq (rs : Bytes) (v : UInt8) (hl : rs.length = 64) :
    cdata_recsig (rs ++ [v]) = if v.toNat ≤ 3 ∧ beValue (rs.take 32) < CURVE_ORDER ∧ beValue (rs.drop 32) < CURVE_ORDER
      then .ok (rs, v.toNat) else .error .invalidSignatureError := by
  have h1 : (rs ++ [v]).take 64 = rs := List.take_left' hl
  have h2 : (rs ++ [v]).getLastD 0 = v := by simp [List.getLastD_eq_getLast?]
  unfold cdata_recsig
  rw [if_neg (by simp [hl]), h1, h2]
  simp only [Secp.parse_compact, be_bytes_to_int_eq]
  by_cases hv : v.toNat ≤ 3
  · rw [if_neg (by simpa using hv)]
    by_cases hc : beValue (rs.take 32) < CURVE_ORDER ∧ beValue (rs.drop 32) < CURVE_ORDER
    · rw [if_pos hc, if_pos ⟨hv, hc⟩]
    · rw [if_neg hc, if_neg (fun h => hc h.2)]
  · rw [if_pos hv, if_neg (fun h => hv h.1)]

/-- A recoverable signature verifies exactly if its numbers satisfy the standard and `s` is in the
lower half: the recovery id plays no part. -/
theorem C96_verify_recoverable (k : PublicKey (secp256k1 nonces)) (rs : Bytes) (v : UInt8) (hrs : rs.length = 64)
    (hv : v.toNat ≤ 3) (m e : Bytes) (hasher : Option (Bytes → Bytes)) (he : hasher.elim m (· m) = e)
    (hl : e.length = 32) (B : secpCurve.Point) (hB : IsBase B) :
    k.verify_recoverable_signature (rs ++ [v]) m hasher = .ok true ↔
      EcdsaValid CURVE_ORDER B (pointOf k.point) (beValue e) (beValue (rs.take 32)) (beValue (rs.drop 32)) ∧
        beValue (rs.drop 32) ≤ CURVE_ORDER / 2 := by
  rw [isBase_unique hB, PublicKey.verify_recoverable_signature, message_hash_eq m hasher e he hl, ok_bind',
    verify_recoverable_signature, cdata_recsig_eq rs v hrs]
  by_cases hc : beValue (rs.take 32) < CURVE_ORDER ∧ beValue (rs.drop 32) < CURVE_ORDER
  · rw [if_pos ⟨hv, hc⟩, ok_bind']
    have h1 : (pure ((secp256k1 nonces).verify rs e k.point) : Res Bool) =
      .ok (verify rs e (Subtype.val (p := fun r => valid r = true) k.point)) := rfl
    simp only [h1, Except.ok.injEq]
    exact verify_valid rs e k.point _ _ rfl rfl hc.1
  · rw [if_neg (fun h => hc h.2), error_bind']
    constructor
    · intro h; cases h
    · rintro ⟨h, _⟩; exact absurd ⟨h.2.1, h.2.2.2.1⟩ hc

/-- A public key is recovered exactly if the point of the standard has the coordinates that `r` and
the recovery id tell. -/
theorem C96_recover (rs : Bytes) (v : UInt8) (hrs : rs.length = 64) (hv : v.toNat ≤ 3) (m e : Bytes)
    (hasher : Option (Bytes → Bytes)) (he : hasher.elim m (· m) = e) (hl : e.length = 32)
    (B : secpCurve.Point) (hB : IsBase B) (r s : Nat) (hr : beValue (rs.take 32) = r)
    (hs : beValue (rs.drop 32) = s) (Q : secpCurve.Point) :
    (∃ k, PublicKey.from_recoverable_signature (secp256k1 nonces) (rs ++ [v]) m hasher = .ok k ∧
      pointOf k.point = Q) ↔
    0 < r ∧ r < CURVE_ORDER ∧ 0 < s ∧ s < CURVE_ORDER ∧ Q ≠ 0 ∧
      ∃ x y h, ecdsaPoint CURVE_ORDER B Q (beValue e) r s = .some x y h ∧
        x.val = r + CURVE_ORDER * (v.toNat / 2) ∧ y.val % 2 = v.toNat % 2 := by
  have hv2 : v.toNat / 2 = v.toNat / 2 % 2 := by omega
  rw [isBase_unique hB, PublicKey.from_recoverable_signature, message_hash_eq m hasher e he hl, ok_bind',
    public_key_from_recoverable_signature, cdata_recsig_eq rs v hrs, hr, hs, hv2]
  by_cases hc : r < CURVE_ORDER ∧ s < CURVE_ORDER
  · rw [if_pos ⟨hv, hc⟩, ok_bind']
    have h1 : (secp256k1 nonces).recover rs v.toNat e = Pt.recover rs v.toNat e := rfl
    simp only [h1]
    constructor
    · rintro ⟨k, hk, rfl⟩
      cases hp : Pt.recover rs v.toNat e with
      | none => rw [hp] at hk; cases hk
      | some p =>
        rw [hp] at hk
        cases hk
        obtain ⟨a, b, c⟩ := (recover_valid_iff rs e v.toNat p r s hr hs hc.1 hc.2).1 hp
        exact ⟨a, hc.1, b, hc.2, c⟩
    · rintro ⟨a, _, b, _, c⟩
      obtain ⟨p, rfl⟩ := point_bijective.2 Q
      rw [(recover_valid_iff rs e v.toNat p r s hr hs hc.1 hc.2).2 ⟨a, b, c⟩]
      exact ⟨_, rfl, rfl⟩
  · rw [if_neg (fun h => hc h.2), error_bind', error_bind']
    constructor
    · rintro ⟨k, hk, _⟩; cases hk
    · rintro ⟨_, h1, _, h2, _⟩; exact absurd ⟨h1, h2⟩ hc

/-- The key recovered from a signature verifies it exactly if `s` is in the lower half. -/
theorem C96_recovered (rs : Bytes) (v : UInt8) (hrs : rs.length = 64) (m : Bytes) (hasher : Option (Bytes → Bytes))
    (k : PublicKey (secp256k1 nonces))
    (h : PublicKey.from_recoverable_signature (secp256k1 nonces) (rs ++ [v]) m hasher = .ok k) :
    k.verify_recoverable_signature (rs ++ [v]) m hasher =
      .ok (decide (beValue (rs.drop 32) ≤ CURVE_ORDER / 2)) := by
  have h' := h
  rw [PublicKey.from_recoverable_signature, bind_eq_ok] at h'
  obtain ⟨e, he, h'⟩ := h'
  have hel : hasher.elim m (· m) = e ∧ e.length = 32 := by
    unfold message_hash at he
    cases hasher <;> simp only at he <;> split at he <;> cases he <;> simp_all
  rw [bind_eq_ok] at h'
  obtain ⟨p, hp, -⟩ := h'
  rw [public_key_from_recoverable_signature, cdata_recsig_eq rs v hrs] at hp
  by_cases hc : v.toNat ≤ 3 ∧ beValue (rs.take 32) < CURVE_ORDER ∧ beValue (rs.drop 32) < CURVE_ORDER
  · have hiff := C96_verify_recoverable nonces k rs v hrs hc.1 m e hasher hel.1 hel.2 _ isBase_gen
    obtain ⟨r0, r1, s0, s1, -, x, y, hn, hR, hx, -⟩ :=
      (C96_recover nonces rs v hrs hc.1 m e hasher hel.1 hel.2 _ isBase_gen _ _ rfl rfl _).1 ⟨k, h, rfl⟩
    have hval : EcdsaValid CURVE_ORDER Pt.gen.point (pointOf k.point) (beValue e) (beValue (rs.take 32))
        (beValue (rs.drop 32)) := by
      refine ⟨r0, r1, s0, s1, x, y, hn, hR, ?_⟩
      rw [hx, Nat.add_mul_mod_self_left, Nat.mod_eq_of_lt r1]
    by_cases hlow : beValue (rs.drop 32) ≤ CURVE_ORDER / 2
    · rw [decide_eq_true hlow]; exact hiff.2 ⟨hval, hlow⟩
    · rw [decide_eq_false hlow]
      rw [PublicKey.verify_recoverable_signature, message_hash_eq m hasher e hel.1 hel.2, ok_bind',
        verify_recoverable_signature, cdata_recsig_eq rs v hrs, if_pos hc, ok_bind'] at hiff ⊢
      have h1 : ∀ b : Bool, (pure b : Res Bool) = .ok b := fun _ => rfl
      simp only [h1, Except.ok.injEq] at hiff ⊢
      rw [← Bool.not_eq_true, hiff]
      exact fun hh => hlow hh.2
  · rw [if_neg hc, error_bind'] at hp
    cases hp

/-- A signature with its recovery id belongs to one digest: if the same key is recovered from it for two messages,
their digests are the same number modulo the order. -/
theorem C96_commits (rs : Bytes) (v : UInt8) (hrs : rs.length = 64) (m m' e e' : Bytes)
    (hasher : Option (Bytes → Bytes)) (he : hasher.elim m (· m) = e) (he' : hasher.elim m' (· m') = e')
    (k k' : PublicKey (secp256k1 nonces))
    (h : PublicKey.from_recoverable_signature (secp256k1 nonces) (rs ++ [v]) m hasher = .ok k)
    (h' : PublicKey.from_recoverable_signature (secp256k1 nonces) (rs ++ [v]) m' hasher = .ok k')
    (hk : k.point = k'.point) : beValue e % CURVE_ORDER = beValue e' % CURVE_ORDER := by
  have key : ∀ (m e : Bytes) (k : PublicKey (secp256k1 nonces)), hasher.elim m (· m) = e →
      PublicKey.from_recoverable_signature (secp256k1 nonces) (rs ++ [v]) m hasher = .ok k →
      ∃ R : Pt, Tells (beValue (rs.take 32)) v.toNat R ∧
        Eqn (beValue (rs.take 32)) (beValue (rs.drop 32)) (scalar e) R k.point := by
    intro m e k he h
    rw [PublicKey.from_recoverable_signature, bind_eq_ok] at h
    obtain ⟨e1, he1, h⟩ := h
    have hel : hasher.elim m (· m) = e1 := by
      unfold message_hash at he1
      cases hasher <;> simp only at he1 <;> split at he1 <;> cases he1 <;> rfl
    obtain rfl : e = e1 := by rw [← he, hel]
    rw [bind_eq_ok] at h
    obtain ⟨p, hp, hkp⟩ := h
    rw [public_key_from_recoverable_signature, cdata_recsig_eq rs v hrs] at hp
    by_cases hc : v.toNat ≤ 3 ∧ beValue (rs.take 32) < CURVE_ORDER ∧ beValue (rs.drop 32) < CURVE_ORDER
    · rw [if_pos hc, ok_bind'] at hp
      have h1 : (secp256k1 nonces).recover rs v.toNat e = Pt.recover rs v.toNat e := rfl
      simp only [h1] at hp
      cases hq : Pt.recover rs v.toNat e with
      | none => rw [hq] at hp; cases hp
      | some q =>
        rw [hq] at hp
        cases hp
        cases hkp
        obtain ⟨_, _, _, R, hR, hE⟩ := (recover_iff rs e v.toNat _ _ (be_bytes_to_int_eq _) (be_bytes_to_int_eq _)
          hc.2.1 _).1 ((Pt.recover_eq_some _ _ _ _).1 hq)
        exact ⟨R, hR, hE⟩
    · rw [if_neg hc, error_bind'] at hp
      cases hp
  obtain ⟨R, hR, hE⟩ := key m e k he h
  obtain ⟨R', hR', hE'⟩ := key m' e' k' he' h'
  have hRR : R = R' := by
    have h1 := (lift_tells _ _ R.1).2 ⟨R, rfl, hR⟩
    rw [(lift_tells _ _ R'.1).2 ⟨R', rfl, hR'⟩] at h1
    exact Pt.ext (Option.some.inj h1).symm
  subst hRR
  rw [← hk] at hE'
  unfold Eqn at hE hE'
  rw [hE] at hE'
  have hz := add_right_cancel hE'
  have hz0 : ((scalar e : N) - (scalar e' : N)) • Pt.gen = 0 := by rw [sub_smul, hz, sub_self]
  have hzz : (scalar e : N) = (scalar e' : N) := by
    rcases smul_eq_zero.1 hz0 with h | h
    · exact sub_eq_zero.1 h
    · exact absurd h Pt.gen_ne
  rw [ZMod.natCast_eq_natCast_iff'] at hzz
  simpa [scalar, be_bytes_to_int_eq] using hzz

theorem tells_neg {r v : Nat} {R : Pt} (h : Tells r v R) : Tells r (v / 2 * 2 + (1 - v % 2)) (-R) := by
  obtain ⟨x, y, hR, hx, hy⟩ := h
  have hv := R.2
  rw [hR] at hv
  have hylt := (valid_some.1 hv).2.1
  have hpos := Pt.y_ne_zero hv
  have hodd := Pt.field_odd
  refine ⟨x, FIELD - y, ?_, ?_, by omega⟩
  · have : (-R).1 = neg R.1 := rfl
    rw [this, hR, neg, Nat.mod_eq_of_lt (by omega)]
  · rw [hx]
    have : (v / 2 * 2 + (1 - v % 2)) / 2 = v / 2 := by omega
    rw [this]

/-- Replacing `s` by `n - s` and the recovery id by the one of the other parity gives a signature from
which the same key is recovered; of the two exactly one verifies. -/
theorem C96_flip (r s : Nat) (v : UInt8) (m : Bytes) (hasher : Option (Bytes → Bytes))
    (k : PublicKey (secp256k1 nonces)) (R S S' : Bytes) (hR : R.length = 32) (hS : S.length = 32)
    (hS' : S'.length = 32) (hr : beValue R = r) (hs : beValue S = s) (hs' : beValue S' = CURVE_ORDER - s)
    (h : PublicKey.from_recoverable_signature (secp256k1 nonces) (R ++ S ++ [v]) m hasher = .ok k) :
    PublicKey.from_recoverable_signature (secp256k1 nonces) (R ++ S' ++ [v ^^^ 1]) m hasher = .ok k ∧
      ∃ b, k.verify_recoverable_signature (R ++ S ++ [v]) m hasher = .ok b ∧
        k.verify_recoverable_signature (R ++ S' ++ [v ^^^ 1]) m hasher = .ok (!b) := by
  have h' := h
  rw [PublicKey.from_recoverable_signature, bind_eq_ok] at h'
  obtain ⟨e, he, h'⟩ := h'
  rw [bind_eq_ok] at h'
  obtain ⟨p, hp, hk⟩ := h'
  have hrs : (R ++ S).length = 64 := by simp [hR, hS]
  have hrs' : (R ++ S').length = 64 := by simp [hR, hS']
  have t1 : (R ++ S).take 32 = R := List.take_left' hR
  have t2 : (R ++ S).drop 32 = S := List.drop_left' hR
  have t1' : (R ++ S').take 32 = R := List.take_left' hR
  have t2' : (R ++ S').drop 32 = S' := List.drop_left' hR
  have hp0 := hp
  rw [public_key_from_recoverable_signature, cdata_recsig_eq _ v hrs, t1, t2, hr, hs] at hp
  by_cases hc : v.toNat ≤ 3 ∧ r < CURVE_ORDER ∧ s < CURVE_ORDER
  · rw [if_pos hc, ok_bind'] at hp
    have h1 : (secp256k1 nonces).recover (R ++ S) v.toNat e = Pt.recover (R ++ S) v.toNat e := rfl
    simp only [h1] at hp
    cases hq : Pt.recover (R ++ S) v.toNat e with
    | none => rw [hq] at hp; cases hp
    | some q =>
      rw [hq] at hp
      obtain rfl : q = p := Except.ok.inj hp
      have hvx : (v ^^^ 1).toNat = v.toNat / 2 * 2 + (1 - v.toNat % 2) := by
        have : ∀ w : UInt8, w.toNat ≤ 3 → (w ^^^ 1).toNat = w.toNat / 2 * 2 + (1 - w.toNat % 2) := by
          intro w hw
          have hw' : w = 0 ∨ w = 1 ∨ w = 2 ∨ w = 3 := by
            simp only [← UInt8.toNat_inj]
            have e0 : (0 : UInt8).toNat = 0 := rfl
            have e1 : (1 : UInt8).toNat = 1 := rfl
            have e2 : (2 : UInt8).toNat = 2 := rfl
            have e3 : (3 : UInt8).toNat = 3 := rfl
            omega
          rcases hw' with rfl | rfl | rfl | rfl <;> decide
        exact this v hc.1
      have e1 : be_bytes_to_int ((R ++ S).take 32) = r := by rw [t1, be_bytes_to_int_eq, hr]
      have e2 : be_bytes_to_int ((R ++ S).drop 32) = s := by rw [t2, be_bytes_to_int_eq, hs]
      have e1' : be_bytes_to_int ((R ++ S').take 32) = r := by rw [t1', be_bytes_to_int_eq, hr]
      have e2' : be_bytes_to_int ((R ++ S').drop 32) = CURVE_ORDER - s := by rw [t2', be_bytes_to_int_eq, hs']
      obtain ⟨r0, s0, q0, T, hT, hE⟩ := (recover_iff _ e v.toNat r s e1 e2 hc.2.1 q).1 ((Pt.recover_eq_some _ _ _ _).1 hq)
      have hq' : Pt.recover (R ++ S') (v ^^^ 1).toNat e = some q := by
        rw [Pt.recover_eq_some]
        refine (recover_iff _ e _ r (CURVE_ORDER - s) e1' e2' hc.2.1 q).2 ⟨r0, by omega, q0, -T, ?_, ?_⟩
        · rw [hvx]; exact tells_neg hT
        · unfold Eqn at *
          rw [← hE, Nat.cast_sub hc.2.2.le]; simp
      have hk' : PublicKey.from_recoverable_signature (secp256k1 nonces) (R ++ S' ++ [v ^^^ 1]) m hasher = .ok k := by
        rw [PublicKey.from_recoverable_signature, he, ok_bind', public_key_from_recoverable_signature,
          cdata_recsig_eq _ _ hrs', t1', t2', hr, hs', if_pos ⟨by omega, hc.2.1, by omega⟩, ok_bind']
        have h2 : (secp256k1 nonces).recover (R ++ S') (v ^^^ 1).toNat e = Pt.recover (R ++ S') (v ^^^ 1).toNat e := rfl
        simp only [h2, hq']
        exact hk
      refine ⟨hk', _, C96_recovered nonces _ v hrs m hasher k h, ?_⟩
      rw [C96_recovered nonces _ _ hrs' m hasher k hk', t2, t2', hs, hs']
      have hodd := order_odd
      congr 1
      by_cases hlow : s ≤ CURVE_ORDER / 2
      · rw [decide_eq_true hlow, decide_eq_false (by omega)]; rfl
      · rw [decide_eq_false hlow, decide_eq_true (by omega)]; rfl
  · rw [if_neg hc, error_bind'] at hp
    cases hp

/-! ## C74: DER of the standard -/

/-- A compact signature is converted to the DER form of its two numbers, and 64 bytes that are no
signature to that of zeros; a DER signature that is converted to numbers other than zero is the DER
form of these. -/
theorem C74_der (sig : Bytes) (hl : sig.length = 64) :
    (IsCompact sig → ∃ d, compact_signature_to_der (secp256k1 nonces) sig = .ok d ∧
      IsDerSignature d (beValue (sig.take 32)) (beValue (sig.drop 32))) ∧
    (¬ IsCompact sig → ∃ d, compact_signature_to_der (secp256k1 nonces) sig = .ok d ∧ IsDerSignature d 0 0) ∧
    (∀ d, der_signature_to_compact (secp256k1 nonces) d = .ok sig → beValue (sig.take 32) ≠ 0 →
      beValue (sig.drop 32) ≠ 0 → IsDerSignature d (beValue (sig.take 32)) (beValue (sig.drop 32))) := by
  have hc : compact (beValue (sig.take 32)) (beValue (sig.drop 32)) = sig := by
    have h1 : (sig.take 32).length = 32 := by simp [hl]
    have h2 : (sig.drop 32).length = 32 := by simp [hl]
    have e1 := beBytes_beValue (sig.take 32)
    have e2 := beBytes_beValue (sig.drop 32)
    rw [h1] at e1
    rw [h2] at e2
    rw [compact, e1, e2, List.take_append_drop]
  refine ⟨fun h => ?_, fun h => ?_, fun d hd h1 h2 => ?_⟩
  · refine ⟨serialize_der sig, ?_, ?_⟩
    · obtain ⟨-, h2, h3⟩ := h
      simp [compact_signature_to_der, hl, Secp.parse_compact, h2, h3]
      rfl
    · obtain ⟨-, h2, h3⟩ := h
      rw [be_bytes_to_int_eq] at h2 h3
      rw [isDerSignature_iff _ _ _ h2 h3, hc]
  · refine ⟨_, C74_out_of_range _ sig hl h, ?_⟩
    rw [isDerSignature_iff _ _ _ curve_order_pos curve_order_pos]
    rfl
  · obtain ⟨-, hr, hs⟩ := C74_der_compact _ _ _ hd
    rw [be_bytes_to_int_eq] at hr hs
    rw [isDerSignature_iff _ _ _ hr hs, hc]
    have hp : parse_der d = some sig := by
      have h0 : der_signature_to_compact (secp256k1 nonces) d = match parse_der d with
          | none => .error .invalidSignatureError
          | some s => .ok s := rfl
      rw [h0] at hd
      split at hd
      · cases hd
      · next t ht => rw [ht, Except.ok.inj hd]
    obtain ⟨-, r, s, rfl, a, b, hu⟩ := parse_der_some hp
    rw [← be_bytes_to_int_eq, sig_take r s a] at h1
    rw [← be_bytes_to_int_eq, sig_drop r s b] at h2
    exact hu h1 h2

/-- The numbers 128 and 1, the first of which needs a byte for its sign. -/
example : IsCompact (compact 128 1) ∧ serialize_der (compact 128 1) =
    [0x30, 0x07, 0x02, 0x02, 0x00, 0x80, 0x02, 0x01, 0x01] := by
  unfold IsCompact
  decide +kernel

/-- A key signs with the DER form of numbers that satisfy the standard, `s` in the lower half,
whatever the nonces are. -/
theorem C96_sign (k : PrivateKey) (hk : PrivValid k) (m e : Bytes) (hasher : Option (Bytes → Bytes))
    (he : hasher.elim m (· m) = e) (hl : e.length = 32) (B : secpCurve.Point) (hB : IsBase B) :
    ∃ der r s, k.sign (secp256k1 nonces) m hasher = .ok der ∧ IsDerSignature der r s ∧ s ≤ CURVE_ORDER / 2 ∧
      EcdsaValid CURVE_ORDER B (secretNumber k • B) (beValue e) r s := by
  have hpk := PrivateKey.public_key_ok (secp256k1 nonces) k hk
  obtain ⟨⟨der, h1, h2⟩, _⟩ := (C80_sign (secp256k1 nonces) k hk _ hpk m hasher).1 (by rw [he]; exact hl)
  obtain ⟨r, s, h3, h4, h5⟩ := (C96_verify_der nonces _ der m e hasher he hl B hB).1 h2
  refine ⟨der, r, s, h1, h3, h5, ?_⟩
  have h6 : pointOf (nonces := nonces) (be_bytes_to_int k.secret • (secp256k1 nonces).gen) = secretNumber k • B := by
    rw [isBase_unique hB]
    exact (C95_group nonces).2.2.2.1 _ _
  rw [← h6]; exact h4

/-- The key 1 signs. -/
example : ∃ der r s, (⟨beBytes 32 1, true, Bitcoin⟩ : PrivateKey).sign (secp256k1 nonces) (zeros 32) none = .ok der ∧
    IsDerSignature der r s ∧ s ≤ CURVE_ORDER / 2 := by
  obtain ⟨der, r, s, h1, h2, h3, _⟩ := C96_sign nonces ⟨beBytes 32 1, true, Bitcoin⟩
    (by unfold PrivValid; decide +kernel) (zeros 32) (zeros 32) none rfl rfl _ isBase_gen
  exact ⟨der, r, s, h1, h2, h3⟩

/-- A published signature: the key 1, SHA-256 of "Satoshi Nakamoto", the nonce of RFC 6979. -/
example : signWith 1 0xa0dc65ffca799873cbea0ac274015b9526505daaaed385155425f7337704883e
    0x8f8a276c19f4149656b280621e358cce24f5f52542772691ee69063b74f15d15 =
    some (0x934b1ea10a4b3c1757e2b0c017d0b6143ce3c9a7e6a4a49860d7a6ab210ee3d8,
      0x2442ce9d2b916064108014783e923ec36b49743e2ffa1c4496f01a512aafd9e5, 1) := by decide +kernel

end Bitcoinx
