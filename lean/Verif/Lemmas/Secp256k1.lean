import Verif.Lemmas.Der

/-! # The functions written out satisfy the laws of the library -/

namespace Bitcoinx.K1

open Spec

theorem recover_valid (sig msg : Bytes) (v : Nat) (q : Raw) (h : recover sig v msg = some q) :
    valid q = true ∧ q ≠ none := by
  unfold recover at h
  simp only at h
  split at h
  · cases h
  · split at h
    · cases h
    · split at h
      · cases h
      · next R hR =>
        obtain ⟨R', rfl, _⟩ := (lift_tells _ v R).1 hR
        split at h
        · cases h
        · next q' hn =>
          obtain rfl := Option.some.inj h
          refine ⟨?_, hn⟩
          exact valid_add _ _ (valid_mul _ _ R'.2) (valid_mul _ _ valid_G)

/-- `recover`, giving a point. -/
def Pt.recover (sig : Bytes) (v : Nat) (msg : Bytes) : Option Pt :=
  match h : K1.recover sig v msg with
  | none => none
  | some q => some ⟨q, (recover_valid sig msg v q h).1⟩

theorem Pt.recover_eq_some (sig msg : Bytes) (v : Nat) (p : Pt) :
    Pt.recover sig v msg = some p ↔ K1.recover sig v msg = some p.1 := by
  unfold Pt.recover
  split
  · next h => simp [h]
  · next q h =>
    constructor
    · intro he; rw [← Option.some.inj he]; exact h
    · intro he
      have : q = p.1 := Option.some.inj (h.symm.trans he)
      exact congrArg some (Pt.ext this)

theorem half_lt : HALF_ORDER < CURVE_ORDER := by unfold HALF_ORDER; have := curve_order_pos; omega

/-- What signing gives. -/
theorem sign_spec (nonces : Bytes → Bytes → List Nat) (m d : Bytes) (h0 : 0 < be_bytes_to_int d)
    (hd : be_bytes_to_int d < CURVE_ORDER) :
    ∃ r s, sign nonces m d = compact r s ∧ r < CURVE_ORDER ∧ s < CURVE_ORDER ∧
      verify (sign nonces m d) m (be_bytes_to_int d • Pt.gen : Pt).1 = true ∧
      (sign_recoverable nonces m d).2 ≤ 3 ∧
      recover (sign nonces m d) (sign_recoverable nonces m d).2 m = some (be_bytes_to_int d • Pt.gen : Pt).1 := by
  obtain ⟨k, hk⟩ := signFirst_spec (be_bytes_to_int d) (scalar m) h0 hd (nonces m d)
  have hsr : sign_recoverable nonces m d = (compact
      (signFirst (be_bytes_to_int d) (scalar m) (nonces m d)).1
      (signFirst (be_bytes_to_int d) (scalar m) (nonces m d)).2.1,
      (signFirst (be_bytes_to_int d) (scalar m) (nonces m d)).2.2) := rfl
  generalize signFirst (be_bytes_to_int d) (scalar m) (nonces m d) = t at hk hsr
  obtain ⟨r, s, v⟩ := t
  simp only at hsr
  obtain ⟨r0, r1, s0, s1, v1, R, hT, hE, _⟩ := signWith_some _ _ _ _ _ _ hk
  have s2 : s < CURVE_ORDER := lt_of_le_of_lt s1 half_lt
  refine ⟨r, s, by rw [sign, hsr], r1, s2, ?_, by rw [hsr]; exact v1, ?_⟩
  · rw [sign, hsr]
    refine (verify_iff _ m _ r s (sig_take r s r1) (sig_drop r s s2) r1).2 ⟨r0, s0, s1, R, ?_⟩
    obtain ⟨x, y, hR, hx, _⟩ := hT
    refine ⟨x, y, hR, ?_, hE⟩
    rw [hx]
    split
    · rw [Nat.add_mod_right, Nat.mod_eq_of_lt r1]
    · exact Nat.mod_eq_of_lt r1
  · rw [sign, hsr]
    refine (recover_iff _ m v r s (sig_take r s r1) (sig_drop r s s2) r1 _).2 ⟨r0, by omega, ?_, R, hT, hE⟩
    intro hz
    rw [← addOrderOf_dvd_iff_nsmul_eq_zero, Pt.addOrderOf_gen] at hz
    exact absurd (Nat.le_of_dvd h0 hz) (by omega)

/-- The library, with the functions written out; the nonces are a parameter. -/
def secp256k1 (nonces : Bytes → Bytes → List Nat) : Secp where
  Point := Pt
  gen := Pt.gen
  gen_ne := Pt.gen_ne
  torsion := Pt.torsion
  serialize c p := serialize c p.1
  parse := Pt.parse
  serialize_length c p := Pt.serialize_length c p.1
  serialize_head p := by
    obtain ⟨r, hr⟩ := p
    match r with
    | none => rfl
    | some (x, y) => rfl
  parse_serialize c p hp := (Pt.parse_spec _ p).2 ⟨hp, by cases c <;> simp⟩
  parse_ne b p h := ((Pt.parse_spec b p).1 h).1
  parse_length b p h := by
    rcases ((Pt.parse_spec b p).1 h).2 with rfl | rfl | ⟨x, y, _, rfl⟩
    · left; rw [Pt.serialize_length]; rfl
    · right; rw [Pt.serialize_length]; rfl
    · right; simp [hybrid]
  parse_compressed b p h hl := by
    rcases ((Pt.parse_spec b p).1 h).2 with rfl | rfl | ⟨x, y, _, rfl⟩
    · rfl
    · rw [Pt.serialize_length] at hl; simp at hl
    · simp [hybrid] at hl
  parse_uncompressed b p h hl hh := by
    rcases ((Pt.parse_spec b p).1 h).2 with rfl | rfl | ⟨x, y, _, rfl⟩
    · rw [Pt.serialize_length] at hl; simp at hl
    · rfl
    · simp only [hybrid, List.head?_cons, Option.some.injEq] at hh
      split at hh <;> exact absurd hh (by decide)
  parse_der := parse_der
  serialize_der := serialize_der
  sign := sign nonces
  sign_recoverable := sign_recoverable nonces
  verify sig msg p := verify sig msg p.1
  recover := Pt.recover
  parse_der_compact b sig h := by
    obtain ⟨_, r, s, rfl, hr, hs, _⟩ := parse_der_some h
    refine ⟨by simp [compact], ?_, ?_⟩
    · rw [sig_take r s hr]; exact hr
    · rw [sig_drop r s hs]; exact hs
  parse_der_length b sig h := (parse_der_some h).1
  parse_serialize_der := parse_serialize_der
  serialize_der_length := serialize_der_length
  sign_valid m d _ h0 hd := by
    obtain ⟨r, s, e, hr, hs, hv, _, _⟩ := sign_spec nonces m d h0 hd
    refine ⟨by rw [e]; simp [compact], ?_, ?_, hv⟩
    · rw [e, sig_take r s hr]; exact hr
    · rw [e, sig_drop r s hs]; exact hs
  sign_recoverable_valid m d _ h0 hd := by
    obtain ⟨r, s, e, hr, hs, _, hle, hrec⟩ := sign_spec nonces m d h0 hd
    exact ⟨rfl, hle, (Pt.recover_eq_some _ _ _ _).2 hrec⟩
  recover_ne sig v m p h := by
    have := (recover_valid sig m v p.1 ((Pt.recover_eq_some _ _ _ _).1 h)).2
    rw [ne_eq, Pt.eq_zero_iff]; exact this

end Bitcoinx.K1
