import Verif.Lemmas.Work

/-! # C11-C13: compact bits, targets and work -/

namespace Bitcoinx
open Spec

/-! ## C11 -/

/-- `bits_to_target` succeeds exactly on the canonical compact values, with the target they denote;
every other integer raises `ValueError`. -/
theorem C11_bits_to_target (bits : Int) :
    (∀ t, bits_to_target bits = .ok t ↔
      ∃ b : Nat, bits = b ∧ CanonicalBits b ∧ Denotes (b / 2 ^ 24) (b % 2 ^ 24) t) ∧
    ((¬ ∃ b : Nat, bits = b ∧ CanonicalBits b) → bits_to_target bits = .error .valueError) := by
  rcases lt_or_ge bits 0 with h | h
  · refine ⟨fun t => ?_, fun _ => bits_to_target_neg bits h⟩
    rw [bits_to_target_neg bits h]
    simp only [reduceCtorEq, false_iff]
    rintro ⟨b, hb, _⟩; omega
  · obtain ⟨n, rfl⟩ := Int.eq_ofNat_of_zero_le h
    refine ⟨fun t => ?_, fun hn => ?_⟩
    · rw [bits_to_target_ok_iff]
      constructor
      · rintro ⟨h1, h2⟩; exact ⟨n, rfl, h1, h2⟩
      · rintro ⟨b, hb, h1, h2⟩
        have : n = b := by exact_mod_cast hb
        subst this; exact ⟨h1, h2⟩
    · cases hc : bits_to_target (n : Int) with
      | ok t => exact absurd ⟨n, rfl, ((bits_to_target_ok_iff n t).1 hc).1⟩ hn
      | error e => rw [bits_to_target_error _ e hc]

/-- Whatever decodes, re-encodes to the same bits, and its target is below `2^256`. -/
theorem C11_roundtrip (bits : Int) (t : Nat) (h : bits_to_target bits = .ok t) :
    ∃ b : Nat, bits = b ∧ target_to_bits t = .ok b ∧ t < 2 ^ 256 := by
  obtain ⟨b, rfl, h1, h2⟩ := ((C11_bits_to_target bits).1 t).1 h
  exact ⟨b, rfl, bits_target_bits b t h⟩

/-- It raises exactly for the values that `target_to_bits` never produces. -/
theorem C11_raises_iff (bits : Int) :
    bits_to_target bits = .error .valueError ↔
      ¬ ∃ (t : Int) (b : Nat), target_to_bits t = .ok b ∧ bits = b := by
  constructor
  · rintro h ⟨t, b, ht, rfl⟩
    by_cases hr : 0 ≤ t ∧ t < 2 ^ 256
    · obtain ⟨n, rfl⟩ := Int.eq_ofNat_of_zero_le hr.1
      obtain ⟨b', r, hb', hr', _⟩ := round_target n (by omega)
      rw [ht] at hb'
      cases hb'
      rw [hr'] at h; simp at h
    · rw [target_to_bits_err t hr] at ht; simp at ht
  · intro h
    cases hc : bits_to_target bits with
    | ok t =>
      obtain ⟨b, hb, ht, _⟩ := C11_roundtrip bits t hc
      exact absurd ⟨t, b, ht, hb⟩ h
    | error e => rw [bits_to_target_error _ e hc]

example : bits_to_target 0x1d00ffff = .ok (0xffff * 2 ^ 208) ∧
    bits_to_target 0x03008000 = .ok 0x8000 ∧
    bits_to_target 0x1d007fff = .error .valueError ∧
    bits_to_target 0x01018000 = .error .valueError ∧
    bits_to_target 0x1d800000 = .error .valueError := by decide +kernel

/-! ## C12 -/

/-- Encoding and decoding a target gives the greatest representable target not above it; the
relative error is below `2^-15`; anything outside `0 .. 2^256-1` raises `ValueError`. -/
theorem C12_rounds_down (t : Int) :
    ((0 ≤ t ∧ t < 2 ^ 256) → ∃ b r, target_to_bits t = .ok b ∧ bits_to_target b = .ok r ∧
      (r : Int) ≤ t ∧ Representable r ∧ (∀ r', Representable r' → (r' : Int) ≤ t → r' ≤ r) ∧
      (t = 0 ∨ (t - r) * 2 ^ 15 < t)) ∧
    (¬ (0 ≤ t ∧ t < 2 ^ 256) → target_to_bits t = .error .valueError) := by
  refine ⟨?_, target_to_bits_err t⟩
  rintro ⟨h0, h1⟩
  obtain ⟨n, rfl⟩ := Int.eq_ofNat_of_zero_le h0
  obtain ⟨b, r, hb, hr, hle, hmax, hrel, hc, _⟩ := round_target n (by omega)
  refine ⟨b, r, hb, hr, by exact_mod_cast hle, ⟨b, hc, ((bits_to_target_ok_iff b r).1 hr).2⟩,
    fun r' h h' => hmax r' h (by exact_mod_cast h'), ?_⟩
  rcases Nat.eq_zero_or_pos n with hn | hn
  · left; simp [hn]
  · right
    have := hrel hn
    omega

/-- Monotone. -/
theorem C12_monotone (t t' : Int) (b b' : Nat) (r r' : Nat) (hle : t ≤ t')
    (hb : target_to_bits t = .ok b) (hb' : target_to_bits t' = .ok b')
    (hr : bits_to_target b = .ok r) (hr' : bits_to_target b' = .ok r') : r ≤ r' := by
  have key : ∀ (t : Int) (b r : Nat), target_to_bits t = .ok b → bits_to_target b = .ok r →
      (r : Int) ≤ t ∧ Representable r ∧ (∀ r', Representable r' → (r' : Int) ≤ t → r' ≤ r) := by
    intro t b r hb hr
    by_cases hrange : 0 ≤ t ∧ t < 2 ^ 256
    · obtain ⟨b0, r0, hb0, hr0, h1, h2, h3, _⟩ := (C12_rounds_down t).1 hrange
      rw [hb] at hb0; cases hb0
      rw [hr] at hr0; cases hr0
      exact ⟨h1, h2, h3⟩
    · rw [target_to_bits_err t hrange] at hb; simp at hb
  obtain ⟨h1, h2, _⟩ := key t b r hb hr
  obtain ⟨_, _, h3⟩ := key t' b' r' hb' hr'
  exact h3 r h2 (le_trans h1 hle)

example : target_to_bits (2 ^ 255 - 1) = .ok 0x207fffff ∧ target_to_bits (2 ^ 256 - 1) = .ok 0x2100ffff
    ∧ target_to_bits (2 ^ 256) = .error .valueError ∧ target_to_bits 0x80 = .ok 0x02008000 := by
  decide +kernel

/-! ## C13 -/

/-- The work of valid bits is the integer part of `2^256 / (target + 1)` and at least 1; bits
without a target have no work. -/
theorem C13_work (bits : Int) :
    (∀ t, bits_to_target bits = .ok t → ∃ w, bits_to_work bits = .ok w ∧ 1 ≤ w ∧
      w * (t + 1) ≤ 2 ^ 256 ∧ 2 ^ 256 < (w + 1) * (t + 1)) ∧
    (∀ e, bits_to_target bits = .error e → bits_to_work bits = .error e) := by
  constructor
  · intro t ht
    obtain ⟨b, rfl, _, hlt⟩ := C11_roundtrip bits t ht
    refine ⟨2 ^ 256 / (t + 1), by simp [bits_to_work, ht], ?_, Nat.div_mul_le_self _ _, ?_⟩
    · exact (Nat.le_div_iff_mul_le (by omega)).2 (by omega)
    · rw [Nat.mul_comm]; exact Nat.lt_mul_div_succ _ (by omega)
  · intro e he
    simp [bits_to_work, he]

/-- A smaller target never has less work. -/
theorem C13_antitone (bits bits' : Int) (t t' w w' : Nat) (h : bits_to_target bits = .ok t)
    (h' : bits_to_target bits' = .ok t') (hw : bits_to_work bits = .ok w)
    (hw' : bits_to_work bits' = .ok w') (hle : t ≤ t') : w' ≤ w := by
  simp only [bits_to_work, h, h', ok_bind', pure_ok', Except.ok.injEq] at hw hw'
  subst hw hw'
  exact Nat.div_le_div_left (by omega) (by omega)

example : bits_to_work 0x1d00ffff = .ok 4295032833 ∧ bits_to_work 0x2100ffff = .ok 1 := by
  decide +kernel

end Bitcoinx
