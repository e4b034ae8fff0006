import Verif.Model.Work
import Verif.Spec.Work
import Verif.Lemmas.Packing
import Mathlib.Data.Nat.Bitwise

namespace Bitcoinx
open Spec

theorem pow256 (k : Nat) : (2 : Nat) ^ (8 * k) = 256 ^ k := by rw [pow_mul]; norm_num

/-- Arithmetic form of `bits_to_target`. -/
theorem bits_to_target_nat (b : Nat) : bits_to_target (b : Int) =
    if b > 0x2100ffff then .error .valueError
    else if ¬ (0x8000 ≤ b % 2 ^ 24 ∧ b % 2 ^ 24 < 0x800000) ∧ b ≠ 0 then .error .valueError
    else if b / 2 ^ 24 ≤ 3 then
      if b % 2 ^ 24 / 256 ^ (3 - b / 2 ^ 24) * 256 ^ (3 - b / 2 ^ 24) ≠ b % 2 ^ 24
      then .error .valueError
      else .ok (b % 2 ^ 24 / 256 ^ (3 - b / 2 ^ 24))
    else .ok (b % 2 ^ 24 * 256 ^ (b / 2 ^ 24 - 3)) := by
  unfold bits_to_target
  have hw : b &&& 0x00ffffff = b % 2 ^ 24 := Nat.and_two_pow_sub_one_eq_mod b 24
  have hs : b >>> 24 = b / 2 ^ 24 := Nat.shiftRight_eq_div_pow b 24
  simp only [Int.toNat_natCast, hw, hs]
  generalize b % 2 ^ 24 = w
  generalize hss : b / 2 ^ 24 = s
  by_cases h1 : b > 0x2100ffff
  · rw [if_pos h1, if_pos (by omega)]
  rw [if_neg h1, if_neg (by omega)]
  by_cases h2 : ¬ (0x8000 ≤ w ∧ w < 0x800000) ∧ b ≠ 0
  · rw [if_pos h2, if_pos (by omega)]
  rw [if_neg h2, if_neg (by omega)]
  by_cases h3 : s ≤ 3
  · rw [if_pos h3, if_pos (by omega)]
    have : (-(8 * ((s : Int) - 3))).toNat = 8 * (3 - s) := by omega
    rw [this, Nat.shiftRight_eq_div_pow, Nat.shiftLeft_eq, pow256]
  · rw [if_neg h3, if_neg (by omega)]
    have : (8 * ((s : Int) - 3)).toNat = 8 * (s - 3) := by omega
    rw [this, Nat.shiftLeft_eq, pow256]

theorem bits_to_target_neg (b : Int) (h : b < 0) : bits_to_target b = .error .valueError := by
  unfold bits_to_target
  rw [if_pos (by omega)]

theorem canonical_iff_range (b : Nat) (h : 0x8000 ≤ b % 2 ^ 24) (h' : b % 2 ^ 24 < 0x800000) :
    (b % 2 ^ 24) * 256 ^ (b / 2 ^ 24) < 2 ^ 256 * 256 ^ 3 ↔ b ≤ 0x2100ffff := by
  have hb := Nat.div_add_mod b (2 ^ 24)
  generalize b % 2 ^ 24 = w at *
  generalize b / 2 ^ 24 = s at *
  have e : (2 : Nat) ^ 256 * 256 ^ 3 = 256 ^ 35 := by norm_num
  rw [e]
  rcases Nat.lt_trichotomy s 33 with hs | hs | hs
  · constructor
    · intro _; omega
    · intro _
      calc w * 256 ^ s < 256 ^ 3 * 256 ^ s := Nat.mul_lt_mul_of_pos_right (by omega) (by positivity)
      _ = 256 ^ (3 + s) := by rw [pow_add]
      _ ≤ 256 ^ 35 := Nat.pow_le_pow_right (by norm_num) (by omega)
  · subst hs
    have : (256 : Nat) ^ 35 = 256 ^ 2 * 256 ^ 33 := by norm_num
    rw [this, Nat.mul_lt_mul_right (by positivity)]
    omega
  · constructor
    · intro hlt
      exfalso
      have : 256 ^ 35 ≤ w * 256 ^ s := by
        calc 256 ^ 35 = 256 ^ 1 * 256 ^ 34 := by norm_num
        _ ≤ w * 256 ^ 34 := Nat.mul_le_mul_right _ (by omega)
        _ ≤ w * 256 ^ s := Nat.mul_le_mul_left _ (Nat.pow_le_pow_right (by norm_num) (by omega))
      omega
    · intro _; omega

/-- Success of `bits_to_target` in terms of the specification. -/
theorem bits_to_target_ok_iff (b t : Nat) : bits_to_target (b : Int) = .ok t ↔
    CanonicalBits b ∧ Denotes (b / 2 ^ 24) (b % 2 ^ 24) t := by
  rw [bits_to_target_nat]
  unfold CanonicalBits Denotes
  by_cases h0 : b = 0
  · subst h0; simp; omega
  simp only [h0, ne_eq, not_false_eq_true, and_true, false_or]
  by_cases h2 : 0x8000 ≤ b % 2 ^ 24 ∧ b % 2 ^ 24 < 0x800000
  · have hr := canonical_iff_range b h2.1 h2.2
    by_cases h1 : b > 0x2100ffff
    · rw [if_pos h1]
      simp only [reduceCtorEq, false_iff]
      rintro ⟨⟨_, _, h, _⟩, _⟩
      have := hr.1 h; omega
    · have hrng := hr.2 (by omega)
      rw [if_neg h1, if_neg (by simpa using h2)]
      obtain ⟨ha, hb⟩ := h2
      simp only [ha, hb, hrng, true_and]
      clear hr hrng
      generalize b % 2 ^ 24 = w at *
      generalize b / 2 ^ 24 = s at *
      by_cases h3 : s ≤ 3
      · rw [if_pos h3]
        have hp : (256 : Nat) ^ 3 = 256 ^ (3 - s) * 256 ^ s := by
          rw [← pow_add]; congr 1; omega
        have hpos : 0 < (256 : Nat) ^ s := by positivity
        have hpos' : 0 < (256 : Nat) ^ (3 - s) := by positivity
        rw [hp]
        generalize 256 ^ (3 - s) = P at *
        generalize 256 ^ s = Q at *
        rw [Nat.mul_dvd_mul_iff_right hpos, ← Nat.mul_assoc, Nat.mul_left_inj hpos.ne']
        split
        · next hne =>
          simp only [reduceCtorEq, false_iff]
          rintro ⟨hd, _⟩
          exact hne (Nat.div_mul_cancel hd)
        · next heq =>
          have heq := not_not.1 heq
          simp only [Except.ok.injEq]
          constructor
          · rintro rfl; exact ⟨⟨_, by rw [Nat.mul_comm]; exact heq.symm⟩, heq⟩
          · rintro ⟨_, h⟩; rw [← h, Nat.mul_div_cancel _ hpos']
      · rw [if_neg h3]
        have hp : (256 : Nat) ^ s = 256 ^ (s - 3) * 256 ^ 3 := by
          rw [← pow_add]; congr 1; omega
        rw [hp, ← Nat.mul_assoc, Nat.mul_left_inj (by norm_num)]
        simp only [Except.ok.injEq, dvd_mul_left, true_and]
        exact eq_comm
  · rw [if_pos h2]
    constructor
    · intro h; split at h <;> simp at h
    · rintro ⟨⟨h, h', _⟩, _⟩; exact absurd ⟨h, h'⟩ h2

theorem bits_to_target_error (b : Int) (e : Err) (h : bits_to_target b = .error e) :
    e = .valueError := by
  unfold bits_to_target at h
  split at h
  · exact (Except.error.inj h).symm
  · simp only at h
    split at h
    · exact (Except.error.inj h).symm
    · split at h
      · split at h
        · exact (Except.error.inj h).symm
        · simp at h
      · simp at h

/-- `target_to_bits`: the mantissa and exponent produced. -/
theorem target_to_bits_spec (t : Nat) (h : t < 2 ^ 256) :
    ∃ w s, target_to_bits (t : Int) = .ok (w + s * 2 ^ 24) ∧ w = t * 256 ^ 3 / 256 ^ s ∧
      (t = 0 → w = 0 ∧ s = 0) ∧ (0 < t → 0x8000 ≤ w ∧ w < 0x800000) := by
  have hbl : bitLength t ≤ 256 := (bitLength_le t 256).2 h
  unfold target_to_bits
  simp only [Int.natAbs_natCast, Int.toNat_natCast]
  rw [if_neg (by omega)]
  generalize hsz : (bitLength t + 7) / 8 = size
  -- characterize size
  have hup : t < 256 ^ size := by
    have := lt_byteSize (t : Int)
    rw [byteSize, Int.natAbs_natCast, hsz] at this; exact this
  have hlo : 0 < t → 256 ^ (size - 1) ≤ t ∧ 1 ≤ size := by
    intro hpos
    have h1 : 1 ≤ size := by
      rcases Nat.eq_zero_or_pos size with h0 | h0
      · subst h0; simp at hup; omega
      · exact h0
    refine ⟨?_, h1⟩
    by_contra hc
    have := (byteSize_le (t : Int) (size - 1)).2 (by simpa using hc)
    rw [byteSize, Int.natAbs_natCast, hsz] at this
    omega
  have hword : (if 8 * ((size : Int) - 3) ≤ 0 then t <<< (-(8 * ((size : Int) - 3))).toNat
      else t >>> (8 * ((size : Int) - 3)).toNat) = t * 256 ^ 3 / 256 ^ size := by
    by_cases h3 : size ≤ 3
    · rw [if_pos (by omega)]
      have : (-(8 * ((size : Int) - 3))).toNat = 8 * (3 - size) := by omega
      rw [this, Nat.shiftLeft_eq, pow256]
      have hp : (256 : Nat) ^ 3 = 256 ^ (3 - size) * 256 ^ size := by
        rw [← pow_add]; congr 1; omega
      rw [hp, ← Nat.mul_assoc, Nat.mul_div_cancel _ (by positivity)]
    · rw [if_neg (by omega)]
      have : (8 * ((size : Int) - 3)).toNat = 8 * (size - 3) := by omega
      rw [this, Nat.shiftRight_eq_div_pow, pow256]
      have hp : (256 : Nat) ^ size = 256 ^ (size - 3) * 256 ^ 3 := by
        rw [← pow_add]; congr 1; omega
      rw [hp, Nat.mul_div_mul_right _ _ (by norm_num)]
  rw [hword]
  generalize hwd : t * 256 ^ 3 / 256 ^ size = word
  have hpos : 0 < (256 : Nat) ^ size := by positivity
  have hwup : word < 2 ^ 24 := by
    rw [← hwd, Nat.div_lt_iff_lt_mul hpos]
    calc t * 256 ^ 3 < 256 ^ size * 256 ^ 3 := Nat.mul_lt_mul_of_pos_right hup (by norm_num)
    _ = _ := by ring
  have hwlo : 0 < t → 2 ^ 16 ≤ word := by
    intro ht
    obtain ⟨h1, h2⟩ := hlo ht
    rw [← hwd, Nat.le_div_iff_mul_le hpos]
    have : (256 : Nat) ^ size = 256 ^ (size - 1) * 256 := by
      rw [← pow_succ]; congr 1; omega
    rw [this]
    nlinarith
  have htest : word &&& 0x00800000 ≠ 0 ↔ 0x800000 ≤ word := by
    have h1 : word &&& 2 ^ 23 = (word.testBit 23).toNat * 2 ^ 23 := Nat.and_two_pow word 23
    have h1' : word &&& 0x00800000 = (word.testBit 23).toNat * 2 ^ 23 := h1
    rw [h1', Nat.testBit_eq_decide_div_mod_eq]
    by_cases hc : 0x800000 ≤ word
    · have : word / 2 ^ 23 % 2 = 1 := by omega
      rw [this]; simp [hc]
    · have : word / 2 ^ 23 % 2 = 0 := by omega
      rw [this]; simp; omega
  have hor : ∀ w s : Nat, w < 2 ^ 24 → w ||| (s <<< 24) = w + s * 2 ^ 24 := by
    intro w s hw
    rw [Nat.or_comm, ← Nat.shiftLeft_add_eq_or_of_lt hw, Nat.shiftLeft_eq, Nat.add_comm]
  by_cases hc : 0x800000 ≤ word
  · rw [if_pos (htest.2 hc)]
    refine ⟨word / 256, size + 1, ?_, ?_, ?_, ?_⟩
    · rw [Nat.shiftRight_eq_div_pow]
      simp only
      rw [hor _ _ (by omega)]
    · rw [← hwd, Nat.div_div_eq_div_mul, ← pow_succ]
    · intro h0
      subst h0
      have : word = 0 := by rw [← hwd]; simp
      omega
    · intro _; omega
  · rw [if_neg (fun h => hc (htest.1 h))]
    refine ⟨word, size, ?_, hwd.symm, ?_, ?_⟩
    · simp only
      rw [hor _ _ hwup]
    · intro h0
      subst h0
      refine ⟨by rw [← hwd]; simp, ?_⟩
      rw [← hsz]; simp [bitLength]
    · intro ht
      have := hwlo ht
      omega

theorem target_to_bits_err (t : Int) (h : ¬ (0 ≤ t ∧ t < 2 ^ 256)) :
    target_to_bits t = .error .valueError := by
  unfold target_to_bits
  rw [if_pos]
  rcases lt_or_ge t 0 with h0 | h0
  · exact Or.inl h0
  · right
    by_contra hc
    have : bitLength t.natAbs ≤ 256 := by omega
    rw [bitLength_le] at this
    omega

/-- Two canonical (mantissa, exponent) pairs: the one denoting at most `t` is at most the one that
rounds `t` down. -/
theorem canonical_le {t w s w' s' : Nat} (hw : w = t * 256 ^ 3 / 256 ^ s)
    (h1 : 0x8000 ≤ w) (h2 : w < 0x800000) (h1' : 0x8000 ≤ w') (h2' : w' < 0x800000)
    (hle : w' * 256 ^ s' ≤ t * 256 ^ 3) : s' ≤ s ∧ w' * 256 ^ s' ≤ w * 256 ^ s ∧
      (s' = s ∨ w' * 256 ^ s' < w * 256 ^ s) := by
  have hpos : 0 < (256 : Nat) ^ s := by positivity
  have hlt : t * 256 ^ 3 < (w + 1) * 256 ^ s := by
    rw [hw, Nat.mul_comm (_ + 1)]; exact Nat.lt_mul_div_succ _ hpos
  rcases Nat.lt_trichotomy s' s with h | h | h
  · have hp : (256 : Nat) ^ (s' + 1) ≤ 256 ^ s := Nat.pow_le_pow_right (by norm_num) h
    have hlt' : w' * 256 ^ s' < w * 256 ^ s := by
      calc w' * 256 ^ s' < 0x800000 * 256 ^ s' := Nat.mul_lt_mul_of_pos_right h2' (by positivity)
      _ = 0x8000 * 256 ^ (s' + 1) := by rw [pow_succ]; ring
      _ ≤ w * 256 ^ s := Nat.mul_le_mul h1 hp
    exact ⟨by omega, hlt'.le, Or.inr hlt'⟩
  · subst h
    have : w' ≤ w := by rw [hw, Nat.le_div_iff_mul_le hpos]; exact hle
    exact ⟨Nat.le_refl _, Nat.mul_le_mul_right _ this, Or.inl rfl⟩
  · exfalso
    have hp : (256 : Nat) ^ (s + 1) ≤ 256 ^ s' := Nat.pow_le_pow_right (by norm_num) h
    have : (w + 1) * 256 ^ s ≤ w' * 256 ^ s' := by
      calc (w + 1) * 256 ^ s ≤ 0x800000 * 256 ^ s := Nat.mul_le_mul_right _ (by omega)
      _ = 0x8000 * 256 ^ (s + 1) := by rw [pow_succ]; ring
      _ ≤ w' * 256 ^ s' := Nat.mul_le_mul h1' hp
    omega

/-- Encoding then decoding: the greatest representable target not above `t`. -/
theorem round_target (t : Nat) (h : t < 2 ^ 256) :
    ∃ b r, target_to_bits (t : Int) = .ok b ∧ bits_to_target (b : Int) = .ok r ∧ r ≤ t ∧
      (∀ r', Representable r' → r' ≤ t → r' ≤ r) ∧ (0 < t → (t - r) * 2 ^ 15 < t) ∧
      CanonicalBits b ∧ (0 < t → 0 < r) := by
  obtain ⟨w, s, hb, hw, h0, hp⟩ := target_to_bits_spec t h
  rcases Nat.eq_zero_or_pos t with ht | ht
  · obtain ⟨rfl, rfl⟩ := h0 ht
    subst ht
    exact ⟨0, 0, by simpa using hb, by rfl, by simp, fun r' _ h => h, by simp, Or.inl rfl, by simp⟩
  obtain ⟨hp1, hp2⟩ := hp ht
  have hmod : (w + s * 2 ^ 24) % 2 ^ 24 = w := by omega
  have hdiv : (w + s * 2 ^ 24) / 2 ^ 24 = s := by omega
  have hpos : 0 < (256 : Nat) ^ s := by positivity
  have hle : w * 256 ^ s ≤ t * 256 ^ 3 := by rw [hw]; exact Nat.div_mul_le_self _ _
  have hlt : t * 256 ^ 3 < (w + 1) * 256 ^ s := by
    rw [hw, Nat.mul_comm (_ + 1)]; exact Nat.lt_mul_div_succ _ hpos
  have hdvd : 256 ^ 3 ∣ w * 256 ^ s := by
    by_cases h3 : s ≤ 3
    · have hpw : (256 : Nat) ^ 3 = 256 ^ (3 - s) * 256 ^ s := by
        rw [← pow_add]; congr 1; omega
      have : w * 256 ^ s = t * 256 ^ 3 := by
        rw [hw, hpw, ← Nat.mul_assoc, Nat.mul_div_cancel _ hpos]
      rw [this]; exact dvd_mul_left _ _
    · have hpw : (256 : Nat) ^ s = 256 ^ (s - 3) * 256 ^ 3 := by
        rw [← pow_add]; congr 1; omega
      rw [hpw, ← Nat.mul_assoc]; exact dvd_mul_left _ _
  obtain ⟨r, hr⟩ := hdvd
  have hcanon : CanonicalBits (w + s * 2 ^ 24) := by
    right
    rw [hmod, hdiv]
    refine ⟨hp1, hp2, ?_, ⟨r, hr⟩⟩
    calc w * 256 ^ s ≤ t * 256 ^ 3 := hle
    _ < 2 ^ 256 * 256 ^ 3 := Nat.mul_lt_mul_of_pos_right h (by norm_num)
  refine ⟨w + s * 2 ^ 24, r, hb, ?_, ?_, ?_, ?_, hcanon, ?_⟩
  · rw [bits_to_target_ok_iff]
    refine ⟨hcanon, ?_⟩
    rw [Denotes, hmod, hdiv, hr, Nat.mul_comm]
  · rw [hr] at hle; omega
  · rintro r' ⟨b', hc, hd⟩ hr't
    rcases hc with rfl | ⟨c1, c2, _, _⟩
    · simp [Denotes] at hd; omega
    · unfold Denotes at hd
      have := (canonical_le hw hp1 hp2 c1 c2 (by rw [← hd]; exact Nat.mul_le_mul_right _ hr't)).2.1
      rw [← hd, hr] at this
      omega
  · intro _
    have hle' : r ≤ t := by rw [hr] at hle; omega
    have e1 : (t - r) * 256 ^ 3 < 256 ^ s := by
      rw [Nat.sub_mul]
      rw [Nat.add_mul, hr] at hlt
      omega
    have e2 : 2 ^ 15 * 256 ^ s ≤ t * 256 ^ 3 :=
      le_trans (Nat.mul_le_mul_right _ hp1) hle
    have e3 : (t - r) * 2 ^ 15 * 256 ^ 3 < t * 256 ^ 3 := by
      calc (t - r) * 2 ^ 15 * 256 ^ 3 = 2 ^ 15 * ((t - r) * 256 ^ 3) := by ring
      _ < 2 ^ 15 * 256 ^ s := Nat.mul_lt_mul_of_pos_left e1 (by norm_num)
      _ ≤ _ := e2
    exact Nat.lt_of_mul_lt_mul_right e3
  · intro _
    rcases Nat.eq_zero_or_pos r with hr0 | hr0
    · rw [hr0] at hr
      have : 0 < w * 256 ^ s := Nat.mul_pos (by omega) hpos
      omega
    · exact hr0

/-- Decoding then encoding is the identity. -/
theorem bits_target_bits (b t : Nat) (h : bits_to_target (b : Int) = .ok t) :
    target_to_bits (t : Int) = .ok b ∧ t < 2 ^ 256 := by
  rw [bits_to_target_ok_iff] at h
  obtain ⟨hc, hd⟩ := h
  rcases hc with rfl | ⟨c1, c2, c3, _⟩
  · have : t = 0 := by simpa [Denotes] using hd
    subst this
    exact ⟨by rfl, by norm_num⟩
  unfold Denotes at hd
  have ht : t < 2 ^ 256 := by
    rw [← hd] at c3; exact Nat.lt_of_mul_lt_mul_right c3
  refine ⟨?_, ht⟩
  have hpos : 0 < t := by
    rcases Nat.eq_zero_or_pos t with h0 | h0
    · subst h0
      have : 0 < b % 2 ^ 24 * 256 ^ (b / 2 ^ 24) := Nat.mul_pos (by omega) (by positivity)
      omega
    · exact h0
  obtain ⟨w, s, hb, hw, _, hp⟩ := target_to_bits_spec t ht
  obtain ⟨p1, p2⟩ := hp hpos
  obtain ⟨k1, k2, k3⟩ := canonical_le hw p1 p2 c1 c2 hd.ge
  have hle : w * 256 ^ s ≤ t * 256 ^ 3 := by rw [hw]; exact Nat.div_mul_le_self _ _
  rcases k3 with k3 | k3
  · have hs : (0 : Nat) < 256 ^ s := by positivity
    have hww : b % 2 ^ 24 = w := by
      rw [hw, hd, k3, Nat.mul_div_cancel _ hs]
    rw [hb]
    have := Nat.div_add_mod b (2 ^ 24)
    rw [hww, k3] at this
    congr 1; omega
  · rw [← hd] at k3; omega

end Bitcoinx
