import Mathlib.Tactic.FieldSimp
import Mathlib.Tactic.Positivity
import Mathlib.Tactic.Linarith
import Mathlib.Tactic.Ring
import Mathlib.Algebra.Order.Field.Power
import Verif.Model.Difficulty
import Verif.Spec.Difficulty
import Verif.Props.Work
import Verif.Props.Base58
import Verif.Props.Daa

/-! # C105: the difficulty of a header -/

namespace Bitcoinx
open Spec

theorem split_zpow (e : Int) : (2 : Rat) ^ e = 2 ^ e.toNat / 2 ^ (-e).toNat := by
  rcases le_total 0 e with h | h
  · have : (-e).toNat = 0 := by omega
    rw [this, pow_zero, div_one]
    conv_lhs => rw [← Int.toNat_of_nonneg h]
    exact zpow_natCast 2 _
  · have h1 : e.toNat = 0 := by omega
    rw [h1, pow_zero]
    have : e = -((-e).toNat : Int) := by omega
    conv_lhs => rw [this]
    rw [zpow_neg, zpow_natCast, one_div]

/-- The exponent brings the quotient between `2^52` and `2^53`. -/
theorem quotientExponent_spec (a b : Nat) (ha : a ≠ 0) (hb : b ≠ 0) :
    let e := quotientExponent a b
    (2 : Rat) ^ 52 * 2 ^ e ≤ (a : Rat) / b ∧ (a : Rat) / b < 2 ^ 53 * 2 ^ e := by
  have a1 : 2 ^ Nat.log2 a ≤ a := Nat.log2_self_le ha
  have a2 : a < 2 ^ (Nat.log2 a + 1) := Nat.lt_log2_self
  have b1 : 2 ^ Nat.log2 b ≤ b := Nat.log2_self_le hb
  have b2 : b < 2 ^ (Nat.log2 b + 1) := Nat.lt_log2_self
  have hb0 : (0 : Rat) < b := by exact_mod_cast Nat.pos_of_ne_zero hb
  have A1 : (2 : Rat) ^ (Nat.log2 a : Int) ≤ a := by rw [zpow_natCast]; exact_mod_cast a1
  have A2 : (a : Rat) < 2 ^ ((Nat.log2 a : Int) + 1) := by
    rw [← Int.natCast_one, ← Int.natCast_add, zpow_natCast]; exact_mod_cast a2
  have B1 : (2 : Rat) ^ (Nat.log2 b : Int) ≤ b := by rw [zpow_natCast]; exact_mod_cast b1
  have B2 : (b : Rat) < 2 ^ ((Nat.log2 b : Int) + 1) := by
    rw [← Int.natCast_one, ← Int.natCast_add, zpow_natCast]; exact_mod_cast b2
  intro e
  set e0 : Int := (Nat.log2 a : Int) - Nat.log2 b - 52 with he0
  have hcond : (a * 2 ^ (-e0).toNat < b * 2 ^ e0.toNat * 2 ^ 52) ↔ (a : Rat) / b < 2 ^ 52 * 2 ^ e0 := by
    rw [split_zpow e0, div_lt_iff₀ hb0]
    have hp : (0 : Rat) < 2 ^ (-e0).toNat := by positivity
    have e1 : (2 : Rat) ^ 52 * (2 ^ e0.toNat / 2 ^ (-e0).toNat) * b = (b * 2 ^ e0.toNat * 2 ^ 52) / 2 ^ (-e0).toNat := by ring
    rw [e1, lt_div_iff₀ hp]
    exact_mod_cast Iff.rfl
  have he : e = if a * 2 ^ (-e0).toNat < b * 2 ^ e0.toNat * 2 ^ 52 then e0 - 1 else e0 := rfl
  have two : (2 : Rat) ≠ 0 := two_ne_zero
  have hup : (a : Rat) / b < 2 ^ 53 * 2 ^ e0 := by
    rw [div_lt_iff₀ hb0]
    calc (a : Rat) < 2 ^ ((Nat.log2 a : Int) + 1) := A2
      _ = 2 ^ 53 * 2 ^ e0 * 2 ^ (Nat.log2 b : Int) := by
        rw [← zpow_natCast, ← zpow_add₀ two, ← zpow_add₀ two]
        congr 1
        push_cast
        omega
      _ ≤ 2 ^ 53 * 2 ^ e0 * b := by
        exact mul_le_mul_of_nonneg_left B1 (by positivity)
  have hlo : (2 : Rat) ^ 52 * 2 ^ (e0 - 1) ≤ (a : Rat) / b := by
    rw [le_div_iff₀ hb0]
    calc (2 : Rat) ^ 52 * 2 ^ (e0 - 1) * b ≤ 2 ^ 52 * 2 ^ (e0 - 1) * 2 ^ ((Nat.log2 b : Int) + 1) :=
          mul_le_mul_of_nonneg_left B2.le (by positivity)
      _ = 2 ^ (Nat.log2 a : Int) := by
        rw [← zpow_natCast, ← zpow_add₀ two, ← zpow_add₀ two]
        congr 1
        push_cast
        omega
      _ ≤ a := A1
  by_cases hc : a * 2 ^ (-e0).toNat < b * 2 ^ e0.toNat * 2 ^ 52
  · rw [if_pos hc] at he
    rw [he]
    refine ⟨hlo, lt_of_lt_of_le (hcond.1 hc) (le_of_eq ?_)⟩
    rw [← zpow_natCast, ← zpow_natCast, ← zpow_add₀ two, ← zpow_add₀ two]
    congr 1
    push_cast
    ring
  · rw [if_neg hc] at he
    rw [he]
    exact ⟨not_lt.1 fun h => hc (hcond.2 h), hup⟩

/-- The nearest integer. -/
theorem round_nearest (num den m : Nat) (hd : den ≠ 0)
    (hm : m = if den < 2 * (num % den) ∨ (den = 2 * (num % den) ∧ num / den % 2 = 1) then num / den + 1 else num / den) :
    |(m : Rat) - num / den| ≤ 1 / 2 ∧ (|(m : Rat) - num / den| = 1 / 2 → ∃ k : Nat, 2 * num = (2 * k + 1) * den ∧ (m = k ∨ m = k + 1)) := by
  have hd0 : (0 : Rat) < den := by exact_mod_cast Nat.pos_of_ne_zero hd
  have hn : (num : Rat) = den * (num / den : Nat) + (num % den : Nat) := by exact_mod_cast (Nat.div_add_mod num den).symm
  have hr : num % den < den := Nat.mod_lt _ (Nat.pos_of_ne_zero hd)
  generalize hq : num / den = q at *
  generalize hrr : num % den = r at *
  have hr' : (r : Rat) < den := by exact_mod_cast hr
  have key : (num : Rat) / den = q + r / den := by rw [hn]; field_simp
  have hr0 : (0 : Rat) ≤ (r : Rat) / den := by positivity
  by_cases hc : den < 2 * r ∨ (den = 2 * r ∧ q % 2 = 1)
  · rw [if_pos hc] at hm
    have h2 : den ≤ 2 * r := by omega
    have h2' : (den : Rat) ≤ 2 * r := by exact_mod_cast h2
    have e : (m : Rat) - num / den = 1 - r / den := by rw [hm, key]; push_cast; ring
    have h3 : (r : Rat) / den < 1 := by rw [div_lt_one hd0]; exact hr'
    have h4 : 1 / 2 ≤ (r : Rat) / den := by rw [le_div_iff₀ hd0]; linarith
    rw [e, abs_of_nonneg (by linarith)]
    refine ⟨by linarith, fun h => ⟨q, ?_, .inr hm⟩⟩
    have h5 : (r : Rat) / den = 1 / 2 := by linarith
    rw [div_eq_iff (ne_of_gt hd0)] at h5
    have h6 : (2 * num : Rat) = (2 * q + 1) * den := by rw [hn]; linarith
    exact_mod_cast h6
  · rw [if_neg hc] at hm
    have h2 : 2 * r ≤ den := by omega
    have h2' : (2 * r : Rat) ≤ den := by exact_mod_cast h2
    have e : (m : Rat) - num / den = -(r / den) := by rw [hm, key]; ring
    have h4 : (r : Rat) / den ≤ 1 / 2 := by rw [div_le_iff₀ hd0]; linarith
    rw [e, abs_neg, abs_of_nonneg hr0]
    refine ⟨h4, fun h => ⟨q, ?_, .inl hm⟩⟩
    rw [div_eq_iff (ne_of_gt hd0)] at h
    have h6 : (2 * num : Rat) = (2 * q + 1) * den := by rw [hn]; linarith
    exact_mod_cast h6

/-- Rounding to the nearest double, if the quotient is not halfway between two. -/
theorem trueDivide_nearest (a b : Nat) (ha : a ≠ 0) (hb : b ≠ 0)
    (htie : ∀ (k i j : Nat), 2 ^ 52 ≤ k → 2 * (a * 2 ^ i) ≠ (2 * k + 1) * (b * 2 ^ j)) :
    ∃ d, trueDivide a b = .ok d ∧ NearestDouble (doubleValue d) ((a : Rat) / b) ∧
      |doubleValue d - (a : Rat) / b| * 2 ^ 53 ≤ (a : Rat) / b := by
  have hspec := quotientExponent_spec a b ha hb
  simp only at hspec
  unfold trueDivide
  rw [if_neg hb, if_neg ha]
  simp only
  generalize quotientExponent a b = e at *
  obtain ⟨m, hm⟩ : ∃ m, m = if b * 2 ^ e.toNat < 2 * (a * 2 ^ (-e).toNat % (b * 2 ^ e.toNat)) ∨
      (b * 2 ^ e.toNat = 2 * (a * 2 ^ (-e).toNat % (b * 2 ^ e.toNat)) ∧ a * 2 ^ (-e).toNat / (b * 2 ^ e.toNat) % 2 = 1)
    then a * 2 ^ (-e).toNat / (b * 2 ^ e.toNat) + 1 else a * 2 ^ (-e).toNat / (b * 2 ^ e.toNat) := ⟨_, rfl⟩
  rw [← hm]
  have hb0 : (0 : Rat) < b := by exact_mod_cast Nat.pos_of_ne_zero hb
  have hE : (0 : Rat) < 2 ^ e := by positivity
  have hden : b * 2 ^ e.toNat ≠ 0 := by positivity
  obtain ⟨n1, n2⟩ := round_nearest _ _ m hden hm
  -- the quotient in units of the last place
  have hx : ((a * 2 ^ (-e).toNat : Nat) : Rat) / (b * 2 ^ e.toNat : Nat) = (a : Rat) / b / 2 ^ e := by
    rw [split_zpow e]; push_cast; field_simp
  rw [hx] at n1 n2
  set x : Rat := (a : Rat) / b / 2 ^ e with hxd
  have x1 : (2 : Rat) ^ 52 ≤ x := by rw [hxd, le_div_iff₀ hE]; exact hspec.1
  have x2 : x < 2 ^ 53 := by rw [hxd, div_lt_iff₀ hE]; exact hspec.2
  have hq : (a : Rat) / b = x * 2 ^ e := by rw [hxd]; field_simp
  have hm1 : 2 ^ 52 ≤ m := by
    by_contra hcon
    have : (m : Rat) + 1 ≤ 2 ^ 52 := by exact_mod_cast not_le.1 hcon
    rw [abs_le] at n1
    linarith
  have n3 : |(m : Rat) - x| < 1 / 2 := by
    rcases lt_or_eq_of_le n1 with h | h
    · exact h
    · obtain ⟨k, h1, h2⟩ := n2 h
      have : 2 ^ 52 ≤ k := by
        by_contra hcon
        have hk : k + 1 ≤ 2 ^ 52 := by omega
        have h3 : (2 : Rat) * x = 2 * k + 1 := by
          rw [← hx]
          have h1' : (2 : Rat) * (a * 2 ^ (-e).toNat : Nat) = (2 * k + 1) * (b * 2 ^ e.toNat : Nat) := by exact_mod_cast h1
          have hd' : ((b * 2 ^ e.toNat : Nat) : Rat) ≠ 0 := by exact_mod_cast hden
          field_simp
          linarith
        have hk' : (k : Rat) + 1 ≤ 2 ^ 52 := by exact_mod_cast hk
        linarith
      exact absurd h1 (htie k _ _ this)
  have hdist : |doubleValue (m, e) - (a : Rat) / b| = |(m : Rat) - x| * 2 ^ e := by
    rw [doubleValue, hq, ← sub_mul, abs_mul, abs_of_pos hE]
  refine ⟨_, rfl, ⟨?_, ?_⟩, ?_⟩
  · by_cases h : m < 2 ^ 53
    · exact ⟨m, e, h, rfl⟩
    · have h' : (2 : Rat) ^ 53 ≤ m := by exact_mod_cast not_lt.1 h
      have : m = 2 ^ 53 := by
        rw [abs_lt] at n3
        have : (m : Rat) < 2 ^ 53 + 1 := by linarith
        have : m < 2 ^ 53 + 1 := by exact_mod_cast this
        omega
      refine ⟨2 ^ 52, e + 1, by norm_num, ?_⟩
      rw [doubleValue, this, zpow_add₀ two_ne_zero]
      push_cast
      ring
  · rintro w ⟨n, f, hn, rfl⟩ hne
    rw [hdist]
    have hn' : (n : Rat) < 2 ^ 53 := by exact_mod_cast hn
    by_cases hf : e ≤ f
    · -- a multiple of the unit
      obtain ⟨k, rfl⟩ : ∃ k : Nat, f = e + k := ⟨(f - e).toNat, by omega⟩
      have hw : (n : Rat) * 2 ^ (e + (k : Int)) = ((n * 2 ^ k : Nat) : Rat) * 2 ^ e := by
        rw [zpow_add₀ two_ne_zero, zpow_natCast]; push_cast; ring
      rw [hw] at hne ⊢
      rw [hq, ← sub_mul, abs_mul, abs_of_pos hE]
      refine mul_lt_mul_of_pos_right ?_ hE
      have hne' : n * 2 ^ k ≠ m := by
        rintro h; apply hne; rw [h]; rfl
      generalize n * 2 ^ k = y at *
      rw [abs_lt] at n3
      rcases Nat.lt_or_gt_of_ne hne' with h | h
      · have h' : (y : Rat) + 1 ≤ m := by exact_mod_cast h
        have : |(m : Rat) - x| < 1 / 2 := abs_lt.2 n3
        rw [abs_of_neg (by linarith : (y : Rat) - x < 0)]
        linarith
      · have h' : (m : Rat) + 1 ≤ y := by exact_mod_cast h
        have : |(m : Rat) - x| < 1 / 2 := abs_lt.2 n3
        rw [abs_of_pos (by linarith : (0 : Rat) < (y : Rat) - x)]
        linarith
    · -- below `2^52` units
      have hf' : (2 : Rat) ^ f ≤ 2 ^ (e - 1) := zpow_le_zpow_right₀ (by norm_num) (by omega)
      have e1 : (2 : Rat) ^ (e - 1) = 2 ^ e / 2 := by rw [zpow_sub₀ two_ne_zero, zpow_one]
      have hw : (n : Rat) * 2 ^ f < 2 ^ 52 * 2 ^ e := by
        calc (n : Rat) * 2 ^ f ≤ n * 2 ^ (e - 1) := mul_le_mul_of_nonneg_left hf' (by positivity)
          _ < 2 ^ 53 * 2 ^ (e - 1) := mul_lt_mul_of_pos_right hn' (by positivity)
          _ = 2 ^ 52 * 2 ^ e := by rw [e1]; ring
      have hlo : (2 : Rat) ^ 52 * 2 ^ e ≤ x * 2 ^ e := mul_le_mul_of_nonneg_right x1 hE.le
      rw [hq, abs_of_neg (by linarith : (n : Rat) * 2 ^ f - x * 2 ^ e < 0)]
      -- the integer `2^52` is not nearer than `m`
      have hm2 : |(m : Rat) - x| ≤ x - 2 ^ 52 := by
        by_cases h : m = 2 ^ 52
        · rw [h]; push_cast
          rw [abs_of_nonpos (by linarith)]; linarith
        · have h' : (2 : Rat) ^ 52 + 1 ≤ m := by
            have : 2 ^ 52 + 1 ≤ m := by omega
            exact_mod_cast this
          rw [abs_lt] at n3
          rw [abs_le]; constructor <;> linarith
      have := mul_le_mul_of_nonneg_right hm2 hE.le
      rw [sub_mul] at this
      linarith
  · rw [hdist, hq]
    have h1 : |(m : Rat) - x| * 2 ^ 53 ≤ x := by linarith
    calc |(m : Rat) - x| * 2 ^ e * 2 ^ 53 = |(m : Rat) - x| * 2 ^ 53 * 2 ^ e := by ring
      _ ≤ x * 2 ^ e := mul_le_mul_of_nonneg_right h1 hE.le

/-! ## C105 -/

/-- The greatest target of mainnet, of difficulty 1. -/
theorem max_target_eq : Bitcoin.max_target = 0xffff * 2 ^ 208 := by decide +kernel

/-- No quotient of the greatest target by a target is halfway between two doubles. -/
theorem no_tie (t k i j : Nat) (hk : 2 ^ 52 ≤ k) : 2 * (0xffff * 2 ^ 208 * 2 ^ i) ≠ (2 * k + 1) * (t * 2 ^ j) := by
  intro h
  have h1 : 2 * k + 1 ∣ 0xffff * 2 ^ (208 + i + 1) := by
    refine ⟨t * 2 ^ j, ?_⟩
    rw [← h, pow_add, pow_add]; ring
  have hodd : Nat.Coprime (2 * k + 1) (2 ^ (208 + i + 1)) :=
    Nat.Coprime.pow_right _ (by
      have : (2 * k + 1) % 2 = 1 := by omega
      rw [Nat.coprime_comm, Nat.Coprime, Nat.gcd_rec, this]
      rfl)
  have h2 := hodd.dvd_of_dvd_mul_right h1
  have := Nat.le_of_dvd (by norm_num) h2
  omega

/-- **C105**.  The difficulty of compact bits is the double nearest to the quotient of the mainnet's greatest target by
theirs.  The bits of target zero raise `ZeroDivisionError`, bits that denote no target `ValueError`. -/
theorem C105_nearest (bits : Int) :
    (∀ t, bits_to_target bits = .ok t → t ≠ 0 → ∃ d, bits_to_difficulty bits = .ok d ∧
      NearestDouble (doubleValue d) ((0xffff * 2 ^ 208 : Rat) / t)) ∧
    (bits = 0 → bits_to_difficulty bits = .error .zeroDivisionError) ∧
    ((¬ ∃ b : Nat, bits = b ∧ CanonicalBits b) → bits_to_difficulty bits = .error .valueError) := by
  refine ⟨fun t ht h0 => ?_, ?_, fun h => ?_⟩
  · obtain ⟨d, h1, h2, -⟩ := trueDivide_nearest (0xffff * 2 ^ 208) t (by norm_num) h0
      (fun k i j hk => no_tie t k i j hk)
    refine ⟨d, ?_, ?_⟩
    · rw [bits_to_difficulty, ht, ok_bind', max_target_eq]; exact h1
    · norm_num at h2 ⊢; exact h2
  · rintro rfl
    have : bits_to_target 0 = .ok 0 := by decide
    rw [bits_to_difficulty, this, ok_bind']
    rfl
  · rw [bits_to_difficulty, (C11_bits_to_target bits).2 h, error_bind']

/-! ## C20: the numbers of a header -/

/-- C20: the target, work and difficulty of a header are those of the bits in it, the number of its hash is the hash read
from its last byte, and its text is that number in 64 hexadecimal digits. -/
theorem C20_numbers (H : Hashes) (raw : Bytes) (height : Int) (hd : Header) (h : deserialized_header H raw height = .ok hd) :
    (∀ t, hd.target = .ok t ↔ ∃ b : Nat, header_bits raw = .ok b ∧ CanonicalBits b ∧ Denotes (b / 2 ^ 24) (b % 2 ^ 24) t) ∧
    (∀ t, hd.target = .ok t → ∃ w, hd.work = .ok w ∧ header_work raw = .ok w ∧ w * (t + 1) ≤ 2 ^ 256 ∧
      2 ^ 256 < (w + 1) * (t + 1)) ∧
    (∀ e, hd.target = .error e → e = .valueError ∧ hd.work = .error e ∧ header_work raw = .error e ∧
      hd.difficulty = .error e) ∧
    (∀ t, hd.target = .ok t → t ≠ 0 → ∃ d, hd.difficulty = .ok d ∧
      NearestDouble (doubleValue d) ((0xffff * 2 ^ 208 : Rat) / t)) ∧
    (hd.target = .ok 0 → hd.difficulty = .error .zeroDivisionError) ∧
    hd.hash_value = leValue (H.sha256 (H.sha256 raw)) ∧
    hd.hex_str.length = 64 ∧ Over hexAlphabet hd.hex_str ∧ numeral hexAlphabet hd.hex_str = some hd.hash_value := by
  have hl : raw.length = 80 := by
    by_contra hl; rw [C20_length H raw height hl] at h; cases h
  obtain ⟨hd', v, t, b, n, h1, h2, h3, h4, -, -, h6, -⟩ := C20_fields H raw height hl
  rw [h] at h1
  obtain rfl := Except.ok.inj h1
  have hw : header_work raw = bits_to_work hd.bits := by rw [header_work, h6, ok_bind']
  have he : hd.hash_value = leValue (H.sha256 (H.sha256 raw)) := by
    rw [Header.hash_value, h4, hash_to_value, le_bytes_to_int_eq]
  obtain ⟨d1, d2, d3, d4⟩ := C06_display hd.hash
  have ht : hd.target = bits_to_target hd.bits := rfl
  have hww : hd.work = bits_to_work hd.bits := rfl
  rw [ht, hww, hw]
  refine ⟨fun t => ?_, fun t ht => ?_, fun e he => ?_, fun t ht h0 => (C105_nearest hd.bits).1 t ht h0,
    fun h0 => ?_, he, ?_, d2, ?_⟩
  · rw [(C11_bits_to_target hd.bits).1 t, h6]
    constructor
    · rintro ⟨b, hb, c, d⟩; exact ⟨b, by rw [hb], c, d⟩
    · rintro ⟨b, hb, c, d⟩; exact ⟨b, Except.ok.inj hb, c, d⟩
  · obtain ⟨w, e1, -, e2, e3⟩ := (C13_work hd.bits).1 t ht
    exact ⟨w, e1, e1, e2, e3⟩
  · have e1 := (C13_work hd.bits).2 e he
    have hv : e = .valueError := bits_to_target_error _ e he
    refine ⟨hv, e1, e1, ?_⟩
    rw [Header.difficulty, bits_to_difficulty, he, error_bind']
  · rw [Header.difficulty, bits_to_difficulty, h0, ok_bind']; rfl
  · rw [Header.hex_str, d1, h4, H.sha256_length]
  · rw [Header.hex_str, d3, Header.hash_value, d4]

example : ∃ hd, deserialized_header toyHashes (exHeader 5 0x1b0404cb) 3 = .ok hd ∧
    hd.difficulty = .ok (8965099470472465, -39) ∧ hd.target = .ok (0x0404cb * 2 ^ 192) := by
  refine ⟨_, rfl, by decide +kernel, by decide +kernel⟩


/-! ## C105: the order of difficulties -/

/-- Targets that compact bits denote are apart. -/
theorem canonical_gap {b b' t t' : Nat} (h : CanonicalBits b) (h' : CanonicalBits b')
    (d : Denotes (b / 2 ^ 24) (b % 2 ^ 24) t) (d' : Denotes (b' / 2 ^ 24) (b' % 2 ^ 24) t') (hlt : t < t') :
    t * (2 ^ 23 + 1) ≤ t' * 2 ^ 23 := by
  unfold Denotes at d d'
  rcases h with rfl | ⟨h1, h2, -, -⟩
  · have : t = 0 := by simpa using d
    subst this; omega
  rcases h' with rfl | ⟨h1', h2', -, -⟩
  · have : t' = 0 := by simpa using d'
    omega
  generalize b / 2 ^ 24 = s at *
  generalize b % 2 ^ 24 = m at *
  generalize b' / 2 ^ 24 = s' at *
  generalize b' % 2 ^ 24 = m' at *
  have hT : m * 256 ^ s < m' * 256 ^ s' := by rw [← d, ← d']; omega
  have hss : s ≤ s' := by
    by_contra hcon
    obtain ⟨k, rfl⟩ : ∃ k, s = s' + 1 + k := ⟨s - s' - 1, by omega⟩
    have hp : 0 < 256 ^ s' := by positivity
    have hk : 1 ≤ 256 ^ k := Nat.one_le_pow _ _ (by norm_num)
    have : m' * 256 ^ s' ≤ m * 256 ^ (s' + 1 + k) := by
      rw [pow_add, pow_add, pow_one]
      calc m' * 256 ^ s' ≤ (m * 256) * 256 ^ s' := Nat.mul_le_mul_right _ (by omega)
        _ = m * (256 ^ s' * 256 * 1) := by ring
        _ ≤ m * (256 ^ s' * 256 * 256 ^ k) := Nat.mul_le_mul_left _ (Nat.mul_le_mul_left _ hk)
    omega
  obtain ⟨k, rfl⟩ : ∃ k, s' = s + k := ⟨s' - s, by omega⟩
  have hp : 0 < 256 ^ s := by positivity
  have hlt' : m < m' * 256 ^ k := by
    rw [pow_add] at hT
    have : m * 256 ^ s < m' * 256 ^ k * 256 ^ s := by rw [Nat.mul_assoc, Nat.mul_comm (256 ^ k)]; exact hT
    exact Nat.lt_of_mul_lt_mul_right this
  have hmm : m * (2 ^ 23 + 1) ≤ m' * 256 ^ k * 2 ^ 23 := by
    generalize m' * 256 ^ k = y at hlt'
    omega
  have : t * (2 ^ 23 + 1) * 256 ^ 3 ≤ t' * 2 ^ 23 * 256 ^ 3 := by
    calc t * (2 ^ 23 + 1) * 256 ^ 3 = (t * 256 ^ 3) * (2 ^ 23 + 1) := by ring
      _ = m * (2 ^ 23 + 1) * 256 ^ s := by rw [d]; ring
      _ ≤ m' * 256 ^ k * 2 ^ 23 * 256 ^ s := Nat.mul_le_mul_right _ hmm
      _ = (t' * 256 ^ 3) * 2 ^ 23 := by rw [d', pow_add]; ring
      _ = t' * 2 ^ 23 * 256 ^ 3 := by ring
  exact Nat.le_of_mul_le_mul_right this (by positivity)

/-- **C105**.  The smaller the target, the greater the difficulty: no two targets are rounded to the same number, and the
order of difficulties is exactly that of targets. -/
theorem C105_strict (bits bits' : Int) (t t' : Nat) (d d' : Nat × Int) (h : bits_to_target bits = .ok t)
    (h' : bits_to_target bits' = .ok t') (hd : bits_to_difficulty bits = .ok d) (hd' : bits_to_difficulty bits' = .ok d') :
    t < t' ↔ doubleValue d' < doubleValue d := by
  have nz : ∀ {bits t d}, bits_to_target bits = .ok t → bits_to_difficulty bits = .ok d → t ≠ 0 := by
    rintro bits t d h hd rfl
    rw [bits_to_difficulty, h, ok_bind'] at hd
    cases hd
  have key : ∀ {bits bits' : Int} {t t' : Nat} {d d' : Nat × Int}, bits_to_target bits = .ok t → bits_to_target bits' = .ok t' →
      bits_to_difficulty bits = .ok d → bits_to_difficulty bits' = .ok d' → t < t' → doubleValue d' < doubleValue d := by
    intro bits bits' t t' d d' h h' hd hd' hlt
    have h0 := nz h hd
    have h0' := nz h' hd'
    obtain ⟨b, rfl, c, e⟩ := ((C11_bits_to_target bits).1 t).1 h
    obtain ⟨b', rfl, c', e'⟩ := ((C11_bits_to_target bits').1 t').1 h'
    have gap := canonical_gap c c' e e' hlt
    rw [bits_to_difficulty, h, ok_bind', max_target_eq] at hd
    rw [bits_to_difficulty, h', ok_bind', max_target_eq] at hd'
    obtain ⟨x, h1, -, h2⟩ := trueDivide_nearest (0xffff * 2 ^ 208) t (by norm_num) h0 (fun k i j hk => no_tie t k i j hk)
    obtain ⟨x', h1', -, h2'⟩ := trueDivide_nearest (0xffff * 2 ^ 208) t' (by norm_num) h0' (fun k i j hk => no_tie t' k i j hk)
    rw [hd] at h1; obtain rfl := Except.ok.inj h1
    rw [hd'] at h1'; obtain rfl := Except.ok.inj h1'
    have ht : (0 : Rat) < t := by exact_mod_cast Nat.pos_of_ne_zero h0
    have ht' : (0 : Rat) < t' := by exact_mod_cast Nat.pos_of_ne_zero h0'
    have hM : (0 : Rat) < ((0xffff * 2 ^ 208 : Nat) : Rat) := by norm_num
    generalize ((0xffff * 2 ^ 208 : Nat) : Rat) = M at *
    have gap' : (t : Rat) * (2 ^ 23 + 1) ≤ t' * 2 ^ 23 := by exact_mod_cast gap
    have hq : M / t' * (2 ^ 23 + 1) ≤ M / t * 2 ^ 23 := by
      rw [div_mul_eq_mul_div, div_mul_eq_mul_div, div_le_div_iff₀ ht' ht]
      have := mul_le_mul_of_nonneg_left gap' hM.le
      linarith
    have hq0 : 0 < M / t' := by positivity
    have a1 := neg_abs_le (doubleValue d - M / t)
    have a2 := le_abs_self (doubleValue d' - M / t')
    generalize M / (t : Rat) = q at *
    generalize M / (t' : Rat) = q' at *
    norm_num at h2 h2' hq
    linarith
  refine ⟨fun hlt => key h h' hd hd' hlt, fun hlt => ?_⟩
  by_contra hcon
  rcases Nat.lt_or_ge t' t with hc | hc
  · exact absurd (key h' h hd' hd hc) (not_lt.2 hlt.le)
  · have : t = t' := by omega
    subst this
    rw [bits_to_difficulty, h, ok_bind'] at hd
    rw [bits_to_difficulty, h', ok_bind', hd] at hd'
    obtain rfl := Except.ok.inj hd'
    exact lt_irrefl _ hlt

/-- **C105**.  The difficulty is 1 exactly for the genesis bits of the coins. -/
theorem C105_one (bits : Int) (d : Nat × Int) (hd : bits_to_difficulty bits = .ok d) :
    doubleValue d = 1 ↔ bits = 0x1d00ffff := by
  have one : bits_to_difficulty 0x1d00ffff = .ok (2 ^ 52, -52) := by decide +kernel
  have v1 : doubleValue (2 ^ 52, -52) = 1 := by
    rw [doubleValue]; norm_num
  have tone : bits_to_target 0x1d00ffff = .ok (0xffff * 2 ^ 208) := by decide +kernel
  constructor
  · intro h
    cases ht : bits_to_target bits with
    | error e => rw [bits_to_difficulty, ht, error_bind'] at hd; cases hd
    | ok t =>
      have s1 := C105_strict _ _ _ _ _ _ ht tone hd one
      have s2 := C105_strict _ _ _ _ _ _ tone ht one hd
      rw [v1, h] at s1 s2
      simp only [lt_irrefl, iff_false, not_lt] at s1 s2
      have : t = 0xffff * 2 ^ 208 := le_antisymm s2 s1
      subst this
      obtain ⟨b, rfl, hb, -⟩ := C11_roundtrip bits _ ht
      obtain ⟨b', hb', hb2, -⟩ := C11_roundtrip _ _ tone
      rw [hb] at hb2
      rw [hb', Except.ok.inj hb2]
  · rintro rfl
    rw [one] at hd
    rw [← Except.ok.inj hd]; exact v1

example : bits_to_difficulty 0x1b0404cb = .ok (8965099470472465, -39) ∧
    16307.42 < doubleValue (8965099470472465, -39) ∧ doubleValue (8965099470472465, -39) < 16307.43 := by
  refine ⟨by decide +kernel, by rw [doubleValue]; norm_num, by rw [doubleValue]; norm_num⟩

end Bitcoinx
