import Verif.Model.Cashaddr
import Verif.Spec.Cashaddr
import Verif.Lemmas.Common
import Mathlib.Tactic.Ring
import Mathlib.Tactic.Linarith
import Mathlib.Data.Nat.Bitwise

/-! # Lemmas about cash addresses -/

namespace Bitcoinx

open Spec

/-! ## Radix -/

theorem radix_append (k : Nat) (a b : Bytes) :
    radix k (a ++ b) = radix k a * (2 ^ k) ^ b.length + radix k b := by
  induction a with
  | nil => simp [radix]
  | cons x a ih =>
    simp only [List.cons_append, radix, ih, List.length_append, pow_add]
    ring

theorem radix_snoc (k : Nat) (a : Bytes) (x : UInt8) :
    radix k (a ++ [x]) = radix k a * 2 ^ k + x.toNat := by
  simp [radix_append, radix]

theorem radix_lt (k : Nat) (a : Bytes) (h : ∀ x ∈ a, x.toNat < 2 ^ k) :
    radix k a < (2 ^ k) ^ a.length := by
  induction a with
  | nil => simp [radix]
  | cons x a ih =>
    have h1 := h x (by simp)
    have h2 := ih (fun y hy => h y (by simp [hy]))
    simp only [radix, List.length_cons, pow_succ]
    calc x.toNat * (2 ^ k) ^ a.length + radix k a
        < x.toNat * (2 ^ k) ^ a.length + (2 ^ k) ^ a.length := by omega
      _ = (x.toNat + 1) * (2 ^ k) ^ a.length := by ring
      _ ≤ 2 ^ k * (2 ^ k) ^ a.length := Nat.mul_le_mul_right _ h1
      _ = _ := by ring

theorem radix_inj (k : Nat) (a b : Bytes) (ha : ∀ x ∈ a, x.toNat < 2 ^ k)
    (hb : ∀ x ∈ b, x.toNat < 2 ^ k) (hl : a.length = b.length) (h : radix k a = radix k b) :
    a = b := by
  induction a generalizing b with
  | nil => cases b with
    | nil => rfl
    | cons _ _ => simp at hl
  | cons x a ih =>
    cases b with
    | nil => simp at hl
    | cons y b =>
      have hl' : a.length = b.length := by simpa using hl
      have h1 := radix_lt k a (fun z hz => ha z (by simp [hz]))
      have h2 := radix_lt k b (fun z hz => hb z (by simp [hz]))
      simp only [radix] at h
      rw [hl'] at h h1
      have hx : x.toNat = y.toNat := by
        have e1 := congrArg (· / (2 ^ k) ^ b.length) h
        have hp : 0 < (2 ^ k) ^ b.length := by positivity
        rw [Nat.add_comm, Nat.add_mul_div_right _ _ hp, Nat.div_eq_of_lt h1, Nat.add_comm (_ * _),
          Nat.add_mul_div_right _ _ hp, Nat.div_eq_of_lt h2] at e1
        omega
      have hr : radix k a = radix k b := by rw [hx] at h; omega
      rw [UInt8.toNat_inj.mp hx, ih b (fun z hz => ha z (by simp [hz]))
        (fun z hz => hb z (by simp [hz])) hl' hr]

/-! ## `_convertbits` -/

namespace cashaddr

theorem emitLoop_spec (acc t : Nat) (ht : 0 < t) (ht8 : t ≤ 8) (fuel bits : Nat) (ret : Bytes)
    (hf : bits ≤ fuel) (hr : ∀ x ∈ ret, x.toNat < 2 ^ t) :
    ∃ b r, emitLoop acc t (2 ^ t - 1) fuel bits ret = (b, r) ∧ b < t ∧
      r.length * t + b = ret.length * t + bits ∧ (∀ x ∈ r, x.toNat < 2 ^ t) ∧
      radix t r * 2 ^ b + acc % 2 ^ b = radix t ret * 2 ^ bits + acc % 2 ^ bits := by
  induction fuel generalizing bits ret with
  | zero =>
    have : bits = 0 := by omega
    subst this
    exact ⟨0, ret, rfl, ht, rfl, hr, rfl⟩
  | succ fuel ih =>
    by_cases hb : t ≤ bits
    · simp only [emitLoop, hb, if_true]
      have h256 : (2 : Nat) ^ t ≤ 256 := by
        calc (2 : Nat) ^ t ≤ 2 ^ 8 := Nat.pow_le_pow_right (by omega) ht8
          _ = 256 := rfl
      have hv : (UInt8.ofNat ((acc >>> (bits - t)) &&& (2 ^ t - 1))).toNat =
          acc / 2 ^ (bits - t) % 2 ^ t := by
        rw [Nat.and_two_pow_sub_one_eq_mod, Nat.shiftRight_eq_div_pow, UInt8.toNat_ofNat']
        have := Nat.mod_lt (acc / 2 ^ (bits - t)) (show 0 < 2 ^ t by positivity)
        exact Nat.mod_eq_of_lt (by omega)
      obtain ⟨b, r, e, h1, h2, h3, h4⟩ := ih (bits - t)
        (ret ++ [UInt8.ofNat ((acc >>> (bits - t)) &&& (2 ^ t - 1))]) (by omega) (by
          intro x hx
          rcases List.mem_append.mp hx with hx | hx
          · exact hr x hx
          · rw [List.mem_singleton.mp hx, hv]
            exact Nat.mod_lt _ (by positivity))
      refine ⟨b, r, e, h1, ?_, h3, ?_⟩
      · rw [h2]
        simp only [List.length_append, List.length_singleton, Nat.add_mul]
        omega
      · rw [h4, radix_snoc, hv]
        have e1 : 2 ^ bits = 2 ^ (bits - t) * 2 ^ t := by rw [← pow_add]; congr 1; omega
        rw [e1, Nat.mod_mul]
        ring
    · simp only [emitLoop, hb, if_false]
      exact ⟨bits, ret, rfl, by omega, rfl, hr, rfl⟩

theorem convertLoop_spec (f t : Nat) (ht : 0 < t) (ht8 : t ≤ 8) (data : Bytes)
    (acc bits : Nat) (ret : Bytes) (hb : bits < t)
    (hd : ∀ x ∈ data, x.toNat < 2 ^ f) (hr : ∀ x ∈ ret, x.toNat < 2 ^ t) :
    ∃ a b r, convertLoop f t (2 ^ t - 1) (2 ^ (f + t - 1) - 1) data (acc, bits, ret) = (a, b, r) ∧
      b < t ∧ r.length * t + b = ret.length * t + bits + f * data.length ∧
      (∀ x ∈ r, x.toNat < 2 ^ t) ∧
      radix t r * 2 ^ b + a % 2 ^ b =
        (radix t ret * 2 ^ bits + acc % 2 ^ bits) * (2 ^ f) ^ data.length + radix f data := by
  induction data generalizing acc bits ret with
  | nil => exact ⟨acc, bits, ret, rfl, hb, by simp, hr, by simp [radix]⟩
  | cons v data ih =>
    have hv := hd v (by simp)
    have hacc : ((acc <<< f ||| v.toNat) &&& (2 ^ (f + t - 1) - 1)) =
        (acc * 2 ^ f + v.toNat) % 2 ^ (f + t - 1) := by
      rw [Nat.and_two_pow_sub_one_eq_mod, ← Nat.shiftLeft_add_eq_or_of_lt hv acc,
        Nat.shiftLeft_eq]
    obtain ⟨b, r, e, h1, h2, h3, h4⟩ := emitLoop_spec ((acc * 2 ^ f + v.toNat) % 2 ^ (f + t - 1)) t
      ht ht8 (bits + f) (bits + f) ret (le_refl _) hr
    obtain ⟨a', b', r', e', g1, g2, g3, g4⟩ := ih ((acc * 2 ^ f + v.toNat) % 2 ^ (f + t - 1)) b r h1
      (fun x hx => hd x (by simp [hx])) h3
    refine ⟨a', b', r', ?_, g1, ?_, g3, ?_⟩
    · simp only [convertLoop, hacc, e, e']
    · rw [g2, h2, List.length_cons]
      ring
    · rw [g4, h4]
      have hm : (acc * 2 ^ f + v.toNat) % 2 ^ (f + t - 1) % 2 ^ (bits + f) =
          (acc % 2 ^ bits) * 2 ^ f + v.toNat := by
        rw [Nat.mod_mod_of_dvd _ (pow_dvd_pow 2 (by omega)), Nat.add_comm bits f, pow_add,
          Nat.mod_mul, Nat.add_comm (acc * _), Nat.add_mul_mod_self_right, Nat.mod_eq_of_lt hv,
          Nat.add_mul_div_right _ _ (by positivity), Nat.div_eq_of_lt hv]
        ring_nf
      rw [hm]
      simp only [radix, List.length_cons, pow_succ, pow_add]
      ring

/-- Conversion without padding: as many whole digits as there are, the rest is lost. -/
theorem convertbits_nopad (f t : Nat) (ht : 0 < t) (ht8 : t ≤ 8) (data : Bytes)
    (hd : ∀ x ∈ data, x.toNat < 2 ^ f) :
    ∃ b r, b < t ∧ r < 2 ^ b ∧ (convertbits data f t false).length * t + b = f * data.length ∧
      (∀ x ∈ convertbits data f t false, x.toNat < 2 ^ t) ∧
      radix t (convertbits data f t false) * 2 ^ b + r = radix f data := by
  obtain ⟨a, b, r, e, h1, h2, h3, h4⟩ := convertLoop_spec f t ht ht8 data 0 0 [] ht hd (by simp)
  have e' : convertbits data f t false = r := by
    simp [convertbits, Nat.one_shiftLeft, e]
  rw [e']
  refine ⟨b, a % 2 ^ b, h1, Nat.mod_lt _ (by positivity), by simpa using h2, h3, ?_⟩
  simpa [radix] using h4

/-- Conversion with padding: zero bits are added to fill the last digit. -/
theorem convertbits_pad (f t : Nat) (ht : 0 < t) (ht8 : t ≤ 8) (data : Bytes)
    (hd : ∀ x ∈ data, x.toNat < 2 ^ f) :
    ∃ p, p < t ∧ (convertbits data f t true).length * t = f * data.length + p ∧
      (∀ x ∈ convertbits data f t true, x.toNat < 2 ^ t) ∧
      radix t (convertbits data f t true) = radix f data * 2 ^ p := by
  obtain ⟨a, b, r, e, h1, h2, h3, h4⟩ := convertLoop_spec f t ht ht8 data 0 0 [] ht hd (by simp)
  simp only [radix, Nat.zero_mul, Nat.zero_add, Nat.mod_one, pow_zero, List.length_nil] at h2 h4
  by_cases hb : b = 0
  · have e' : convertbits data f t true = r := by simp [convertbits, Nat.one_shiftLeft, e, hb]
    rw [e']
    subst hb
    refine ⟨0, ht, by simpa using h2, h3, ?_⟩
    rw [← h4]
    simp [Nat.mod_one]
  · have e' : convertbits data f t true = r ++ [UInt8.ofNat ((a <<< (t - b)) &&& (2 ^ t - 1))] := by
      simp [convertbits, Nat.one_shiftLeft, e, hb]
    have h256 : (2 : Nat) ^ t ≤ 256 := by
      calc (2 : Nat) ^ t ≤ 2 ^ 8 := Nat.pow_le_pow_right (by omega) ht8
        _ = 256 := rfl
    have hv : (UInt8.ofNat ((a <<< (t - b)) &&& (2 ^ t - 1))).toNat = a % 2 ^ b * 2 ^ (t - b) := by
      have e1 : 2 ^ t = 2 ^ b * 2 ^ (t - b) := by rw [← pow_add]; congr 1; omega
      have e2 : ((a <<< (t - b)) &&& (2 ^ t - 1)) = a % 2 ^ b * 2 ^ (t - b) := by
        rw [Nat.and_two_pow_sub_one_eq_mod, Nat.shiftLeft_eq, e1, Nat.mul_mod_mul_right]
      have e3 : a % 2 ^ b * 2 ^ (t - b) < 2 ^ t := by
        rw [e1]
        exact Nat.mul_lt_mul_of_pos_right (Nat.mod_lt _ (by positivity)) (by positivity)
      rw [UInt8.toNat_ofNat', e2]
      exact Nat.mod_eq_of_lt (by omega)
    rw [e']
    refine ⟨t - b, by omega, ?_, ?_, ?_⟩
    · simp only [List.length_append, List.length_singleton, Nat.add_mul]
      omega
    · intro x hx
      rcases List.mem_append.mp hx with hx | hx
      · exact h3 x hx
      · rw [List.mem_singleton.mp hx, hv]
        have e1 : 2 ^ t = 2 ^ b * 2 ^ (t - b) := by rw [← pow_add]; congr 1; omega
        rw [e1]
        exact Nat.mul_lt_mul_of_pos_right (Nat.mod_lt _ (by positivity)) (by positivity)
    · rw [radix_snoc, hv, ← h4]
      have e1 : 2 ^ t = 2 ^ b * 2 ^ (t - b) := by rw [← pow_add]; congr 1; omega
      rw [e1]
      ring

/-! ## `_polymod` -/

/-- The multiples of the generator that `_polymod` adds. -/
def gen (c0 : Nat) : Nat :=
  (if c0 &&& 0x01 ≠ 0 then 0x98f2bc8e61 else 0) ^^^ (if c0 &&& 0x02 ≠ 0 then 0x79b76d99e2 else 0) ^^^
  (if c0 &&& 0x04 ≠ 0 then 0xf33e5fb3c4 else 0) ^^^ (if c0 &&& 0x08 ≠ 0 then 0xae2eabe2a8 else 0) ^^^
  (if c0 &&& 0x10 ≠ 0 then 0x1e4f43e470 else 0)

def step0 (c : Nat) : Nat := ((c &&& 0x07ffffffff) <<< 5) ^^^ gen (c >>> 35)

theorem polymodStep_eq (c : Nat) (d : UInt8) : polymodStep c d = step0 c ^^^ d.toNat := by
  unfold polymodStep step0 gen
  dsimp only
  generalize (c &&& 0x07ffffffff) <<< 5 = a
  generalize c >>> 35 = c0
  generalize d.toNat = x
  have h0 : ∀ y : Nat, y ^^^ 0 = y := Nat.xor_zero
  split_ifs <;> (try simp only [h0, Nat.zero_xor]) <;>
    try simp only [Nat.xor_assoc, Nat.xor_comm, Nat.xor_left_comm]

theorem gen_linear : ∀ a < 32, ∀ b < 32, gen (a ^^^ b) = gen a ^^^ gen b := by decide +kernel

theorem gen_mod : ∀ a < 32, gen a % 32 = a := by decide +kernel

theorem gen_lt : ∀ a < 32, gen a < 2 ^ 40 := by decide +kernel

theorem shr_lt {c : Nat} (h : c < 2 ^ 40) : c >>> 35 < 32 := by
  rw [Nat.shiftRight_eq_div_pow]; omega

theorem mask_eq (c : Nat) : c &&& 0x07ffffffff = c % 2 ^ 35 :=
  Nat.and_two_pow_sub_one_eq_mod c 35

theorem step0_linear {a b : Nat} (ha : a < 2 ^ 40) (hb : b < 2 ^ 40) :
    step0 (a ^^^ b) = step0 a ^^^ step0 b := by
  unfold step0
  rw [Nat.shiftRight_xor_distrib, gen_linear _ (shr_lt ha) _ (shr_lt hb),
    Nat.and_xor_distrib_right, Nat.shiftLeft_xor_distrib]
  simp only [Nat.xor_assoc, Nat.xor_left_comm]

theorem step0_lt {a : Nat} (ha : a < 2 ^ 40) : step0 a < 2 ^ 40 := by
  unfold step0
  refine Nat.xor_lt_two_pow ?_ (gen_lt _ (shr_lt ha))
  rw [mask_eq, Nat.shiftLeft_eq]
  omega

theorem step0_eq_zero {a : Nat} (ha : a < 2 ^ 40) (h : step0 a = 0) : a = 0 := by
  unfold step0 at h
  have h1 := Nat.xor_eq_zero_iff.mp h
  have h2 := gen_mod _ (shr_lt ha)
  rw [← h1, mask_eq, Nat.shiftLeft_eq] at h2
  have h3 : a >>> 35 = 0 := by omega
  rw [h3, mask_eq, Nat.shiftLeft_eq] at h1
  rw [Nat.shiftRight_eq_div_pow] at h3
  have h4 : gen 0 = 0 := by decide
  omega

theorem step0_inj {a b : Nat} (ha : a < 2 ^ 40) (hb : b < 2 ^ 40) (h : step0 a = step0 b) : a = b := by
  have h1 : step0 (a ^^^ b) = 0 := by rw [step0_linear ha hb, h, Nat.xor_self]
  exact Nat.xor_eq_zero_iff.mp (step0_eq_zero (Nat.xor_lt_two_pow ha hb) h1)

/-- The loop of `_polymod`. -/
def run (c : Nat) (ds : Bytes) : Nat := ds.foldl polymodStep c

@[simp] theorem run_nil (c : Nat) : run c [] = c := rfl

@[simp] theorem run_cons (c : Nat) (d : UInt8) (ds : Bytes) :
    run c (d :: ds) = run (step0 c ^^^ d.toNat) ds := by
  rw [← polymodStep_eq]; rfl

theorem run_append (c : Nat) (a b : Bytes) : run c (a ++ b) = run (run c a) b := by
  simp [run, List.foldl_append]

theorem polymod_eq (v : Bytes) : polymod v = run 1 v ^^^ 1 := rfl

theorem step_lt {c : Nat} (h : c < 2 ^ 40) (d : UInt8) : step0 c ^^^ d.toNat < 2 ^ 40 :=
  Nat.xor_lt_two_pow (step0_lt h) (lt_trans d.toNat_lt (by norm_num))

theorem run_lt {c : Nat} (h : c < 2 ^ 40) (ds : Bytes) : run c ds < 2 ^ 40 := by
  induction ds generalizing c with
  | nil => exact h
  | cons d ds ih => rw [run_cons]; exact ih (step_lt h d)

theorem run_inj {c c' : Nat} (h : c < 2 ^ 40) (h' : c' < 2 ^ 40) (ds : Bytes)
    (e : run c ds = run c' ds) : c = c' := by
  induction ds generalizing c c' with
  | nil => exact e
  | cons d ds ih =>
    rw [run_cons, run_cons] at e
    exact step0_inj h h' (Nat.xor_right_injective.eq_iff.mp (by
      have := ih (step_lt h d) (step_lt h' d) e
      rwa [Nat.xor_comm, Nat.xor_comm (step0 c')] at this))

theorem run_xor {c c' : Nat} (h : c < 2 ^ 40) (h' : c' < 2 ^ 40) (ds es : Bytes)
    (hl : ds.length = es.length) :
    run (c ^^^ c') (List.zipWith (· ^^^ ·) ds es) = run c ds ^^^ run c' es := by
  induction ds generalizing c c' es with
  | nil => cases es with
    | nil => rfl
    | cons _ _ => simp at hl
  | cons d ds ih => cases es with
    | nil => simp at hl
    | cons e es =>
      have hl' : ds.length = es.length := by simpa using hl
      simp only [List.zipWith_cons_cons, run_cons]
      rw [← ih (step_lt h d) (step_lt h' e) es hl', step0_linear h h', UInt8.toNat_xor]
      congr 1
      simp only [Nat.xor_assoc, Nat.xor_left_comm]

/-- Up to eight numbers fit into the state side by side. -/
theorem run_small (c : Nat) (ds : Bytes) (hd : ∀ d ∈ ds, d.toNat < 2 ^ 5) (hl : ds.length ≤ 8)
    (hc : c < 2 ^ (40 - 5 * ds.length)) : run c ds = c * (2 ^ 5) ^ ds.length + radix 5 ds := by
  induction ds generalizing c with
  | nil => simp [radix]
  | cons d ds ih =>
    have h1 := hd d (by simp)
    rw [List.length_cons] at hc hl
    have hc35 : c < 2 ^ 35 := lt_of_lt_of_le hc (Nat.pow_le_pow_right (by omega) (by omega))
    have hs : step0 c ^^^ d.toNat = c * 2 ^ 5 + d.toNat := by
      have g0 : gen 0 = 0 := by decide
      unfold step0
      rw [mask_eq, Nat.mod_eq_of_lt hc35, Nat.shiftRight_eq_div_pow, Nat.div_eq_of_lt hc35, g0,
        Nat.xor_zero, ← Nat.shiftLeft_eq]
      rw [Nat.shiftLeft_add_eq_or_of_lt h1]
      apply Nat.eq_of_testBit_eq
      intro i
      simp only [Nat.testBit_xor, Nat.testBit_or, Nat.testBit_shiftLeft]
      by_cases hi : 5 ≤ i
      · have : d.toNat.testBit i = false :=
          Nat.testBit_lt_two_pow (lt_of_lt_of_le h1 (Nat.pow_le_pow_right (by omega) hi))
        simp [this]
      · simp [hi]
    rw [run_cons, hs, ih _ (fun x hx => hd x (by simp [hx])) (by omega) ?_]
    · simp only [radix, List.length_cons, pow_succ]
      ring
    · have e : 40 - 5 * ds.length = (40 - 5 * (ds.length + 1)) + 5 := by omega
      rw [e, pow_add]
      omega

theorem run_zero_eight (ds : Bytes) (hd : ∀ d ∈ ds, d.toNat < 2 ^ 5) (hl : ds.length ≤ 8) :
    run 0 ds = radix 5 ds := by
  rw [run_small 0 ds hd hl (by positivity)]; simp

theorem run_window {c : Nat} (hc : c < 2 ^ 40) (w w' : Bytes) (hw : ∀ d ∈ w, d.toNat < 2 ^ 5)
    (hw' : ∀ d ∈ w', d.toNat < 2 ^ 5) (hl : w.length = w'.length) (hl8 : w.length ≤ 8) :
    run c w ^^^ run c w' = radix 5 (List.zipWith (· ^^^ ·) w w') := by
  rw [← run_xor hc hc w w' hl, Nat.xor_self, run_zero_eight]
  · intro d hd
    obtain ⟨i, hi, rfl⟩ := List.getElem_of_mem hd
    rw [List.getElem_zipWith, UInt8.toNat_xor]
    exact Nat.xor_lt_two_pow (hw _ (List.getElem_mem _)) (hw' _ (List.getElem_mem _))
  · simp [hl8]

theorem radix_eq_zero (k : Nat) (a : Bytes) (h : radix k a = 0) : ∀ x ∈ a, x = 0 := by
  induction a with
  | nil => simp
  | cons y a ih =>
    simp only [radix, Nat.add_eq_zero_iff, Nat.mul_eq_zero] at h
    have hp : ((2 : Nat) ^ k) ^ a.length ≠ 0 := by positivity
    intro x hx
    rcases List.mem_cons.mp hx with rfl | hx
    · exact UInt8.toNat_inj.mp (by simpa [hp] using h.1)
    · exact ih h.2 x hx

theorem zipWith_xor_zero (w w' : Bytes) (hl : w.length = w'.length)
    (h : ∀ x ∈ List.zipWith (· ^^^ ·) w w', x = 0) : w = w' := by
  induction w generalizing w' with
  | nil => cases w' with
    | nil => rfl
    | cons _ _ => simp at hl
  | cons a w ih => cases w' with
    | nil => simp at hl
    | cons b w' =>
      simp only [List.zipWith_cons_cons, List.mem_cons, forall_eq_or_imp] at h
      rw [UInt8.xor_eq_zero_iff.mp h.1, ih w' (by simpa using hl) h.2]

/-- Two sequences that differ, and only inside a window of eight, have different states. -/
theorem run_window_ne {c : Nat} (hc : c < 2 ^ 40) (w w' z : Bytes) (hw : ∀ d ∈ w, d.toNat < 2 ^ 5)
    (hw' : ∀ d ∈ w', d.toNat < 2 ^ 5) (hl : w.length = w'.length) (hl8 : w.length ≤ 8)
    (hne : w ≠ w') : run c (w ++ z) ≠ run c (w' ++ z) := by
  intro h
  rw [run_append, run_append] at h
  have h1 := run_inj (run_lt hc w) (run_lt hc w') z h
  have h2 := run_window hc w w' hw hw' hl hl8
  rw [h1, Nat.xor_self] at h2
  exact hne (zipWith_xor_zero w w' hl (radix_eq_zero 5 _ h2.symm))

/-! ## Checksums -/

theorem polymod_lt (v : Bytes) : polymod v < 2 ^ 40 := by
  rw [polymod_eq]
  exact Nat.xor_lt_two_pow (run_lt (by norm_num) v) (by norm_num)

theorem create_checksum_length (pre : Str) (data : Bytes) : (create_checksum pre data).length = 8 := by
  simp [create_checksum]

theorem ofNat_and31 (n : Nat) : (UInt8.ofNat (n &&& 31)).toNat = n % 32 := by
  rw [show (31 : Nat) = 2 ^ 5 - 1 from rfl, Nat.and_two_pow_sub_one_eq_mod, UInt8.toNat_ofNat']
  omega

theorem create_checksum_lt (pre : Str) (data : Bytes) :
    ∀ d ∈ create_checksum pre data, d.toNat < 2 ^ 5 := by
  intro d hd
  unfold create_checksum at hd
  obtain ⟨i, _, rfl⟩ := List.mem_map.mp hd
  rw [ofNat_and31]
  omega

theorem create_checksum_radix (pre : Str) (data : Bytes) :
    radix 5 (create_checksum pre data) = polymod (prefix_expand pre ++ data ++ zeros 8) := by
  have hlt := polymod_lt (prefix_expand pre ++ data ++ zeros 8)
  unfold create_checksum
  dsimp only
  generalize polymod (prefix_expand pre ++ data ++ zeros 8) = P at hlt ⊢
  have e : List.range 8 = [0, 1, 2, 3, 4, 5, 6, 7] := rfl
  simp only [e, List.map_cons, List.map_nil, radix, ofNat_and31, Nat.shiftRight_eq_div_pow,
    List.length_cons, List.length_nil]
  norm_num
  have h1 : P / 1024 = P / 32 / 32 := by omega
  have h2 : P / 32768 = P / 32 / 32 / 32 := by omega
  have h3 : P / 1048576 = P / 32 / 32 / 32 / 32 := by omega
  have h4 : P / 33554432 = P / 32 / 32 / 32 / 32 / 32 := by omega
  have h5 : P / 1073741824 = P / 32 / 32 / 32 / 32 / 32 / 32 := by omega
  have h6 : P / 34359738368 = P / 32 / 32 / 32 / 32 / 32 / 32 / 32 := by omega
  rw [h1, h2, h3, h4, h5, h6]
  omega

theorem polymod_checksum (x chk : Bytes) (hl : chk.length = 8) (hc : ∀ d ∈ chk, d.toNat < 2 ^ 5) :
    polymod (x ++ chk) = polymod (x ++ zeros 8) ^^^ radix 5 chk := by
  have h := run_window (run_lt (show 1 < 2 ^ 40 by norm_num) x) chk (zeros 8) hc
    (by intro d hd; rw [List.eq_of_mem_replicate hd]; decide) (by simp [hl, zeros]) (by omega)
  have e : List.zipWith (· ^^^ ·) chk (zeros 8) = chk := by
    apply List.ext_getElem
    · simp [hl, zeros]
    · intro i h1 h2
      rw [List.getElem_zipWith]
      simp only [zeros, List.getElem_replicate]
      exact UInt8.xor_zero
  rw [e] at h
  rw [polymod_eq, polymod_eq, run_append, run_append, ← h]
  simp only [Nat.xor_assoc, Nat.xor_left_comm, Nat.xor_self, Nat.xor_zero]

/-- The checksum is the only one. -/
theorem polymod_zero_iff (pre : Str) (data chk : Bytes) (hl : chk.length = 8)
    (hc : ∀ d ∈ chk, d.toNat < 2 ^ 5) :
    polymod (prefix_expand pre ++ (data ++ chk)) = 0 ↔ chk = create_checksum pre data := by
  rw [← List.append_assoc, polymod_checksum _ chk hl hc, Nat.xor_eq_zero_iff,
    ← create_checksum_radix]
  constructor
  · intro h
    exact (radix_inj 5 _ _ (create_checksum_lt pre data) hc
      (by rw [create_checksum_length, hl]) h).symm
  · rintro rfl; rfl

end cashaddr

end Bitcoinx
