import Verif.Spec.Json
import Verif.Lemmas.Asm
import Mathlib.Order.Monotone.Basic

/-! # The calendar, digits and commas -/

namespace Bitcoinx

open Spec

/-! ## Dates -/

theorem isLeap_iff (y : Nat) : isLeap y = true ↔ LeapYear y := by
  simp only [isLeap, LeapYear, Bool.and_eq_true, Bool.or_eq_true, beq_iff_eq, bne_iff_ne]
  omega

theorem lastDay_bounds (y m : Nat) : 28 ≤ lastDay y m ∧ lastDay y m ≤ 31 := by
  unfold lastDay
  split
  · split <;> omega
  · split <;> omega

theorem monthLengths_get (y m : Nat) (h : m < 12) :
    (monthLengths (isLeap y))[m]? = some (lastDay y (m + 1)) := by
  have hl : (if isLeap y = true then 29 else 28) = if LeapYear y then 29 else 28 := by
    by_cases hy : LeapYear y
    · rw [if_pos hy, if_pos ((isLeap_iff y).2 hy)]
    · rw [if_neg hy, if_neg (fun h => hy ((isLeap_iff y).1 h))]
  interval_cases m <;> simp [monthLengths, lastDay, hl]

theorem next_days (y m : Nat) (k : Nat) (h : k < lastDay y m) : Date.next^[k] ⟨y, m, 1⟩ = ⟨y, m, k + 1⟩ := by
  induction k with
  | zero => rfl
  | succ k ih =>
    rw [Function.iterate_succ_apply', ih (by omega)]
    simp only [Date.next]
    rw [if_pos (by omega)]

theorem next_month (y m : Nat) (h : m < 12) : Date.next^[lastDay y m] ⟨y, m, 1⟩ = ⟨y, m + 1, 1⟩ := by
  have hb := (lastDay_bounds y m).1
  obtain ⟨k, hk⟩ : ∃ k, lastDay y m = k + 1 := ⟨lastDay y m - 1, by omega⟩
  rw [hk, Function.iterate_succ_apply', next_days y m k (by omega)]
  simp only [Date.next]
  rw [if_neg (by omega), if_pos h]

theorem next_december (y : Nat) : Date.next^[lastDay y 12] ⟨y, 12, 1⟩ = ⟨y + 1, 1, 1⟩ := by
  have hk : lastDay y 12 = 30 + 1 := by simp [lastDay]
  rw [hk, Function.iterate_succ_apply', next_days y 12 30 (by omega)]
  simp only [Date.next, lastDay]
  simp

/-- Walking over the months. -/
theorem monthLoop_eq (y : Nat) (ls : List Nat) (m days : Nat)
    (hls : ∀ i < ls.length, ls[i]? = some (lastDay y (m + i))) (hm : m + ls.length = 13) (h1 : days < ls.sum) :
    Date.next^[days] ⟨y, m, 1⟩ = ⟨y, (monthLoop m ls days).1, (monthLoop m ls days).2 + 1⟩ := by
  induction ls generalizing m days with
  | nil => simp at h1
  | cons n rest ih =>
    have hn : n = lastDay y m := by simpa using hls 0 (by simp)
    unfold monthLoop
    by_cases hd : days < n
    · rw [if_pos hd]
      exact next_days y m days (by omega)
    · rw [if_neg hd]
      simp only [List.sum_cons] at h1
      have hne : rest ≠ [] := by rintro rfl; simp at h1; omega
      have hl : 0 < rest.length := List.length_pos_iff.2 hne
      simp only [List.length_cons] at hm
      rw [← ih (m + 1) (days - n) (fun i hi => by
        have := hls (i + 1) (by simp; omega)
        rw [List.getElem?_cons_succ] at this
        rw [this]; congr 2; omega) (by omega) (by omega)]
      rw [← next_month y m (by omega), ← hn, ← Function.iterate_add_apply]
      congr 1
      omega

theorem monthLengths_sum (y : Nat) : (monthLengths (isLeap y)).sum = if isLeap y then 366 else 365 := by
  unfold monthLengths
  split <;> rfl

theorem months_eq (y days : Nat) (h : days < if isLeap y then 366 else 365) :
    Date.next^[days] ⟨y, 1, 1⟩ = ⟨y, (monthLoop 1 (monthLengths (isLeap y)) days).1,
      (monthLoop 1 (monthLengths (isLeap y)) days).2 + 1⟩ := by
  refine monthLoop_eq y _ 1 days (fun i hi => ?_) rfl (by rw [monthLengths_sum]; exact h)
  rw [monthLengths_get y i hi, Nat.add_comm]

theorem next_year (y : Nat) : Date.next^[if isLeap y then 366 else 365] ⟨y, 1, 1⟩ = ⟨y + 1, 1, 1⟩ := by
  have e : (if isLeap y then 366 else 365) = lastDay y 12 + (lastDay y 11 + (lastDay y 10 + (lastDay y 9 +
      (lastDay y 8 + (lastDay y 7 + (lastDay y 6 + (lastDay y 5 + (lastDay y 4 + (lastDay y 3 + (lastDay y 2 +
      lastDay y 1)))))))))) := by
    by_cases h : isLeap y = true
    · have h' := (isLeap_iff y).1 h
      rw [if_pos h]
      simp [lastDay, h']
    · have h' : ¬ LeapYear y := fun a => h ((isLeap_iff y).2 a)
      rw [if_neg h]
      simp [lastDay, h']
  rw [e]
  simp only [Function.iterate_add_apply]
  rw [next_month y 1 (by omega), next_month y 2 (by omega), next_month y 3 (by omega), next_month y 4 (by omega),
    next_month y 5 (by omega), next_month y 6 (by omega), next_month y 7 (by omega), next_month y 8 (by omega),
    next_month y 9 (by omega), next_month y 10 (by omega), next_month y 11 (by omega), next_december]

/-- Walking over the years. -/
theorem yearLoop_eq (fuel y days : Nat) (h : days ≤ fuel) :
    (yearLoop fuel y days).2 < (if isLeap (yearLoop fuel y days).1 then 366 else 365) ∧
    Date.next^[days] ⟨y, 1, 1⟩ = Date.next^[(yearLoop fuel y days).2] ⟨(yearLoop fuel y days).1, 1, 1⟩ := by
  induction fuel generalizing y days with
  | zero =>
    obtain rfl : days = 0 := by omega
    refine ⟨?_, rfl⟩
    simp only [yearLoop]
    by_cases hy : isLeap y = true <;> simp [hy]
  | succ fuel ih =>
    unfold yearLoop
    simp only
    by_cases hd : days < if isLeap y then 366 else 365
    · rw [if_pos hd]
      exact ⟨hd, rfl⟩
    · rw [if_neg hd]
      have hpos : 365 ≤ if isLeap y then 366 else 365 := by split <;> omega
      obtain ⟨h1, h2⟩ := ih (y + 1) (days - if isLeap y then 366 else 365) (by omega)
      refine ⟨h1, ?_⟩
      rw [← h2, ← next_year y, ← Function.iterate_add_apply]
      congr 1
      omega

/-- The calendar computation gives the date. -/
theorem dateOf_eq (days : Nat) :
    let (year, yday) := yearLoop days 1970 days
    let (month, mday) := monthLoop 1 (monthLengths (isLeap year)) yday
    dateOf days = ⟨year, month, mday + 1⟩ := by
  obtain ⟨h1, h2⟩ := yearLoop_eq days 1970 days le_rfl
  simp only
  rw [dateOf, h2, months_eq _ _ h1]

/-- Dates that exist. -/
def DateOk (d : Date) : Prop := 1 ≤ d.month ∧ d.month ≤ 12 ∧ 1 ≤ d.day ∧ d.day ≤ lastDay d.year d.month

theorem DateOk.next {d : Date} (h : DateOk d) : DateOk d.next := by
  obtain ⟨h1, h2, h3, h4⟩ := h
  unfold Date.next
  have b := lastDay_bounds
  split
  · exact ⟨h1, h2, by simp, by simp only; omega⟩
  · split
    · exact ⟨by simp, by simp only; omega, by simp, (by norm_num : 1 ≤ 28).trans (b _ _).1⟩
    · exact ⟨by simp, by simp, by simp, (by norm_num : 1 ≤ 28).trans (b _ _).1⟩

theorem dateOf_ok (n : Nat) : DateOk (dateOf n) := by
  induction n with
  | zero => exact ⟨by decide, by decide, by decide, by decide⟩
  | succ n ih => rw [dateOf, Function.iterate_succ_apply']; exact ih.next

/-- A number that grows with the date. -/
def dateRank (d : Date) : Nat := (d.year * 13 + d.month) * 32 + d.day

theorem dateRank_next {d : Date} (h : DateOk d) : dateRank d < dateRank d.next := by
  obtain ⟨h1, h2, h3, h4⟩ := h
  have b := (lastDay_bounds d.year d.month).2
  unfold Date.next dateRank
  split
  · simp only; omega
  · split
    · simp only; omega
    · simp only; omega

theorem dateRank_mono : StrictMono (fun n => dateRank (dateOf n)) :=
  strictMono_nat_of_lt_succ (fun n => by
    simp only [dateOf, Function.iterate_succ_apply']
    exact dateRank_next (dateOf_ok n))

theorem dateOf_inj {a b : Nat} (h : dateOf a = dateOf b) : a = b :=
  dateRank_mono.injective (congrArg dateRank h)

theorem year_mono {a b : Nat} (h : a ≤ b) : (dateOf a).year ≤ (dateOf b).year := by
  induction b, h using Nat.le_induction with
  | base => exact le_rfl
  | succ b _ ih =>
    refine ih.trans ?_
    rw [dateOf, dateOf, Function.iterate_succ_apply']
    generalize Date.next^[b] _ = d
    unfold Date.next
    split
    · exact le_rfl
    · split
      · exact le_rfl
      · simp

theorem dateOf_year (n : Nat) : (dateOf n).year = (yearLoop n 1970 n).1 := by
  have := dateOf_eq n
  simp only at this
  rw [this]

theorem year_9999 : (yearLoop 2932896 1970 2932896).1 = 9999 := by decide +kernel

theorem year_lt {t : Nat} (h : t < 253402300800) : (dateOf (t / 86400)).year < 10000 := by
  have h1 : t / 86400 ≤ 2932896 := by omega
  have h2 := year_mono h1
  rw [dateOf_year 2932896, year_9999] at h2
  omega

/-! ## Digits -/

theorem digitChar_get (n : Nat) (h : n < 10) : Nat.digitChar n = "0123456789".toList.getD n '?' := by
  interval_cases n <;> rfl

theorem fixed_length (w n : Nat) : (fixed w n).length = w := by
  induction w generalizing n with
  | zero => rfl
  | succ w ih => rw [fixed, List.length_append, ih]; rfl

theorem zeroPad_fixed (w n : Nat) (h : n < 10 ^ (w + 1)) : zeroPad (w + 1) n = fixed (w + 1) n := by
  unfold zeroPad strNat
  induction w generalizing n with
  | zero =>
    have : n < 10 := by simpa using h
    rw [Nat.toDigits_eq_if (by norm_num), if_pos this, fixed, fixed, Nat.mod_eq_of_lt this, digitChar_get n this]
    simp
  | succ w ih =>
    rw [Nat.toDigits_eq_if (by norm_num)]
    by_cases hn : n < 10
    · have hz := ih 0 (by positivity)
      rw [if_pos hn, fixed, Nat.div_eq_of_lt hn, ← hz, Nat.mod_eq_of_lt hn, digitChar_get n hn]
      rw [Nat.toDigits_eq_if (b := 10) (n := 0) (by norm_num), if_pos (by norm_num)]
      simp [List.replicate_succ', show Nat.digitChar 0 = '0' from rfl]
    · have hz := ih (n / 10) (by rw [Nat.div_lt_iff_lt_mul (by norm_num)]; rw [pow_succ] at h; omega)
      rw [if_neg hn, fixed, ← hz, digitChar_get _ (Nat.mod_lt _ (by norm_num))]
      simp

theorem digit_inj {a b : Nat} (ha : a < 10) (hb : b < 10)
    (h : "0123456789".toList.getD a '?' = "0123456789".toList.getD b '?') : a = b := by
  interval_cases a <;> interval_cases b <;> first | rfl | (exact absurd h (by decide))

theorem fixed_inj {w a b : Nat} (ha : a < 10 ^ w) (hb : b < 10 ^ w) (h : fixed w a = fixed w b) : a = b := by
  induction w generalizing a b with
  | zero => simp at ha hb; omega
  | succ w ih =>
    rw [fixed, fixed] at h
    obtain ⟨h1, h2⟩ := List.append_inj h (by rw [fixed_length, fixed_length])
    rw [pow_succ] at ha hb
    have e1 := ih (a := a / 10) (b := b / 10) (by omega) (by omega) h1
    have e2 := digit_inj (Nat.mod_lt a (by norm_num)) (Nat.mod_lt b (by norm_num)) (List.singleton_inj.1 h2)
    omega

/-! ## Commas -/

theorem groupLoop_filter (ds : Str) (h : ',' ∉ ds) : (groupLoop ds).filter (· ≠ ',') = ds := by
  fun_induction groupLoop ds with
  | case1 a b c d rest ih =>
    simp only [List.mem_cons, not_or] at h ih
    obtain ⟨ha, hb, hc, hd, hr⟩ := h
    have := ih ⟨hd, hr⟩
    simp only [ne_eq, decide_not] at this
    simp [Ne.symm ha, Ne.symm hb, Ne.symm hc, this]
  | case2 ds _ =>
    rw [List.filter_eq_self]
    intro x hx
    have : x ≠ ',' := by rintro rfl; exact h hx
    simpa using this

theorem groupLoop_get (ds : Str) (h : ',' ∉ ds) (i : Nat) (hi : i < (groupLoop ds).length) :
    (groupLoop ds)[i] = ',' ↔ i % 4 = 3 := by
  fun_induction groupLoop ds generalizing i with
  | case1 a b c d rest ih =>
    simp only [List.mem_cons, not_or] at h
    obtain ⟨ha, hb, hc, hd, hr⟩ := h
    match i, hi with
    | 0, _ => simpa using Ne.symm ha
    | 1, _ => simpa using Ne.symm hb
    | 2, _ => simpa using Ne.symm hc
    | 3, _ => simp
    | i + 4, hi =>
      have := ih (by simp [hd, hr]) i (by simpa using hi)
      simp only [List.getElem_cons_succ, this]
      omega
  | case2 ds hds =>
    have hl : ds.length ≤ 3 := by
      rcases ds with _ | ⟨a, _ | ⟨b, _ | ⟨c, _ | ⟨d, r⟩⟩⟩⟩
      all_goals first | exact absurd rfl (hds a b c d r) | simp
    constructor
    · intro he
      exact absurd (he ▸ List.getElem_mem hi) h
    · intro he
      omega

theorem groupLoop_last (ds : Str) (h : ',' ∉ ds) : (groupLoop ds).getLast? ≠ some ',' := by
  fun_induction groupLoop ds with
  | case1 a b c d rest ih =>
    have h' : ',' ∉ d :: rest := fun hm => h (by simp only [List.mem_cons] at hm ⊢; tauto)
    have := ih h'
    have hne : groupLoop (d :: rest) ≠ [] := by
      unfold groupLoop
      split <;> simp
    rw [List.getLast?_cons_cons, List.getLast?_cons_cons, List.getLast?_cons_cons]
    rcases hg : groupLoop (d :: rest) with _ | ⟨x, xs⟩
    · exact absurd hg hne
    · rw [List.getLast?_cons_cons, ← hg]
      exact this
  | case2 ds _ =>
    intro he
    exact h (List.mem_of_getLast? he)

theorem comma_not_digit (n : Nat) : ',' ∉ strNat n := by
  intro h
  exact absurd (Nat.isDigit_of_mem_toDigits (by norm_num) (by norm_num) h) (by decide)

theorem formatCommas_spec (n : Nat) : WithCommas n (formatCommas n) := by
  have hc : ',' ∉ (strNat n).reverse := by simpa using comma_not_digit n
  have e : formatCommas (n : Int) = (groupLoop (strNat n).reverse).reverse := by
    simp [formatCommas]
  rw [e]
  refine ⟨?_, ?_, fun i hi => ?_⟩
  · rw [List.filter_reverse, groupLoop_filter _ hc, List.reverse_reverse]
  · rw [List.head?_reverse]
    exact groupLoop_last _ hc
  · rw [List.length_reverse] at hi ⊢
    rw [List.getElem_reverse, groupLoop_get _ hc]

end Bitcoinx
