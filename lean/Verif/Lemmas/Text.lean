import Verif.Lemmas.Misc
import Verif.Lemmas.Packing
import Verif.Model.Base58
import Verif.Spec.Text
import Mathlib.Data.Nat.Digits.Lemmas

namespace Bitcoinx
open Spec

theorem takeWhile_beq {α : Type} [DecidableEq α] (x : α) (l : List α) :
    l.takeWhile (· == x) = List.replicate (leading x l) x := by
  induction l with
  | nil => rfl
  | cons y ys ih =>
    simp only [List.takeWhile_cons, leading, beq_iff_eq]
    split
    · next h => subst h; simp [ih, List.replicate_succ]
    · rfl

theorem eq_leading_append {α : Type} [DecidableEq α] (x : α) (l : List α) :
    ∃ l', l = List.replicate (leading x l) x ++ l' ∧ leading x l' = 0 := by
  induction l with
  | nil => exact ⟨[], rfl, rfl⟩
  | cons y ys ih =>
    by_cases h : y = x
    · subst h
      obtain ⟨l', h1, h2⟩ := ih
      refine ⟨l', ?_, h2⟩
      simp only [leading, if_true, List.replicate_succ, List.cons_append]
      rw [← h1]
    · exact ⟨y :: ys, by simp [leading, h], by simp [leading, h]⟩

theorem leading_replicate_append {α : Type} [DecidableEq α] (x : α) (n : Nat) (l : List α)
    (h : leading x l = 0) : leading x (List.replicate n x ++ l) = n := by
  induction n with
  | zero => simpa using h
  | succ n ih => simp [List.replicate_succ, leading, ih]

theorem leading_zero_iff {α : Type} [DecidableEq α] (x : α) (l : List α) :
    leading x l = 0 ↔ l.head? ≠ some x := by
  cases l with
  | nil => simp [leading]
  | cons y ys => simp [leading]

theorem beValue_zeros_append (n : Nat) (b : Bytes) :
    beValue (List.replicate n 0 ++ b) = beValue b := by
  induction n with
  | zero => simp
  | succ n ih => simp [List.replicate_succ, beValue, ih]

/-- The default-size big-endian form is the given bytes when they have no leading zero. -/
theorem beBytes_byteSize (b : Bytes) (h : leading 0 b = 0) :
    beBytes (byteSize (beValue b)) (beValue b) = b := by
  have hlen : byteSize (beValue b) = b.length := by
    apply le_antisymm
    · rw [byteSize_le]; simpa using beValue_lt b
    · cases b with
      | nil => simp
      | cons x xs =>
        by_contra hc
        have h1 : byteSize (beValue (x :: xs)) ≤ xs.length := by simp at hc; omega
        rw [byteSize_le] at h1
        simp only [beValue, Int.natAbs_natCast] at h1
        have hx : x ≠ 0 := by
          intro hx; simp [leading, hx] at h
        have hx' : 1 ≤ x.toNat := by
          rcases Nat.eq_zero_or_pos x.toNat with h0 | h0
          · exact absurd (UInt8.toNat_inj.1 (by simpa using h0)) hx
          · exact h0
        have : 256 ^ xs.length ≤ x.toNat * 256 ^ xs.length := Nat.le_mul_of_pos_left _ hx'
        omega
  rw [hlen, beBytes_beValue]

theorem int_to_be_bytes_default (n : Nat) : int_to_be_bytes (n : Int) = .ok (beBytes (byteSize n) n) := by
  have hlt : n < 256 ^ byteSize n := by simpa using lt_byteSize (n : Int)
  simp [int_to_be_bytes, hlt, (by omega : ¬ ((n : Int) < 0))]

/-! ### The base-58 alphabet -/

/-- Digit value, total. -/
def b58idx (c : Char) : Nat := base58_chars.idxOf c
/-- Digit character, total. -/
def b58ch (d : Nat) : Char := base58_chars.getD d '1'

theorem b58_nodup : base58_chars.Nodup := by decide
theorem b58_length : base58_chars.length = 58 := by decide

theorem b58idx_lt {c : Char} (h : c ∈ base58_chars) : b58idx c < 58 := by
  have := List.idxOf_lt_length_of_mem h
  rwa [b58_length] at this

theorem b58ch_idx {c : Char} (h : c ∈ base58_chars) : b58ch (b58idx c) = c := by
  have hl := List.idxOf_lt_length_of_mem h
  unfold b58ch b58idx
  simp [List.getD_eq_getElem?_getD, List.getElem?_eq_getElem hl]

theorem b58idx_ch {d : Nat} (h : d < 58) : b58idx (b58ch d) = d := by
  have hl : d < base58_chars.length := by rwa [b58_length]
  unfold b58ch b58idx
  simp only [List.getD_eq_getElem?_getD, List.getElem?_eq_getElem hl, Option.getD_some]
  exact b58_nodup.idxOf_getElem d hl

theorem b58ch_mem {d : Nat} (h : d < 58) : b58ch d ∈ base58_chars := by
  have hl : d < base58_chars.length := by rwa [b58_length]
  unfold b58ch
  simp only [List.getD_eq_getElem?_getD, List.getElem?_eq_getElem hl, Option.getD_some]
  exact List.getElem_mem _

theorem base58_cmap_of_mem {c : Char} (h : c ∈ base58_chars) : base58_cmap c = some (b58idx c) := by
  unfold base58_cmap b58idx
  simp only [List.idxOf?, List.findIdx?_eq_some_iff_getElem]
  have hl := List.idxOf_lt_length_of_mem h
  refine ⟨hl, by simp [List.getElem_idxOf], ?_⟩
  intro j hj hc
  have := b58_nodup.idxOf_getElem j (by omega)
  rw [eq_of_beq hc] at this
  omega

theorem base58_cmap_of_not_mem {c : Char} (h : c ∉ base58_chars) : base58_cmap c = none := by
  unfold base58_cmap
  rwa [List.idxOf?_eq_none_iff]

theorem base58Accumulate_ok (v : Nat) (t : Str) (h : ∀ c ∈ t, c ∈ base58_chars) :
    base58Accumulate v t = .ok (v * 58 ^ t.length + Nat.ofDigits 58 (t.map b58idx).reverse) := by
  induction t generalizing v with
  | nil => simp [base58Accumulate]
  | cons c cs ih =>
    simp only [base58Accumulate, base58_cmap_of_mem (h c (by simp))]
    rw [ih _ (fun d hd => h d (by simp [hd]))]
    congr 1
    simp only [List.map_cons, List.reverse_cons, Nat.ofDigits_append, List.length_reverse,
      List.length_map, List.length_cons, Nat.ofDigits_singleton, pow_succ]
    ring

theorem base58Accumulate_err (v : Nat) (t : Str) (h : ¬ ∀ c ∈ t, c ∈ base58_chars) :
    base58Accumulate v t = .error .base58Error := by
  induction t generalizing v with
  | nil => simp at h
  | cons c cs ih =>
    by_cases hc : c ∈ base58_chars
    · simp only [base58Accumulate, base58_cmap_of_mem hc]
      apply ih
      intro hh
      exact h (by simp only [List.mem_cons, forall_eq_or_imp]; exact ⟨hc, hh⟩)
    · simp only [base58Accumulate, base58_cmap_of_not_mem hc]

theorem base58Loop_eq (v : Nat) (t : Str) : base58Loop v t = t ++ (Nat.digits 58 v).map b58ch := by
  induction v using Nat.strong_induction_on generalizing t with
  | _ v ih =>
    rw [base58Loop]
    split
    · next h => subst h; simp
    · next h =>
      rw [ih (v / 58) (by omega), Nat.digits_def' (by norm_num : 1 < 58) (Nat.pos_of_ne_zero h)]
      simp [b58ch]

theorem base58_encode_eq (b : Bytes) : base58_encode b =
    List.replicate (leading 0 b) '1' ++ ((Nat.digits 58 (beValue b)).map b58ch).reverse := by
  simp [base58_encode, base58Loop_eq, takeWhile_beq, be_bytes_to_int_eq]

/-- The number a base-58 text denotes. -/
def b58val (t : Str) : Nat := Nat.ofDigits 58 (t.map b58idx).reverse

theorem base58_decode_ok (t : Str) (hne : t ≠ []) (h : ∀ c ∈ t, c ∈ base58_chars) :
    base58_decode t = .ok (List.replicate (leading '1' t) 0 ++
      beBytes (byteSize (b58val t)) (b58val t)) := by
  have : t.isEmpty = false := by cases t <;> simp_all
  simp only [base58_decode, this, Bool.false_eq_true, if_false, base58Accumulate_ok 0 t h, ok_bind',
    int_to_be_bytes_default, takeWhile_beq]
  simp [zeros, b58val]

theorem b58idx_one : b58idx '1' = 0 := by decide

theorem ofDigits_replicate_zero_append (L : List Nat) (n : Nat) :
    Nat.ofDigits 58 (L ++ List.replicate n 0) = Nat.ofDigits 58 L := by
  rw [Nat.ofDigits_append]
  have : Nat.ofDigits 58 (List.replicate n 0) = 0 := by
    induction n with
    | zero => simp
    | succ n ih => simp [List.replicate_succ, Nat.ofDigits_cons, ih]
  simp [this]

theorem map_idx_ch_digits (v : Nat) :
    ((Nat.digits 58 v).map b58ch).map b58idx = Nat.digits 58 v := by
  rw [List.map_map]
  conv_rhs => rw [← List.map_id (Nat.digits 58 v)]
  apply List.map_congr_left
  intro d hd
  simp [b58idx_ch (Nat.digits_lt_base (by norm_num) hd)]

theorem digits_text_mem (v : Nat) : ∀ c ∈ ((Nat.digits 58 v).map b58ch).reverse, c ∈ base58_chars := by
  intro c hc
  simp only [List.mem_reverse, List.mem_map] at hc
  obtain ⟨d, hd, rfl⟩ := hc
  exact b58ch_mem (Nat.digits_lt_base (by norm_num) hd)

theorem leading_digits_text (v : Nat) : leading '1' ((Nat.digits 58 v).map b58ch).reverse = 0 := by
  rw [leading_zero_iff]
  intro hc
  rw [List.head?_reverse, List.getLast?_map] at hc
  by_cases hv : v = 0
  · subst hv; simp at hc
  · have hne : Nat.digits 58 v ≠ [] := Nat.digits_ne_nil_iff_ne_zero.2 hv
    rw [List.getLast?_eq_getLast_of_ne_nil hne] at hc
    simp only [Option.map_some, Option.some.injEq] at hc
    have h1 := Nat.getLast_digit_ne_zero 58 hv
    have h2 := Nat.digits_lt_base (b := 58) (by norm_num) (List.getLast_mem hne)
    have h3 := b58idx_ch h2
    rw [hc, b58idx_one] at h3
    exact h1 h3.symm

theorem base58_decode_encode (b : Bytes) (hne : b ≠ []) : base58_decode (base58_encode b) = .ok b := by
  obtain ⟨b', hb, hb'⟩ := eq_leading_append 0 b
  have hval : beValue b = beValue b' := by rw [hb, beValue_zeros_append]
  have henc := base58_encode_eq b
  have hne' : base58_encode b ≠ [] := by
    rw [henc]
    intro h
    simp only [List.append_eq_nil_iff, List.replicate_eq_nil_iff, List.reverse_eq_nil_iff,
      List.map_eq_nil_iff, Nat.digits_eq_nil_iff_eq_zero] at h
    obtain ⟨h1, h2⟩ := h
    rw [h1] at hb
    have := beBytes_byteSize b' hb'
    rw [← hval, h2] at this
    simp [byteSize, bitLength, beBytes, leBytes] at this
    subst this
    exact hne (by simpa using hb)
  have hmem : ∀ c ∈ base58_encode b, c ∈ base58_chars := by
    rw [henc]
    intro c hc
    rcases List.mem_append.1 hc with hc | hc
    · rw [List.eq_of_mem_replicate hc]; decide
    · exact digits_text_mem _ c hc
  rw [base58_decode_ok _ hne' hmem]
  have hl : leading '1' (base58_encode b) = leading 0 b := by
    rw [henc, leading_replicate_append _ _ _ (leading_digits_text _)]
  have hd : b58val (base58_encode b) = beValue b := by
    rw [b58val, henc, List.map_append, List.map_replicate, b58idx_one, List.map_reverse, map_idx_ch_digits,
      List.reverse_append, List.reverse_reverse, List.reverse_replicate,
      ofDigits_replicate_zero_append, Nat.ofDigits_digits]
  rw [hl, hd, hval, beBytes_byteSize b' hb']
  exact congrArg _ hb.symm

theorem base58_encode_decode (t : Str) (b : Bytes) (h : base58_decode t = .ok b) :
    base58_encode b = t ∧ t ≠ [] ∧ ∀ c ∈ t, c ∈ base58_chars := by
  by_cases hne : t = []
  · subst hne; simp [base58_decode] at h
  by_cases hmem : ∀ c ∈ t, c ∈ base58_chars
  · refine ⟨?_, hne, hmem⟩
    rw [base58_decode_ok t hne hmem] at h
    simp only [Except.ok.injEq] at h
    obtain ⟨t', ht, ht'⟩ := eq_leading_append '1' t
    have hmem' : ∀ c ∈ t', c ∈ base58_chars := fun c hc => hmem c (by rw [ht]; simp [hc])
    generalize hv : b58val t = v at h
    have hv' : Nat.ofDigits 58 (t'.map b58idx).reverse = v := by
      rw [← hv, b58val]
      conv_rhs => rw [ht]
      rw [List.map_append, List.map_replicate, b58idx_one, List.reverse_append,
        List.reverse_replicate, ofDigits_replicate_zero_append]
    have hdig : Nat.digits 58 v = (t'.map b58idx).reverse := by
      rw [← hv']
      apply Nat.digits_ofDigits 58 (by norm_num)
      · intro d hd
        simp only [List.mem_reverse, List.mem_map] at hd
        obtain ⟨c, hc, rfl⟩ := hd
        exact b58idx_lt (hmem' c hc)
      · intro hne2 h0
        rw [List.getLast_reverse] at h0
        cases t' with
        | nil => simp at hne2
        | cons c cs =>
          simp only [List.map_cons, List.head_cons] at h0
          have hc := b58ch_idx (hmem' c (by simp))
          rw [h0] at hc
          rw [leading_zero_iff] at ht'
          apply ht'
          simp only [List.head?_cons, Option.some.injEq]
          rw [← hc]; decide
    have hlt : v < 256 ^ byteSize v := by simpa using lt_byteSize (v : Int)
    have hbv : beValue b = v := by
      rw [← h, beValue_zeros_append, beValue_beBytes _ _ hlt]
    have hlead : leading 0 (beBytes (byteSize v) v) = 0 := by
      rw [leading_zero_iff]
      intro hc
      generalize hB : beBytes (byteSize v) v = B at hc
      cases B with
      | nil => simp at hc
      | cons x xs =>
        simp only [List.head?_cons, Option.some.injEq] at hc
        subst hc
        have h1 := beValue_beBytes _ _ hlt
        rw [hB] at h1
        have h2 : byteSize v ≤ xs.length := by
          rw [byteSize_le]
          simp [beValue] at h1
          have := beValue_lt xs
          rw [h1] at this
          simpa using this
        have h3 := beBytes_length (byteSize v) v
        rw [hB] at h3
        simp at h3; omega
    have hl0 : leading 0 b = leading '1' t := by
      rw [← h, leading_replicate_append _ _ _ hlead]
    rw [base58_encode_eq, hbv, hl0, hdig, ← List.map_reverse, List.reverse_reverse, List.map_map]
    have : t'.map (b58ch ∘ b58idx) = t' := by
      conv_rhs => rw [← List.map_id t']
      apply List.map_congr_left
      intro c hc
      simp [b58ch_idx (hmem' c hc)]
    rw [this]; exact ht.symm
  · have : t.isEmpty = false := by cases t <;> simp_all
    simp [base58_decode, this, base58Accumulate_err 0 t hmem] at h

end Bitcoinx
