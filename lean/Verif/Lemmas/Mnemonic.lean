import Verif.Spec.Mnemonic
import Verif.Lemmas.Asm
import Verif.Lemmas.Misc
import Verif.Props.Classify
import Mathlib.Data.Nat.Digits.Lemmas
import Mathlib.Data.Nat.Bitwise

/-! # Words, bits and digits -/

namespace Bitcoinx
open Spec

/-! ## Words -/

theorem isspace_space (P : PyText) : P.isspace ' ' = true := by rw [P.isspace_ascii _ (by decide)]; decide

theorem split_join' (P : PyText) (words : List Str) (h : ∀ w ∈ words, w ≠ [] ∧ ∀ c ∈ w, P.isspace c = false) :
    P.split (joinStr [' '] words) = words := by
  unfold PyText.split
  induction words with
  | nil => rfl
  | cons x rest ih =>
    obtain ⟨hx, hns⟩ := h x (by simp)
    cases rest with
    | nil =>
      have := splitLoop_word P x [] [] hns
      simp only [List.append_nil, List.nil_append] at this
      rw [joinStr, this, PyText.splitLoop, if_neg hx]
    | cons y rest =>
      rw [joinStr, List.append_assoc, splitLoop_word P x [] _ hns, List.nil_append,
        List.cons_append, List.nil_append, PyText.splitLoop]
      simp only [isspace_space P, if_true, hx, if_false]
      rw [ih (fun w hw => h w (by simp [hw]))]

/-- The words of a text are not empty and have no white space. -/
theorem split_words (P : PyText) (text : Str) : ∀ w ∈ P.split text, w ≠ [] ∧ ∀ c ∈ w, P.isspace c = false := by
  have : ∀ (text acc : Str), (∀ c ∈ acc, P.isspace c = false) → ∀ w ∈ P.splitLoop acc text,
      w ≠ [] ∧ ∀ c ∈ w, P.isspace c = false := by
    intro text
    induction text with
    | nil =>
      intro acc ha w hw
      rw [PyText.splitLoop] at hw
      split at hw
      · cases hw
      · next h => cases List.mem_singleton.1 hw; exact ⟨h, ha⟩
    | cons c cs ih =>
      intro acc ha w hw
      rw [PyText.splitLoop] at hw
      split at hw
      · split at hw
        · exact ih [] (by simp) w hw
        · next h =>
          rcases List.mem_cons.1 hw with rfl | hw
          · exact ⟨h, ha⟩
          · exact ih [] (by simp) w hw
      · next h =>
        refine ih _ ?_ w hw
        intro d hd
        rcases List.mem_append.1 hd with hd | hd
        · exact ha d hd
        · cases List.mem_singleton.1 hd
          simpa using h
  exact this text [] (by simp)

/-- A function that treats the parts around a space separately. -/
theorem map_join (f : Str → Str) (h0 : f [] = []) (h : ∀ a b, f (a ++ ' ' :: b) = f a ++ ' ' :: f b) (words : List Str) :
    f (joinStr [' '] words) = joinStr [' '] (words.map f) := by
  induction words with
  | nil => simpa [joinStr] using h0
  | cons x rest ih =>
    cases rest with
    | nil => simp [joinStr]
    | cons y rest =>
      simp only [joinStr, List.map_cons, List.append_assoc, List.cons_append, List.nil_append] at ih ⊢
      rw [h, ih]

theorem nfkd_join (U : PyUni) (words : List Str) : U.nfkd (joinStr [' '] words) = joinStr [' '] (words.map U.nfkd) :=
  map_join _ (U.nfkd_ascii [] (by simp)) U.nfkd_space words

theorem lower_join (U : PyUni) (words : List Str) :
    U.case.lower (joinStr [' '] words) = joinStr [' '] (words.map U.case.lower) :=
  map_join _ (by rw [U.case.lower_ascii [] (by simp)]; rfl) U.lower_space words

/-- Normalizing a mnemonic of normalized words. -/
theorem normalize_words (U : PyUni) (words : List Str) (h : ∀ w ∈ words, Word U w) :
    BIP39Mnemonic.normalize U (joinStr [' '] words) = joinStr [' '] words := by
  have h1 : words.map U.nfkd = words := by
    conv_rhs => rw [← List.map_id words]
    exact List.map_congr_left fun w hw => (h w hw).nfkd
  have h2 : words.map U.case.lower = words := by
    conv_rhs => rw [← List.map_id words]
    exact List.map_congr_left fun w hw => (h w hw).lower
  rw [BIP39Mnemonic.normalize, normalize_text, nfkd_join, h1,
    split_join' _ _ (fun w hw => ⟨(h w hw).ne_nil, (h w hw).no_space⟩), lower_join, h2]

/-- A normalized mnemonic is its words. -/
theorem join_split_normalize (U : PyUni) (mnemonic : Str) :
    joinStr [' '] (U.text.split (BIP39Mnemonic.normalize U mnemonic)) = BIP39Mnemonic.normalize U mnemonic := by
  rw [BIP39Mnemonic.normalize, lower_join, split_join']
  intro w hw
  obtain ⟨v, hv, rfl⟩ := List.mem_map.1 hw
  obtain ⟨h1, h2⟩ := split_words _ _ v hv
  exact U.lower_word v h1 h2

/-! ## Positions -/

theorem listIndex_inv {l : List Str} {w : Str} {i : Nat} (h : listIndex l w = .ok i) : l[i]? = some w := by
  induction l generalizing i with
  | nil => cases h
  | cons x xs ih =>
    rw [listIndex] at h
    split at h
    · next hx => cases h; simp [hx]
    · obtain ⟨j, h1, h2⟩ := bind_eq_ok.mp h
      cases h2
      simpa using ih h1

theorem listIndex_error {l : List Str} {w : Str} : (∃ e, listIndex l w = .error e) ↔ w ∉ l := by
  induction l with
  | nil => simp [listIndex]
  | cons x xs ih =>
    rw [listIndex]
    by_cases hx : x = w
    · subst hx
      simp
    · rw [if_neg hx, List.mem_cons, not_or, ← ih]
      constructor
      · rintro ⟨e, h⟩
        rcases bind_eq_error.mp h with h | ⟨_, _, h⟩
        · exact ⟨fun h => hx h.symm, e, h⟩
        · cases h
      · rintro ⟨_, e, h⟩
        exact ⟨e, by rw [h, error_bind']⟩

theorem listIndex_err {l : List Str} {w : Str} {e : Err} (h : listIndex l w = .error e) : e = .valueError := by
  induction l with
  | nil => cases h; rfl
  | cons x xs ih =>
    rw [listIndex] at h
    split at h
    · cases h
    · rcases bind_eq_error.mp h with h | ⟨_, _, h⟩
      · exact ih h
      · cases h

theorem listIndex_getElem {l : List Str} (hd : l.Nodup) {i : Nat} {w : Str} (h : l[i]? = some w) :
    listIndex l w = .ok i := by
  cases hi : listIndex l w with
  | error e => exact absurd (List.mem_of_getElem? h) (listIndex_error.1 ⟨e, hi⟩)
  | ok j =>
    have hj := listIndex_inv hi
    obtain ⟨h1, h2⟩ := List.getElem?_eq_some_iff.1 h
    obtain ⟨h3, h4⟩ := List.getElem?_eq_some_iff.1 hj
    have : l[i] = l[j] := h2.trans h4.symm
    rw [(List.Nodup.getElem_inj_iff hd).1 this]

theorem listItem_ok {l : List Str} {i : Nat} {w : Str} : listItem l i = .ok w ↔ l[i]? = some w := by
  unfold listItem
  cases l[i]? with
  | none => simp
  | some x => simp

/-! ## Digits -/

theorem partsLoop_length (m n : Nat) : (BIP39Mnemonic.partsLoop m n).length = m := by
  induction m generalizing n with
  | zero => rfl
  | succ m ih => simp [BIP39Mnemonic.partsLoop, ih]

theorem partsLoop_lt (m n : Nat) : ∀ i ∈ BIP39Mnemonic.partsLoop m n, i < 2048 := by
  induction m generalizing n with
  | zero => simp [BIP39Mnemonic.partsLoop]
  | succ m ih =>
    intro i hi
    rcases List.mem_cons.1 hi with rfl | hi
    · exact Nat.mod_lt _ (by norm_num)
    · exact ih _ i hi

theorem ofDigits_partsLoop (m n : Nat) (h : n < 2048 ^ m) : Nat.ofDigits 2048 (BIP39Mnemonic.partsLoop m n) = n := by
  induction m generalizing n with
  | zero => simp at h; simp [BIP39Mnemonic.partsLoop, h]
  | succ m ih =>
    rw [BIP39Mnemonic.partsLoop, Nat.ofDigits_cons, ih]
    · exact Nat.mod_add_div n 2048
    · rw [pow_succ] at h
      exact Nat.div_lt_of_lt_mul (by rwa [mul_comm])

theorem partsLoop_ofDigits (l : List Nat) (h : ∀ i ∈ l, i < 2048) :
    BIP39Mnemonic.partsLoop l.length (Nat.ofDigits 2048 l) = l := by
  induction l with
  | nil => rfl
  | cons x xs ih =>
    have hx := h x (by simp)
    rw [List.length_cons, BIP39Mnemonic.partsLoop, Nat.ofDigits_cons]
    have h1 : (x + 2048 * Nat.ofDigits 2048 xs) % 2048 = x := by
      rw [Nat.add_mul_mod_self_left, Nat.mod_eq_of_lt hx]
    have h2 : (x + 2048 * Nat.ofDigits 2048 xs) / 2048 = Nat.ofDigits 2048 xs := by
      rw [Nat.add_mul_div_left _ _ (by norm_num), Nat.div_eq_of_lt hx, Nat.zero_add]
    rw [h1, h2, ih (fun i hi => h i (by simp [hi]))]

theorem entropyLoop_eq (e mult : Nat) (parts : List Nat) :
    BIP39Mnemonic.entropyLoop e mult parts = e + mult * Nat.ofDigits 2048 parts := by
  induction parts generalizing e mult with
  | nil => simp [BIP39Mnemonic.entropyLoop]
  | cons x xs ih =>
    rw [BIP39Mnemonic.entropyLoop, ih, Nat.ofDigits_cons]
    ring

/-! ## Bits -/

/-- The number with the given bits. -/
def bitsValue : List Bool → Nat
  | [] => 0
  | b :: bs => b.toNat * 2 ^ bs.length + bitsValue bs

theorem bitsValue_append (a b : List Bool) : bitsValue (a ++ b) = bitsValue a * 2 ^ b.length + bitsValue b := by
  induction a with
  | nil => simp [bitsValue]
  | cons x xs ih => simp only [List.cons_append, bitsValue, ih, List.length_append, pow_add]; ring

theorem bitsValue_lt (a : List Bool) : bitsValue a < 2 ^ a.length := by
  induction a with
  | nil => simp [bitsValue]
  | cons x xs ih =>
    simp only [bitsValue, List.length_cons, pow_succ]
    cases x <;> simp <;> omega

theorem bitsValue_inj {a b : List Bool} (hl : a.length = b.length) (h : bitsValue a = bitsValue b) : a = b := by
  induction a generalizing b with
  | nil => cases b with
    | nil => rfl
    | cons y ys => cases hl
  | cons x xs ih => cases b with
    | nil => cases hl
    | cons y ys =>
      simp only [List.length_cons, Nat.add_right_cancel_iff] at hl
      simp only [bitsValue, hl] at h
      have h1 := bitsValue_lt xs
      have h2 := bitsValue_lt ys
      rw [hl] at h1
      have hxy : x = y := by
        cases x <;> cases y <;> simp at h ⊢ <;> omega
      subst hxy
      rw [ih hl (by omega)]

theorem numberBits_length (w n : Nat) : (numberBits w n).length = w := by simp [numberBits]

theorem numberBits_succ (w n : Nat) : numberBits (w + 1) n = n.testBit w :: numberBits w n := by
  rw [numberBits, List.range_succ_eq_map, List.map_cons, List.map_map, numberBits]
  congr 1
  apply List.map_congr_left
  intro k hk
  simp only [Function.comp]
  congr 1
  omega

theorem bitsValue_numberBits (w n : Nat) : bitsValue (numberBits w n) = n % 2 ^ w := by
  induction w with
  | zero => simp [numberBits, bitsValue, Nat.mod_one]
  | succ w ih =>
    rw [numberBits_succ, bitsValue, numberBits_length, ih]
    rw [Nat.testBit_eq_decide_div_mod_eq, Nat.pow_succ, Nat.mod_mul]
    have : n / 2 ^ w % 2 < 2 := Nat.mod_lt _ (by norm_num)
    rcases Nat.lt_succ_iff_lt_or_eq.1 this with h | h
    · have : n / 2 ^ w % 2 = 0 := by omega
      simp [this]
    · simp [h]
      ring

theorem bytesBits_length (b : Bytes) : (bytesBits b).length = 8 * b.length := by
  induction b with
  | nil => rfl
  | cons x xs ih =>
    simp only [bytesBits, List.flatMap_cons, List.length_append, numberBits_length, List.length_cons] at ih ⊢
    omega

theorem bitsValue_bytesBits (b : Bytes) : bitsValue (bytesBits b) = beValue b := by
  induction b with
  | nil => rfl
  | cons x xs ih =>
    have h : bytesBits (x :: xs) = numberBits 8 x.toNat ++ bytesBits xs := by simp [bytesBits]
    rw [h, bitsValue_append, ih, beValue, bitsValue_numberBits, bytesBits_length,
      Nat.mod_eq_of_lt x.toNat_lt, pow_mul]
    norm_num

theorem bitsValue_take (l : List Bool) (k : Nat) (h : k ≤ l.length) :
    bitsValue (l.take k) = bitsValue l / 2 ^ (l.length - k) := by
  conv_rhs => rw [← List.take_append_drop k l, bitsValue_append]
  have h1 := bitsValue_lt (l.drop k)
  rw [List.length_drop] at h1
  rw [List.take_append_drop, List.length_drop, mul_comm, Nat.mul_add_div (by positivity), Nat.div_eq_of_lt h1,
    Nat.add_zero]

theorem flatMap_bits_length (l : List Nat) : (l.flatMap (numberBits 11)).length = 11 * l.length := by
  induction l with
  | nil => rfl
  | cons x xs ih =>
    simp only [List.flatMap_cons, List.length_append, numberBits_length, List.length_cons, ih]
    omega

theorem bitsValue_flatMap (l : List Nat) (h : ∀ i ∈ l, i < 2048) :
    bitsValue (l.flatMap (numberBits 11)) = Nat.ofDigits 2048 l.reverse := by
  induction l with
  | nil => rfl
  | cons x xs ih =>
    rw [List.flatMap_cons, bitsValue_append, ih (fun i hi => h i (by simp [hi])), bitsValue_numberBits,
      Nat.mod_eq_of_lt (show x < 2 ^ 11 from h x (by simp)), List.reverse_cons, Nat.ofDigits_append,
      flatMap_bits_length, List.length_reverse, Nat.ofDigits_singleton, pow_mul]
    norm_num
    ring

end Bitcoinx
