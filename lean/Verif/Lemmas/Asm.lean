import Verif.Lemmas.Script
import Verif.Props.Base58

/-! # Lemmas about ASM text -/

namespace Bitcoinx
open Spec

/-- A word of printable ASCII. -/
def Plain (w : Str) : Prop := w ≠ [] ∧ ∀ c ∈ w, c.toNat < 128 ∧ isAsciiSplit c = false

theorem splitLoop_word (P : PyText) (w : Str) (acc rest : Str)
    (h : ∀ c ∈ w, P.isspace c = false) : P.splitLoop acc (w ++ rest) = P.splitLoop (acc ++ w) rest := by
  induction w generalizing acc with
  | nil => simp
  | cons c cs ih =>
    have hc := h c (by simp)
    rw [List.cons_append, PyText.splitLoop]
    simp only [hc, Bool.false_eq_true, if_false]
    rw [ih _ (fun x hx => h x (by simp [hx]))]
    simp

theorem split_join (P : PyText) (words : List Str) (h : ∀ w ∈ words, Plain w) :
    P.split (joinStr [' '] words) = words := by
  have hsp : P.isspace ' ' = true := by rw [P.isspace_ascii _ (by decide)]; decide
  have hns : ∀ w ∈ words, ∀ c ∈ w, P.isspace c = false := by
    intro w hw c hc
    obtain ⟨h1, h2⟩ := (h w hw).2 c hc
    rw [P.isspace_ascii _ h1, h2]
  unfold PyText.split
  induction words with
  | nil => rfl
  | cons x rest ih =>
    have hx := (h x (by simp)).1
    cases rest with
    | nil =>
      have := splitLoop_word P x [] [] (hns x (by simp))
      simp only [List.append_nil, List.nil_append] at this
      rw [joinStr, this, PyText.splitLoop, if_neg hx]
    | cons y rest =>
      rw [joinStr, List.append_assoc, splitLoop_word P x [] _ (hns x (by simp)), List.nil_append,
        List.cons_append, List.nil_append, PyText.splitLoop]
      simp only [hsp, if_true, hx, if_false]
      rw [ih (fun w hw => h w (by simp [hw])) (fun w hw => hns w (by simp [hw]))]

theorem splitLoop_spaces (P : PyText) (s rest : Str) (h : ∀ c ∈ s, P.isspace c = true) :
    P.splitLoop [] (s ++ rest) = P.splitLoop [] rest := by
  induction s with
  | nil => rfl
  | cons c cs ih =>
    rw [List.cons_append, PyText.splitLoop, if_pos (h c (by simp)), if_pos rfl, ih fun x hx => h x (by simp [hx])]

theorem Spec.Split.cons_space {space : Char → Bool} {t : Str} {ws : List Str} (h : Split space t ws) {c : Char}
    (hc : space c = true) : Split space (c :: t) ws := by
  cases h with
  | blank _ h => exact .blank _ (by simpa [hc] using h)
  | word s w rest ws h1 h2 h3 h4 h5 =>
    exact .word (c :: s) w rest ws (by simpa [hc] using h1) h2 h3 h4 h5

/-- `text.split()` is the words of the text. -/
theorem split_iff (P : PyText) (t : Str) (ws : List Str) : P.split t = ws ↔ Split P.isspace t ws := by
  constructor
  · rintro rfl
    have key : ∀ (t acc : Str), (∀ c ∈ acc, P.isspace c = false) → Split P.isspace (acc ++ t) (P.splitLoop acc t) := by
      intro t
      induction t with
      | nil =>
        intro acc ha
        rw [PyText.splitLoop]
        split
        · next h => subst h; exact .blank _ (by simp)
        · next h => exact .word [] acc [] [] (by simp) h ha (by simp) (.blank _ (by simp))
      | cons c cs ih =>
        intro acc ha
        rw [PyText.splitLoop]
        split
        · next hc =>
          have h1 : Split P.isspace (c :: cs) (P.splitLoop [] cs) := (ih [] (by simp)).cons_space hc
          split
          · next h => subst h; exact h1
          · next h => exact .word [] acc (c :: cs) _ (by simp) h ha (by simpa using hc) h1
        · next hc =>
          have := ih (acc ++ [c]) (by
            intro x hx
            rcases List.mem_append.1 hx with hx | hx
            · exact ha x hx
            · rw [List.mem_singleton.1 hx]; simpa using hc)
          rwa [List.append_assoc, List.singleton_append] at this
    exact key t [] (by simp)
  · intro h
    unfold PyText.split
    induction h with
    | blank t h =>
      have := splitLoop_spaces P t [] h
      rw [List.append_nil] at this
      rw [this, PyText.splitLoop, if_pos rfl]
    | word s w rest ws h1 h2 h3 h4 h5 ih =>
      rw [List.append_assoc, splitLoop_spaces P s _ h1, splitLoop_word P w [] rest h3, List.nil_append]
      cases rest with
      | nil =>
        rw [PyText.splitLoop, if_pos rfl] at ih
        rw [PyText.splitLoop, if_neg h2, ih]
      | cons c cs =>
        have hc := h4 c rfl
        rw [PyText.splitLoop, if_pos hc, if_pos rfl] at ih
        rw [PyText.splitLoop, if_pos hc, if_neg h2, ih]

/-! ## Decimal numbers -/

theorem dec_spec : ∀ c ∈ decAlphabet, isAsciiDigit c = true ∧ c.toNat < 128 ∧
    isAsciiSplit c = false ∧ digitOf decAlphabet c = some (c.toNat - '0'.toNat) := by decide

theorem isAsciiDigit_iff (c : Char) : isAsciiDigit c = true ↔ c ∈ decAlphabet := by
  constructor
  · intro h
    simp only [isAsciiDigit, Bool.and_eq_true, decide_eq_true_eq] at h
    have h1 : '0'.toNat ≤ c.toNat := h.1
    have h2 : c.toNat ≤ '9'.toNat := h.2
    have h3 : '0'.toNat = 48 := rfl
    have h4 : '9'.toNat = 57 := rfl
    have hc : c = Char.ofNat c.toNat := by simp
    have : ∀ n : Fin 10, Char.ofNat (48 + n.1) ∈ decAlphabet := by decide
    have := this ⟨c.toNat - 48, by omega⟩
    simp only at this
    rw [show 48 + (c.toNat - 48) = c.toNat by omega, ← hc] at this
    exact this
  · intro h; exact (dec_spec c h).1

theorem numeral_dec_isSome (w : Str) : (∃ n, numeral decAlphabet w = some n) ↔ Over decAlphabet w := by
  induction w with
  | nil => simp [numeral, Over]
  | cons c cs ih =>
    constructor
    · rintro ⟨n, hn⟩
      simp only [numeral, Option.bind_eq_bind, Option.bind_eq_some_iff] at hn
      obtain ⟨d, hd, r, hr, _⟩ := hn
      intro x hx
      rcases List.mem_cons.1 hx with rfl | hx
      · have : ∀ (a : Str) (x : Char) (d : Nat), digitOf a x = some d → x ∈ a := by
          intro a
          induction a with
          | nil => intro x d h; simp [digitOf] at h
          | cons y ys ih =>
            intro x d h
            simp only [digitOf] at h
            split at h
            · next he => simp [he]
            · cases hq : digitOf ys x with
              | none => rw [hq] at h; cases h
              | some q => simp [ih x q hq]
        exact this _ _ _ hd
      · exact (ih.1 ⟨r, hr⟩) x hx
    · intro h
      obtain ⟨r, hr⟩ := ih.2 (fun x hx => h x (by simp [hx]))
      have hd := (dec_spec c (h c (by simp))).2.2.2
      exact ⟨_, by simp only [numeral, hd, hr, Option.bind_eq_bind, Option.bind_some]; rfl⟩

theorem decimalLoop_numeral (P : PyText) (w : Str) (acc n : Nat) (h : numeral decAlphabet w = some n) :
    P.decimalLoop acc w = some (acc * 10 ^ w.length + n) := by
  induction w generalizing acc n with
  | nil => simp only [numeral, Option.some.injEq] at h; subst h; simp [PyText.decimalLoop]
  | cons c cs ih =>
    have ho := (numeral_dec_isSome (c :: cs)).1 ⟨n, h⟩
    obtain ⟨h1, h2, _, h4⟩ := dec_spec c (ho c (by simp))
    simp only [numeral, h4, Option.bind_eq_bind, Option.bind_some, Option.bind_eq_some_iff] at h
    obtain ⟨r, hr, h⟩ := h
    simp only [Option.pure_def, Option.some.injEq] at h
    have hd : P.decimal c = some (c.toNat - '0'.toNat) := by
      rw [P.decimal_ascii c h2, if_pos h1]
    have hl : decAlphabet.length = 10 := by decide
    rw [hl] at h
    simp only [PyText.decimalLoop, hd, ih _ _ hr, List.length_cons, Option.some.injEq]
    rw [← h, pow_succ]
    ring

theorem numeral_dec_snoc (w : Str) (c : Char) (n d : Nat) (h : numeral decAlphabet w = some n)
    (hd : digitOf decAlphabet c = some d) : numeral decAlphabet (w ++ [c]) = some (n * 10 + d) := by
  have hl : decAlphabet.length = 10 := by decide
  induction w generalizing n with
  | nil =>
    simp only [numeral, Option.some.injEq] at h
    subst h
    simp [numeral, hd]
  | cons a as ih =>
    simp only [numeral, Option.bind_eq_bind, Option.bind_eq_some_iff] at h
    obtain ⟨da, hda, r, hr, h⟩ := h
    simp only [Option.pure_def, Option.some.injEq] at h
    simp only [List.cons_append, numeral, hda, ih r hr, Option.bind_eq_bind, Option.bind_some,
      Option.pure_def, Option.some.injEq, List.length_append, List.length_singleton, hl]
    rw [hl] at h
    rw [← h, pow_succ]
    ring

theorem digitOf_digitChar : ∀ n : Fin 10, digitOf decAlphabet (Nat.digitChar n.1) = some n.1 := by decide

/-- The decimal text of a number denotes it. -/
theorem numeral_strNat (n : Nat) : numeral decAlphabet (strNat n) = some n := by
  induction n using Nat.strong_induction_on with
  | _ n ih =>
    rw [strNat, Nat.toDigits_eq_if (by omega)]
    split
    · next h =>
      have := digitOf_digitChar ⟨n, h⟩
      simp only at this
      simp [numeral, this]
    · next h =>
      have h1 := ih (n / 10) (by omega)
      have h2 := digitOf_digitChar ⟨n % 10, by omega⟩
      rw [strNat] at h1
      rw [numeral_dec_snoc _ _ _ _ h1 h2]
      simp only [Option.some.injEq]
      omega

theorem strNat_over (n : Nat) : Over decAlphabet (strNat n) := (numeral_dec_isSome _).1 ⟨n, numeral_strNat n⟩

theorem strNat_ne_nil (n : Nat) : strNat n ≠ [] := Nat.toDigits_ne_nil

theorem isdigitStr_over (P : PyText) (w : Str) (hne : w ≠ []) (h : Over decAlphabet w) : P.isdigitStr w = true := by
  simp only [PyText.isdigitStr, Bool.and_eq_true, decide_eq_true_eq, List.all_eq_true]
  refine ⟨hne, fun c hc => ?_⟩
  obtain ⟨h1, h2, _⟩ := dec_spec c (h c hc)
  rw [P.isdigit_ascii c h2, h1]

theorem isdigitStr_not (P : PyText) (w : Str) (h : ∃ c ∈ w, c.toNat < 128 ∧ c ∉ decAlphabet) :
    P.isdigitStr w = false := by
  obtain ⟨c, hc, h1, h2⟩ := h
  have : P.isdigit c = false := by
    rw [P.isdigit_ascii c h1]
    exact Bool.eq_false_iff.2 (fun hx => h2 ((isAsciiDigit_iff c).1 hx))
  rw [PyText.isdigitStr, Bool.and_eq_false_iff]
  right
  rw [List.all_eq_false]
  exact ⟨c, hc, by simp [this]⟩

theorem intOfDigits_numeral (P : PyText) (w : Str) (n : Nat) (h : numeral decAlphabet w = some n)
    (hl : P.max_str_digits = 0 ∨ w.length ≤ P.max_str_digits) : P.intOfDigits w = .ok n := by
  have c : ¬ (P.max_str_digits ≠ 0 ∧ w.length > P.max_str_digits) := by omega
  rw [PyText.intOfDigits, if_neg c, decimalLoop_numeral P w 0 n h, Nat.zero_mul, Nat.zero_add]

theorem strNat_length (n : Nat) (h : n ≤ 2147483647) : (strNat n).length ≤ 10 := by
  rw [strNat, Nat.length_toDigits_le_iff (by omega) (by omega)]
  omega

/-- A word that begins with a decimal digit, a sign or a small hex digit does not begin with `OP_`. -/
theorem startsWith_op {c : Char} {cs : Str} (h : c ≠ 'O') : startsWith "OP_".toList (c :: cs) = false := by
  have e : "OP_".toList = ['O', 'P', '_'] := by decide
  rw [startsWith, e, List.isPrefixOf]
  have : ('O' == c) = false := by
    rw [beq_eq_false_iff_ne]; exact fun hc => h hc.symm
  rw [this]; rfl

/-- The word of a 32-bit number. -/
theorem asm_word_strInt (P : PyText) (v : Int) (h : v.natAbs ≤ 2147483647) :
    Script.asm_word_to_bytes P (strInt v) = push_int v := by
  have hlen : ∀ n : Nat, n ≤ 2147483647 → P.max_str_digits = 0 ∨ (strNat n).length ≤ P.max_str_digits := by
    intro n hn
    have := strNat_length n hn
    have := P.max_str_digits_min
    omega
  have hO : ∀ c ∈ decAlphabet, c ≠ 'O' ∧ c ≠ '-' := by decide
  unfold strInt
  by_cases hs : v < 0
  · have hd := isdigitStr_over P _ (strNat_ne_nil v.natAbs) (strNat_over v.natAbs)
    have hn : P.isdigitStr ('-' :: strNat v.natAbs) = false :=
      isdigitStr_not P _ ⟨'-', by simp, by decide, by decide⟩
    have hi := intOfDigits_numeral P _ _ (numeral_strNat v.natAbs) (hlen v.natAbs h)
    have hv : -(v.natAbs : Int) = v := by omega
    have ha : Script.asm_decimal P ('-' :: strNat v.natAbs) = .ok (some v) := by
      simp only [Script.asm_decimal, hn, Bool.false_eq_true, if_false, hd, and_self, if_true, hi,
        ok_bind', pure_ok', hv]
    rw [if_pos hs]
    simp only [Script.asm_word_to_bytes, startsWith_op (show '-' ≠ 'O' by decide), Bool.false_eq_true,
      if_false, ha, ok_bind', h, if_true]
  · have hv : v = (v.toNat : Int) := by omega
    have hd := isdigitStr_over P _ (strNat_ne_nil v.toNat) (strNat_over v.toNat)
    have hi := intOfDigits_numeral P _ _ (numeral_strNat v.toNat) (hlen v.toNat (by omega))
    have ha : Script.asm_decimal P (strNat v.toNat) = .ok (some v) := by
      simp only [Script.asm_decimal, hd, if_true, hi, ok_bind', pure_ok', ← hv]
    rw [if_neg hs]
    have hst : startsWith "OP_".toList (strNat v.toNat) = false := by
      have h1 := strNat_ne_nil v.toNat
      have h2 := strNat_over v.toNat
      cases hq : strNat v.toNat with
      | nil => exact absurd hq h1
      | cons c cs => rw [hq] at h2; exact startsWith_op (hO c (h2 c (by simp))).1
    simp only [Script.asm_word_to_bytes, hst, Bool.false_eq_true, if_false, ha, ok_bind', h, if_true]

theorem hexAlphabet_ascii : ∀ c ∈ hexAlphabet, c.toNat < 128 ∧ isAsciiSplit c = false ∧ c ≠ 'O' ∧ c ≠ '-' := by
  decide

theorem hex_ne_nil {d : Bytes} (h : d ≠ []) : hex d ≠ [] := by
  intro hc
  have h1 := hex_length d
  rw [hc, List.length_nil] at h1
  have h2 := List.length_pos_iff.2 h
  omega

theorem startsWith_hex (d : Bytes) (h : d ≠ []) : startsWith "OP_".toList (hex d) = false := by
  have h1 := hex_ne_nil h
  have h2 := hex_over d
  cases hq : hex d with
  | nil => exact absurd hq h1
  | cons c cs => rw [hq] at h2; exact startsWith_op (hexAlphabet_ascii c (h2 c (by simp))).2.2.1

/-- A hex word with a letter is read as hex. -/
theorem asm_word_hex_letter (P : PyText) (d : Bytes) (hne : d ≠ []) (h : ∃ c ∈ hex d, c ∉ decAlphabet) :
    Script.asm_word_to_bytes P (hex d) = push_item d := by
  obtain ⟨c, hc, h1⟩ := h
  have hn : P.isdigitStr (hex d) = false :=
    isdigitStr_not P _ ⟨c, hc, (hexAlphabet_ascii c (hex_over d c hc)).1, h1⟩
  have ha : Script.asm_decimal P (hex d) = .ok none := by
    have h1 := hex_ne_nil hne
    have h2 := hex_over d
    rw [Script.asm_decimal.eq_def]
    simp only [hn, Bool.false_eq_true, if_false]
    cases hq : hex d with
    | nil => exact absurd hq h1
    | cons x xs =>
      rw [hq] at h2
      have := (hexAlphabet_ascii x (h2 x (by simp))).2.2.2
      simp only [this, false_and, if_false]
  simp only [Script.asm_word_to_bytes, startsWith_hex d hne, Bool.false_eq_true, if_false, ha, ok_bind',
    Script.asm_hex, fromhex_hex]

/-- A hex word of decimal digits only is read as a number first. -/
theorem asm_word_hex_digits (P : PyText) (d : Bytes) (hne : d ≠ []) (n : Nat)
    (h : numeral decAlphabet (hex d) = some n)
    (hl : P.max_str_digits = 0 ∨ 2 * d.length ≤ P.max_str_digits) :
    Script.asm_word_to_bytes P (hex d) = if n ≤ 2147483647 then push_int n else push_item d := by
  have hd := isdigitStr_over P _ (hex_ne_nil hne) ((numeral_dec_isSome _).1 ⟨n, h⟩)
  have hi := intOfDigits_numeral P _ _ h (by rw [hex_length]; exact hl)
  have ha : Script.asm_decimal P (hex d) = .ok (some (n : Int)) := by
    simp only [Script.asm_decimal, hd, if_true, hi, ok_bind', pure_ok']
  simp only [Script.asm_word_to_bytes, startsWith_hex d hne, Bool.false_eq_true, if_false, ha, ok_bind',
    Script.asm_hex, fromhex_hex, Int.natAbs_natCast]

theorem asm_word_hex_long (P : PyText) (d : Bytes) (hne : d ≠ []) (n : Nat)
    (h : numeral decAlphabet (hex d) = some n)
    (hl : ¬ (P.max_str_digits = 0 ∨ 2 * d.length ≤ P.max_str_digits)) :
    Script.asm_word_to_bytes P (hex d) = .error .valueError := by
  have hd := isdigitStr_over P _ (hex_ne_nil hne) ((numeral_dec_isSome _).1 ⟨n, h⟩)
  have hi : P.intOfDigits (hex d) = .error .valueError := by
    rw [PyText.intOfDigits, if_pos]
    rw [hex_length]
    omega
  have ha : Script.asm_decimal P (hex d) = .error .valueError := by
    simp only [Script.asm_decimal, hd, if_true, hi, error_bind']
  simp only [Script.asm_word_to_bytes, startsWith_hex d hne, Bool.false_eq_true, if_false, ha, error_bind']

/-! ## Opcode names -/

theorem opsTable_names : ∀ e ∈ opsTable, opsByName e.1 = some e.2 ∧ startsWith "OP_".toList e.1 = true ∧
    e.1 ≠ [] ∧ ∀ c ∈ e.1, c.toNat < 128 ∧ isAsciiSplit c = false := by decide +kernel

theorem opsByValue_mem {c : UInt8} {name : Str} (h : opsByValue c = some name) : (name, c) ∈ opsTable := by
  simp only [opsByValue, Option.map_eq_some_iff] at h
  obtain ⟨e, he, rfl⟩ := h
  have h1 := List.mem_of_find?_eq_some he
  have h2 := List.find?_some he
  simp only [decide_eq_true_eq] at h2
  rw [← h2]
  exact h1

theorem asm_word_name (P : PyText) {c : UInt8} {name : Str} (h : opsByValue c = some name) :
    Script.asm_word_to_bytes P name = .ok [c] := by
  obtain ⟨h1, h2, _⟩ := opsTable_names _ (opsByValue_mem h)
  simp only at h1 h2
  have := pack_byte_nat (UInt8.toNat_lt c)
  rw [UInt8.ofNat_toNat] at this
  simp only [Script.asm_word_to_bytes, h2, if_true, h1, this]

/-! ## Items -/

theorem strInt_plain (v : Int) : Plain (strInt v) := by
  have h1 : ∀ n, ∀ c ∈ strNat n, c.toNat < 128 ∧ isAsciiSplit c = false := by
    intro n c hc
    obtain ⟨_, h2, h3, _⟩ := dec_spec c (strNat_over n c hc)
    exact ⟨h2, h3⟩
  unfold strInt
  split
  · refine ⟨by simp, fun c hc => ?_⟩
    rcases List.mem_cons.1 hc with rfl | hc
    · decide
    · exact h1 _ c hc
  · exact ⟨strNat_ne_nil _, h1 _⟩

theorem op_word_plain (L : Secp) (op : Op) (h : ∀ c, op = .code c → ∃ name, opsByValue c = some name) :
    Plain (Script.op_to_asm_word L op false) := by
  cases op with
  | data d =>
    simp only [Script.op_to_asm_word, Bool.false_eq_true, false_and, if_false]
    split
    · exact strInt_plain _
    · next hl =>
      have hd : d ≠ [] := by rintro rfl; simp at hl
      exact ⟨hex_ne_nil hd, fun c hc => by
        obtain ⟨h1, h2, _⟩ := hexAlphabet_ascii c (hex_over d c hc)
        exact ⟨h1, h2⟩⟩
  | code c =>
    obtain ⟨name, hn⟩ := h c rfl
    simp only [Script.op_to_asm_word, hn]
    obtain ⟨_, _, h3, h4⟩ := opsTable_names _ (opsByValue_mem hn)
    exact ⟨h3, h4⟩

/-- Items of one length and nonzero value are determined by the value. -/
theorem itemValue_inj {a b : Bytes} (hl : a.length = b.length) (h : itemValue a = itemValue b)
    (hz : itemValue a ≠ 0) : a = b := by
  apply leValue_inj a b hl
  have ha := leValue_lt a
  have hb := leValue_lt b
  unfold itemValue at h hz
  rw [← hl] at h hb
  have e : ((256 : Int) ^ a.length) = ((256 ^ a.length : Nat) : Int) := by simp
  rw [e] at h hz
  generalize 256 ^ a.length = P at *
  split at h <;> split at h <;> omega

/-- The shortest item of a value is unique. -/
theorem shortest_unique {a b : Bytes} (ha : ShortestNumber a) (hb : ShortestNumber b)
    (h : itemValue a = itemValue b) : a = b := by
  have h1 := ha b h.symm
  have h2 := hb a h
  by_cases hz : itemValue a = 0
  · have e : itemValue [] = 0 := rfl
    have h3 := ha [] (by rw [hz, e])
    have : a = [] := by simpa using h3
    subst this
    have : b = [] := by simpa using h2
    exact this.symm
  · exact itemValue_inj (by omega) h hz

theorem push_int_shortest (v : Int) : ∃ d, push_int v = push_item d ∧ itemValue d = v ∧ ShortestNumber d := by
  obtain ⟨d, h1, h2, h3⟩ := push_int_eq v
  refine ⟨d, h1, h2, fun d' hd' => ?_⟩
  rcases h3 with rfl | h3
  · simp
  · have := itemValue_bound d'
    rw [hd', h2] at this
    have h5 : 256 ^ (d.length - 1) < 256 ^ d'.length := by omega
    have := (Nat.pow_lt_pow_iff_right (by omega)).1 h5
    omega

theorem push_int_of_shortest {d : Bytes} (h : ShortestNumber d) : push_int (itemValue d) = push_item d := by
  obtain ⟨d', h1, h2, h3⟩ := push_int_shortest (itemValue d)
  rw [h1, shortest_unique h3 h h2]

/-- `push_item` is injective. -/
theorem push_item_inj {a b : Bytes} (ha : a.length < 2 ^ 32) (h : push_item a = push_item b) : a = b := by
  obtain ⟨e, h1, h2, _⟩ := push_item_ok a ha
  have hb : b.length < 2 ^ 32 := by
    by_contra hc
    rw [h1, push_item_error b (by omega)] at h
    cases h
  obtain ⟨e', h3, h4, _⟩ := push_item_ok b hb
  rw [h1, h3] at h
  cases h
  have e1 := Script.ops_encodes h2 []
  have e2 := Script.ops_encodes h4 []
  rw [e1] at e2
  simp only [Prod.mk.injEq, List.cons.injEq, Op.data.injEq] at e2
  exact e2.1.1

theorem item_small (d : Bytes) (h : d.length ≤ 4) : (itemValue d).natAbs ≤ 2147483647 := by
  have h1 := itemValue_bound d
  have h2 : 256 ^ d.length ≤ 256 ^ 4 := Nat.pow_le_pow_right (by omega) h
  have h3 : (256 : Nat) ^ 4 = 4294967296 := by norm_num
  omega

end Bitcoinx
