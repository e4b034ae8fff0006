import Mathlib.Data.Nat.Digits.Defs
import Verif.Props.Script

/-! # C41: which texts `from_asm` reads, and as what -/

namespace Bitcoinx
open Spec

namespace Spec

/-- A word that looks like a decimal number: digits, of any alphabet, with or without a minus sign. -/
def DigitWord (P : PyText) (w : Str) : Prop :=
  ∃ digits, digits ≠ [] ∧ (w = digits ∨ w = '-' :: digits) ∧ ∀ c ∈ digits, P.isdigit c = true

/-- The word denotes a number: its digits are decimal ones and there are not too many for the interpreter. -/
def IsDecimal (P : PyText) (w : Str) (v : Int) : Prop :=
  ∃ digits ds, digits ≠ [] ∧ List.Forall₂ (fun c d => P.decimal c = some d) digits ds ∧
    (P.max_str_digits = 0 ∨ digits.length ≤ P.max_str_digits) ∧
    ((w = digits ∧ v = (Nat.ofDigits 10 ds.reverse : Nat)) ∨ (w = '-' :: digits ∧ v = -(Nat.ofDigits 10 ds.reverse : Nat)))

/-- The bytes of a word. -/
inductive AsmBytes (P : PyText) (w : Str) : Bytes → Prop
  /-- the name of an opcode -/
  | name (c : UInt8) : Opcode w c → AsmBytes P w [c]
  /-- a number of 32 bits: the push of the shortest item that denotes it -/
  | number (v : Int) (d b : Bytes) : IsDecimal P w v → v.natAbs < 2 ^ 31 → itemValue d = v → ShortestNumber d →
    push_item d = .ok b → AsmBytes P w b
  /-- otherwise hexadecimal digits -/
  | data (d b : Bytes) : ¬ "OP_".toList <+: w → (¬ DigitWord P w ∨ ∃ v, IsDecimal P w v ∧ 2 ^ 31 ≤ v.natAbs) →
    fromhex w = .ok d → push_item d = .ok b → AsmBytes P w b

end Spec

theorem ofDigits_foldl (ds : List Nat) (acc : Nat) :
    ds.foldl (fun a d => a * 10 + d) acc = acc * 10 ^ ds.length + Nat.ofDigits 10 ds.reverse := by
  induction ds generalizing acc with
  | nil => simp
  | cons d ds ih =>
    rw [List.foldl_cons, ih, List.reverse_cons, Nat.ofDigits_append, List.length_reverse, Nat.ofDigits_singleton,
      List.length_cons, pow_succ]
    ring

theorem decimalLoop_iff (P : PyText) (w : Str) (acc n : Nat) : P.decimalLoop acc w = some n ↔
    ∃ ds, List.Forall₂ (fun c d => P.decimal c = some d) w ds ∧ n = ds.foldl (fun a d => a * 10 + d) acc := by
  induction w generalizing acc with
  | nil =>
    rw [PyText.decimalLoop]
    constructor
    · rintro h; exact ⟨[], .nil, (Option.some.inj h).symm⟩
    · rintro ⟨ds, h, rfl⟩; cases h; rfl
  | cons c cs ih =>
    rw [PyText.decimalLoop]
    cases hc : P.decimal c with
    | none =>
      constructor
      · intro h; cases h
      · rintro ⟨ds, h, _⟩
        cases h with
        | cons h1 _ => rw [hc] at h1; cases h1
    | some d =>
      simp only [ih]
      constructor
      · rintro ⟨ds, h, rfl⟩; exact ⟨d :: ds, .cons hc h, rfl⟩
      · rintro ⟨ds, h, rfl⟩
        cases h with
        | cons h1 h2 => rw [hc] at h1; cases h1; exact ⟨_, h2, rfl⟩

theorem intOfDigits_iff (P : PyText) (w : Str) (n : Nat) : P.intOfDigits w = .ok n ↔
    (P.max_str_digits = 0 ∨ w.length ≤ P.max_str_digits) ∧
      ∃ ds, List.Forall₂ (fun c d => P.decimal c = some d) w ds ∧ n = Nat.ofDigits 10 ds.reverse := by
  rw [PyText.intOfDigits]
  have e : ∀ ds : List Nat, ds.foldl (fun a d => a * 10 + d) 0 = Nat.ofDigits 10 ds.reverse := by
    intro ds; rw [ofDigits_foldl, Nat.zero_mul, Nat.zero_add]
  have key := decimalLoop_iff P w 0
  simp only [e] at key
  by_cases hl : P.max_str_digits ≠ 0 ∧ w.length > P.max_str_digits
  · rw [if_pos hl]
    constructor
    · intro h; cases h
    · rintro ⟨h, _⟩; omega
  · rw [if_neg hl]
    have hl' : P.max_str_digits = 0 ∨ w.length ≤ P.max_str_digits := by omega
    cases hd : P.decimalLoop 0 w with
    | none =>
      constructor
      · intro h; cases h
      · rintro ⟨_, ds, h1, h2⟩
        rw [(key n).2 ⟨ds, h1, h2⟩] at hd; cases hd
    | some m =>
      obtain ⟨ds, h1, h2⟩ := (key m).1 hd
      constructor
      · intro h; cases h; exact ⟨hl', ds, h1, h2⟩
      · rintro ⟨_, h⟩
        have := (key n).2 h
        rw [hd] at this
        rw [Option.some.inj this]

theorem intOfDigits_error {P : PyText} {w : Str} {e : Err} (h : P.intOfDigits w = .error e) : e = .valueError := by
  rw [PyText.intOfDigits] at h
  split at h
  · cases h; rfl
  · split at h
    · cases h
    · cases h; rfl

theorem isdigitStr_iff (P : PyText) (w : Str) : P.isdigitStr w = true ↔ w ≠ [] ∧ ∀ c ∈ w, P.isdigit c = true := by
  simp [PyText.isdigitStr]

theorem minus_not_digit (P : PyText) : P.isdigit '-' = false := by rw [P.isdigit_ascii _ (by decide)]; decide
theorem minus_not_decimal (P : PyText) : P.decimal '-' = none := by rw [P.decimal_ascii _ (by decide)]; decide

theorem decimals_isdigit {P : PyText} {w : Str} {ds : List Nat} (h : List.Forall₂ (fun c d => P.decimal c = some d) w ds) :
    ∀ c ∈ w, P.isdigit c = true := by
  induction h with
  | nil => simp
  | cons h1 _ ih =>
    intro x hx
    rcases List.mem_cons.1 hx with rfl | hx
    · exact P.isdigit_decimal _ _ h1
    · exact ih x hx

/-- The attempt to read a word as a decimal number. -/
theorem asm_decimal_spec (P : PyText) (w : Str) (hw : w ≠ []) :
    (∃ v, Script.asm_decimal P w = .ok (some v) ∧ IsDecimal P w v ∧ ∀ v', IsDecimal P w v' → v' = v) ∨
    (Script.asm_decimal P w = .ok none ∧ ¬ DigitWord P w ∧ ∀ v, ¬ IsDecimal P w v) ∨
    (Script.asm_decimal P w = .error .valueError ∧ DigitWord P w ∧ ∀ v, ¬ IsDecimal P w v) := by
  have dig : ∀ v, IsDecimal P w v → DigitWord P w := by
    rintro v ⟨digits, ds, h1, h2, _, h | h⟩
    · exact ⟨digits, h1, .inl h.1, decimals_isdigit h2⟩
    · exact ⟨digits, h1, .inr h.1, decimals_isdigit h2⟩
  by_cases h1 : P.isdigitStr w = true
  · have hall := (isdigitStr_iff P w).1 h1
    have hdw : DigitWord P w := ⟨w, hw, .inl rfl, hall.2⟩
    have hpos : ∀ v, IsDecimal P w v ↔ ∃ n : Nat, P.intOfDigits w = .ok n ∧ v = n := by
      intro v
      constructor
      · rintro ⟨digits, ds, a, b, c, ⟨rfl, rfl⟩ | ⟨rfl, -⟩⟩
        · exact ⟨_, (intOfDigits_iff P _ _).2 ⟨c, ds, b, rfl⟩, rfl⟩
        · have := hall.2 '-' (by simp)
          rw [minus_not_digit] at this; cases this
      · rintro ⟨n, h, rfl⟩
        obtain ⟨c, ds, b, rfl⟩ := (intOfDigits_iff P w n).1 h
        exact ⟨w, ds, hw, b, c, .inl ⟨rfl, rfl⟩⟩
    have e : Script.asm_decimal P w = (do return some ((← P.intOfDigits w : Nat) : Int)) := by
      unfold Script.asm_decimal; rw [if_pos h1]
    cases hi : P.intOfDigits w with
    | ok n =>
      refine .inl ⟨n, by rw [e, hi]; rfl, (hpos _).2 ⟨n, hi, rfl⟩, ?_⟩
      intro v' hv'
      obtain ⟨n', h, rfl⟩ := (hpos _).1 hv'
      rw [hi] at h; cases h; rfl
    | error x =>
      obtain rfl := intOfDigits_error hi
      refine .inr (.inr ⟨by rw [e, hi]; rfl, hdw, ?_⟩)
      intro v hv
      obtain ⟨n', h, rfl⟩ := (hpos _).1 hv
      rw [hi] at h; cases h
  · cases w with
    | nil => exact absurd rfl hw
    | cons c cs =>
      have hnot : ¬ ∀ x ∈ c :: cs, P.isdigit x = true := fun h => h1 ((isdigitStr_iff P _).2 ⟨by simp, h⟩)
      by_cases h2 : c = '-' ∧ P.isdigitStr cs = true
      · obtain ⟨rfl, h2⟩ := h2
        have hall := (isdigitStr_iff P cs).1 h2
        have hdw : DigitWord P ('-' :: cs) := ⟨cs, hall.1, .inr rfl, hall.2⟩
        have hneg : ∀ v, IsDecimal P ('-' :: cs) v ↔ ∃ n : Nat, P.intOfDigits cs = .ok n ∧ v = -n := by
          intro v
          constructor
          · rintro ⟨digits, ds, a, b, c, ⟨rfl, rfl⟩ | ⟨h, rfl⟩⟩
            · exact absurd (decimals_isdigit b) hnot
            · cases h
              exact ⟨_, (intOfDigits_iff P _ _).2 ⟨c, ds, b, rfl⟩, rfl⟩
          · rintro ⟨n, h, rfl⟩
            obtain ⟨c, ds, b, rfl⟩ := (intOfDigits_iff P _ n).1 h
            exact ⟨_, ds, hall.1, b, c, .inr ⟨rfl, rfl⟩⟩
        have e : Script.asm_decimal P ('-' :: cs) = (do return some (-((← P.intOfDigits cs : Nat) : Int))) := by
          unfold Script.asm_decimal
          rw [if_neg h1]
          simp only [h2, and_self, if_true]
        cases hi : P.intOfDigits cs with
        | ok n =>
          refine .inl ⟨-n, by rw [e, hi]; rfl, (hneg _).2 ⟨n, hi, rfl⟩, ?_⟩
          intro v' hv'
          obtain ⟨n', h, rfl⟩ := (hneg _).1 hv'
          rw [hi] at h; cases h; rfl
        | error x =>
          obtain rfl := intOfDigits_error hi
          refine .inr (.inr ⟨by rw [e, hi]; rfl, hdw, ?_⟩)
          intro v hv
          obtain ⟨n', h, rfl⟩ := (hneg _).1 hv
          rw [hi] at h; cases h
      · have hdw : ¬ DigitWord P (c :: cs) := by
          rintro ⟨digits, a, rfl | h, b⟩
          · exact hnot b
          · cases h
            exact h2 ⟨rfl, (isdigitStr_iff P _).2 ⟨a, b⟩⟩
        refine .inr (.inl ⟨?_, hdw, fun v hv => hdw (dig v hv)⟩)
        unfold Script.asm_decimal
        rw [if_neg h1]
        simp only [h2, if_false]

theorem startsWith_iff (pre w : Str) : startsWith pre w = true ↔ pre <+: w := by
  rw [startsWith, List.isPrefixOf_iff_prefix]

/-- C41: what a word stands for, and when it is refused and how: `ValueError` escapes for the words that look like a
number and are none, everything else that is refused raises `ScriptError`, or `struct.error` if it is data of 2^32
bytes or more. -/
theorem C41_reads (P : PyText) (w : Str) (hw : w ≠ []) :
    (∀ b, Script.asm_word_to_bytes P w = .ok b ↔ AsmBytes P w b) ∧
    (Script.asm_word_to_bytes P w = .error .valueError ↔ DigitWord P w ∧ ¬ ∃ v, IsDecimal P w v) ∧
    ((¬ ∃ b, AsmBytes P w b) → ¬ (DigitWord P w ∧ ¬ ∃ v, IsDecimal P w v) →
      Script.asm_word_to_bytes P w = (if (fromhex w).isOk then .error .structError else .error .scriptError)) := by
  have hO : P.isdigit 'O' = false := by rw [P.isdigit_ascii _ (by decide)]; decide
  by_cases hop : "OP_".toList <+: w
  · -- names
    obtain ⟨n1, n2⟩ := C41_word P w
    have hnd : ¬ DigitWord P w := by
      obtain ⟨t, rfl⟩ := hop
      rintro ⟨digits, -, h | h, hd⟩
      · have := hd 'O' (by rw [← h]; exact List.mem_append_left _ (by decide))
        rw [hO] at this; cases this
      · exact absurd (List.cons.inj h).1 (by decide)
    have hdec : ∀ v, ¬ IsDecimal P w v := by
      rintro v ⟨digits, ds, h1, h2, _, h | h⟩
      · exact hnd ⟨digits, h1, .inl h.1, decimals_isdigit h2⟩
      · exact hnd ⟨digits, h1, .inr h.1, decimals_isdigit h2⟩
    by_cases hc : ∃ c, Opcode w c
    · obtain ⟨c, hc⟩ := hc
      have e := n1 c hc
      refine ⟨fun b => ?_, ?_, fun h => absurd ⟨_, .name c hc⟩ h⟩
      · rw [e]
        constructor
        · intro h; cases h; exact .name c hc
        · intro h
          cases h with
          | name c' h' => rw [← e, n1 c' h']
          | number v d b h' => exact absurd h' (hdec v)
          | data d b h' => exact absurd hop h'
      · rw [e]
        exact ⟨fun h => (by cases h), fun h => absurd h.1 hnd⟩
    · have e := n2 hop hc
      have hhex : (fromhex w).isOk = false := by
        obtain ⟨t, rfl⟩ := hop
        rfl
      refine ⟨fun b => ?_, ?_, fun _ _ => by rw [e, hhex]; rfl⟩
      · rw [e]
        constructor
        · intro h; cases h
        · intro h
          cases h with
          | name c' h' => exact absurd ⟨c', h'⟩ hc
          | number v d b h' => exact absurd h' (hdec v)
          | data d b h' => exact absurd hop h'
      · rw [e]
        exact ⟨fun h => (by cases h), fun h => absurd h.1 hnd⟩
  · have hst : startsWith "OP_".toList w = false := by
      rw [← Bool.not_eq_true, startsWith_iff]; exact hop
    have hname : ∀ c, ¬ Opcode w c := by
      intro c hc
      obtain ⟨-, h2, -⟩ := opsTable_names _ ((opsTable_opcode w c).2 hc)
      exact hop ((startsWith_iff _ _).1 h2)
    have hpush : ∀ d, push_item d = .error .structError ∨ ∃ b, push_item d = .ok b := by
      intro d
      by_cases hd : d.length < 2 ^ 32
      · obtain ⟨e, he, -⟩ := push_item_ok d hd; exact .inr ⟨e, he⟩
      · exact .inl (push_item_error d (by omega))
    have e : Script.asm_word_to_bytes P w = (do
        match ← Script.asm_decimal P w with
        | some value => if value.natAbs ≤ 2147483647 then push_int value else Script.asm_hex w
        | none => Script.asm_hex w) := by
      unfold Script.asm_word_to_bytes
      rw [hst]; rfl
    -- hexadecimal digits
    have hhex : (¬ DigitWord P w ∨ ∃ v, IsDecimal P w v ∧ 2 ^ 31 ≤ v.natAbs) →
        (∀ v, IsDecimal P w v → 2 ^ 31 ≤ v.natAbs) → ¬ (DigitWord P w ∧ ¬ ∃ v, IsDecimal P w v) →
        Script.asm_word_to_bytes P w = Script.asm_hex w →
        (∀ b, Script.asm_word_to_bytes P w = .ok b ↔ AsmBytes P w b) ∧
        (Script.asm_word_to_bytes P w = .error .valueError ↔ DigitWord P w ∧ ¬ ∃ v, IsDecimal P w v) ∧
        ((¬ ∃ b, AsmBytes P w b) → ¬ (DigitWord P w ∧ ¬ ∃ v, IsDecimal P w v) →
          Script.asm_word_to_bytes P w = (if (fromhex w).isOk then .error .structError else .error .scriptError)) := by
      intro h1 h2 h3 e
      rw [e]
      unfold Script.asm_hex
      cases hf : fromhex w with
      | error x =>
        simp only
        refine ⟨fun b => ⟨fun h => (by cases h), fun h => ?_⟩, ⟨fun h => (by cases h), fun h => absurd h h3⟩, fun _ _ => ?_⟩
        · cases h with
          | name c' h' => exact absurd h' (hname c')
          | number v d b h' h'' => exact absurd (h2 v h') (by omega)
          | data d b _ _ h' => rw [hf] at h'; cases h'
        · rfl
      | ok d =>
        simp only
        have hiff : ∀ b, push_item d = .ok b ↔ AsmBytes P w b := by
          intro b
          constructor
          · exact fun h => .data d b hop h1 hf h
          · intro h
            cases h with
            | name c' h' => exact absurd h' (hname c')
            | number v d b h' h'' => exact absurd (h2 v h') (by omega)
            | data d' b _ _ h' h'' => rw [hf] at h'; cases h'; exact h''
        refine ⟨hiff, ⟨fun h => ?_, fun h => absurd h h3⟩, fun h _ => ?_⟩
        · rcases hpush d with h' | ⟨b, h'⟩ <;> rw [h'] at h <;> cases h
        · rcases hpush d with h' | ⟨b, h'⟩
          · rw [h']; rfl
          · exact absurd ⟨b, (hiff b).1 h'⟩ h
    rcases asm_decimal_spec P w hw with ⟨v, h1, h2, h3⟩ | ⟨h1, h2, h3⟩ | ⟨h1, h2, h3⟩
    · rw [h1, ok_bind'] at e
      simp only at e
      have hno : ¬ (DigitWord P w ∧ ¬ ∃ v, IsDecimal P w v) := fun h => h.2 ⟨v, h2⟩
      by_cases hv : v.natAbs ≤ 2147483647
      · rw [if_pos hv] at e
        obtain ⟨d, h5, h6, h7⟩ := push_int_shortest v
        rw [h5] at e
        have hdl : d.length < 2 ^ 32 := by
          by_contra hcon
          have h8 := push_item_error d (by omega)
          obtain ⟨s, x, hs, -⟩ := C38_push_int v 5 (by norm_num; omega) (by norm_num)
          rw [h5, h8] at hs; cases hs
        obtain ⟨b0, hb0, -⟩ := push_item_ok d hdl
        rw [e]
        have hiff : ∀ b, push_item d = .ok b ↔ AsmBytes P w b := by
          intro b
          constructor
          · exact fun h => .number v d b h2 (by omega) h6 h7 h
          · intro h
            cases h with
            | name c' h' => exact absurd h' (hname c')
            | number v' d' b h' _ a' b' c' =>
              obtain rfl := h3 v' h'
              rw [shortest_unique h7 b' (by rw [h6, a'])]; exact c'
            | data d' b _ h' _ _ =>
              rcases h' with h' | ⟨v', h', h''⟩
              · rcases h2 with ⟨digits, ds, a, b, _, h | h⟩
                · exact absurd ⟨digits, a, .inl h.1, decimals_isdigit b⟩ h'
                · exact absurd ⟨digits, a, .inr h.1, decimals_isdigit b⟩ h'
              · rw [h3 v' h'] at h''; omega
        refine ⟨hiff, ⟨fun h => ?_, fun h => absurd h hno⟩, fun h _ => absurd ⟨b0, (hiff b0).1 hb0⟩ h⟩
        rw [hb0] at h; cases h
      · rw [if_neg hv] at e
        refine hhex (.inr ⟨v, h2, by omega⟩) (fun v' hv' => ?_) hno e
        rw [h3 v' hv']; omega
    · rw [h1, ok_bind'] at e
      exact hhex (.inl h2) (fun v hv => absurd hv (h3 v)) (fun h => h2 h.1) e
    · rw [h1, error_bind'] at e
      have hno : DigitWord P w ∧ ¬ ∃ v, IsDecimal P w v := ⟨h2, fun ⟨v, hv⟩ => h3 v hv⟩
      rw [e]
      refine ⟨fun b => ⟨fun h => (by cases h), fun h => ?_⟩, ⟨fun _ => hno, fun _ => rfl⟩, fun _ h => absurd hno h⟩
      cases h with
      | name c' h' => exact absurd h' (hname c')
      | number v d b h' => exact absurd h' (h3 v)
      | data d b _ h' =>
        rcases h' with h' | ⟨v', h', _⟩
        · exact absurd h2 h'
        · exact absurd h' (h3 v')

theorem packAll_forall₂ {α : Type} {f : α → Res Bytes} {xs : List α} {bs : List Bytes} :
    packAll f xs = .ok bs ↔ List.Forall₂ (fun x b => f x = .ok b) xs bs := by
  induction xs generalizing bs with
  | nil =>
    rw [packAll]
    constructor
    · intro h; cases h; exact .nil
    · intro h; cases h; rfl
  | cons x xs ih =>
    simp only [packAll, bind_eq_ok, pure_ok', Except.ok.injEq, List.forall₂_cons_left_iff]
    constructor
    · rintro ⟨b, hb, bs', hbs, rfl⟩; exact ⟨b, bs', hb, ih.1 hbs, rfl⟩
    · rintro ⟨b, bs', hb, hbs, rfl⟩; exact ⟨b, hb, bs', ih.2 hbs, rfl⟩

theorem forall₂_mem_imp {α β : Type} {R S : α → β → Prop} {xs : List α} {ys : List β}
    (hi : ∀ x ∈ xs, ∀ y, R x y → S x y) (h : List.Forall₂ R xs ys) : List.Forall₂ S xs ys := by
  induction h with
  | nil => exact .nil
  | cons h1 _ ih => exact .cons (hi _ (by simp) _ h1) (ih fun x hx => hi x (by simp [hx]))

/-- C41: a text is read exactly if each of its words is, and is the bytes of its words: the amount of white space
between and around the words has no meaning. -/
theorem C41_words (P : PyText) (asm : Str) (b : Bytes) :
    Script.from_asm P asm = .ok b ↔ ∃ ws parts, Split P.isspace asm ws ∧ List.Forall₂ (AsmBytes P) ws parts ∧
      b = List.flatten parts := by
  have hne : ∀ x ∈ P.split asm, x ≠ [] := by
    have h := (split_iff P asm _).1 rfl
    generalize P.split asm = ws at h
    induction h with
    | blank => simp
    | word s w rest ws _ hw _ _ _ ih =>
      intro x hx
      rcases List.mem_cons.1 hx with rfl | hx
      · exact hw
      · exact ih x hx
  have hiff : ∀ parts, packAll (Script.asm_word_to_bytes P) (P.split asm) = .ok parts ↔
      List.Forall₂ (AsmBytes P) (P.split asm) parts := by
    intro parts
    rw [packAll_forall₂]
    constructor
    · intro h
      exact forall₂_mem_imp (fun x hx y h => ((C41_reads P x (hne x hx)).1 y).1 h) h
    · intro h
      exact forall₂_mem_imp (fun x hx y h => ((C41_reads P x (hne x hx)).1 y).2 h) h
  rw [Script.from_asm]
  simp only [bind_eq_ok, pure_ok', Except.ok.injEq, hiff]
  constructor
  · rintro ⟨parts, h, rfl⟩; exact ⟨_, parts, (split_iff P asm _).1 rfl, h, rfl⟩
  · rintro ⟨ws, parts, h1, h2, rfl⟩
    rw [← (split_iff P asm ws).2 h1] at h2
    exact ⟨parts, h2, rfl⟩

/-! ## Examples -/

/-- A superscript two is a digit and not a decimal one. -/
def superscriptText : PyText where
  isspace c := isAsciiSplit c
  isdigit c := isAsciiDigit c || decide (c = '²')
  decimal c := if isAsciiDigit c then some (c.toNat - '0'.toNat) else none
  max_str_digits := 4300
  max_str_digits_min := .inr (by omega)
  isspace_ascii _ _ := rfl
  isdigit_ascii c h := by
    have : c ≠ '²' := by rintro rfl; exact absurd h (by decide)
    simp [this]
  decimal_ascii _ _ := rfl
  decimal_lt c d h := asciiText.decimal_lt c d h
  isdigit_decimal c d h := by
    have := asciiText.isdigit_decimal c d h
    have h2 : asciiText.isdigit c = isAsciiDigit c := rfl
    rw [h2] at this
    simp [this]

example : Script.from_asm superscriptText "OP_DUP 2²".toList = .error .valueError ∧
    Script.from_asm superscriptText "OP_DUP 2x".toList = .error .scriptError := by decide +kernel

example : Script.from_asm asciiText "  OP_DUP\t\n -255  deadbeefcafe ".toList =
    .ok [0x76, 2, 0xff, 0x80, 6, 0xde, 0xad, 0xbe, 0xef, 0xca, 0xfe] := by decide +kernel

example : Split asciiText.isspace " ab  c ".toList ["ab".toList, "c".toList] :=
  .word " ".toList "ab".toList "  c ".toList _ (by decide) (by decide) (by decide) (by decide)
    (.word "  ".toList "c".toList " ".toList _ (by decide) (by decide) (by decide) (by decide)
      (.blank _ (by decide)))

end Bitcoinx
