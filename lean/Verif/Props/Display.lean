import Verif.Model.Display
import Verif.Spec.Display
import Verif.Lemmas.Asm
import Verif.Props.Signature
import Verif.Props.Difficulty
import Verif.Props.Bip32Key
import Verif.Props.KeySign

/-! # C106: printed forms -/

namespace Bitcoinx
open Spec

theorem numeral_chars {A t : Str} {n : Nat} (h : numeral A t = some n) : Over A t := by
  have key : ∀ (B : Str) (c : Char) (d : Nat), digitOf B c = some d → c ∈ B := by
    intro B
    induction B with
    | nil => intro c d h; cases h
    | cons a as ih =>
      intro c d h
      rw [digitOf] at h
      split at h
      · next e => simp [e]
      · rw [Option.map_eq_some_iff] at h
        obtain ⟨x, h, -⟩ := h
        exact List.mem_cons_of_mem _ (ih c x h)
  induction t generalizing n with
  | nil => intro c hc; cases hc
  | cons a as ih =>
    simp only [numeral, Option.bind_eq_bind, Option.bind_eq_some_iff] at h
    obtain ⟨d, hd, r, hr, -⟩ := h
    intro c hc
    rcases List.mem_cons.1 hc with rfl | hc
    · exact key _ _ _ hd
    · exact ih hr c hc

theorem digits_head (b n : Nat) (hb : 1 < b) (hb' : b ≤ 16) :
    (Nat.toDigits b n).head? = some '0' → Nat.toDigits b n = ['0'] := by
  have hd : ∀ k : Fin 16, Nat.digitChar k.1 = '0' → k.1 = 0 := by decide
  have pos : ∀ n, 0 < n → (Nat.toDigits b n).head? ≠ some '0' := by
    intro n
    induction n using Nat.strong_induction_on with
    | _ n ih =>
      intro hn
      rw [Nat.toDigits_eq_if hb]
      split
      · next h =>
        intro e
        simp only [List.head?_cons, Option.some.injEq] at e
        have := hd ⟨n, by omega⟩ e
        simp only at this; omega
      · next h =>
        have := ih (n / b) (Nat.div_lt_self hn hb) (Nat.div_pos (by omega) (by omega))
        intro e
        rw [List.head?_append] at e
        cases hh : (Nat.toDigits b (n / b)).head? with
        | none => rw [List.head?_eq_none_iff] at hh; exact Nat.toDigits_ne_nil hh
        | some c => rw [hh] at e this; exact this (by simpa using e)
  intro h
  rcases Nat.eq_zero_or_pos n with rfl | hn
  · simp
  · exact absurd h (pos n hn)

theorem strInt_text (n : Int) : IntText decAlphabet (strInt n) n := by
  by_cases h : n < 0
  · refine ⟨strNat n.natAbs, strNat_ne_nil _, numeral_strNat _, digits_head 10 _ (by omega) (by omega), ?_⟩
    rw [strInt, if_pos h, if_pos h]
  · refine ⟨strNat n.natAbs, strNat_ne_nil _, numeral_strNat _, digits_head 10 _ (by omega) (by omega), ?_⟩
    have : n.toNat = n.natAbs := by omega
    rw [strInt, if_neg h, if_neg h, this]

theorem hexInt_text (n : Int) : IntText hexAlphabet (hexInt n) n := by
  by_cases h : n < 0
  · refine ⟨Nat.toDigits 16 n.natAbs, Nat.toDigits_ne_nil, numeral_hexNat _, digits_head 16 _ (by omega) (by omega), ?_⟩
    rw [hexInt, if_pos h, if_pos h]
  · refine ⟨Nat.toDigits 16 n.natAbs, Nat.toDigits_ne_nil, numeral_hexNat _, digits_head 16 _ (by omega) (by omega), ?_⟩
    have : n.toNat = n.natAbs := by omega
    rw [hexInt, if_neg h, if_neg h, this]

theorem hex_text (b : Bytes) : BytesText (hex b) b := ⟨hex_length b, numeral_hex b⟩

theorem intText_unique {A t : Str} {n m : Int} (hA : '-' ∉ A) (h : IntText A t n) (h' : IntText A t m) : n = m := by
  obtain ⟨d, h1, h2, -, h3⟩ := h
  obtain ⟨d', h1', h2', -, h3'⟩ := h'
  have o : ∀ {d : Str} {k : Nat}, numeral A d = some k → ∀ x, d ≠ '-' :: x := by
    rintro d k hd x rfl
    exact hA (numeral_chars hd _ (by simp))
  by_cases hn : n < 0 <;> by_cases hm : m < 0
  · rw [if_pos hn] at h3; rw [if_pos hm] at h3'
    rw [h3, List.cons.injEq] at h3'
    rw [h3'.2, h2', Option.some.injEq] at h2
    omega
  · rw [if_pos hn] at h3; rw [if_neg hm] at h3'
    exact (o h2' d (by rw [← h3', h3])).elim
  · rw [if_neg hn] at h3; rw [if_pos hm] at h3'
    exact (o h2 d' (by rw [← h3, h3'])).elim
  · rw [if_neg hn] at h3; rw [if_neg hm] at h3'
    rw [← h3, h3', h2', Option.some.injEq] at h2
    omega

theorem bytesText_unique {t : Str} {b c : Bytes} (h : BytesText t b) (h' : BytesText t c) : b = c := by
  obtain ⟨h1, h2⟩ := h
  obtain ⟨h1', h2'⟩ := h'
  have hl : b.length = c.length := by omega
  rw [h2, Option.some.injEq] at h2'
  exact beValue_inj _ _ hl h2'

theorem intText_chars {A t : Str} {n : Int} (h : IntText A t n) : ∀ c ∈ t, c = '-' ∨ c ∈ A := by
  obtain ⟨d, -, h2, -, rfl⟩ := h
  intro c hc
  split at hc
  · rcases List.mem_cons.1 hc with rfl | hc
    · exact .inl rfl
    · exact .inr (numeral_chars h2 c hc)
  · exact .inr (numeral_chars h2 c hc)

theorem intText_no_mark {A t : Str} {n : Int} (h : IntText A t n) (c : Char) (hc : c ≠ '-' ∧ c ∉ A) : c ∉ t := by
  intro hm
  rcases intText_chars h c hm with e | e
  · exact hc.1 e
  · exact hc.2 e

theorem bytesText_no_mark {t : Str} {b : Bytes} (h : BytesText t b) (c : Char) (hc : c ∉ hexAlphabet) : c ∉ t :=
  fun hm => hc (numeral_chars h.2 c hm)

theorem cut_at {c : Char} {a b x y : Str} (ha : c ∉ a) (hb : c ∉ b) (h : a ++ c :: x = b ++ c :: y) : a = b ∧ x = y := by
  induction a generalizing b with
  | nil =>
    cases b with
    | nil => simpa using h
    | cons d ds =>
      simp only [List.nil_append, List.cons_append, List.cons.injEq] at h
      exact (hb (by simp [h.1])).elim
  | cons e es ih =>
    cases b with
    | nil =>
      simp only [List.nil_append, List.cons_append, List.cons.injEq] at h
      exact (ha (by simp [h.1])).elim
    | cons d ds =>
      simp only [List.cons_append, List.cons.injEq] at h
      obtain ⟨h1, h2⟩ := ih (fun hm => ha (by simp [hm])) (fun hm => hb (by simp [hm])) h.2
      exact ⟨by rw [h.1, h1], h2⟩

/-- A value that ends at a mark is followed by the same after it. -/
theorem cut_lit (c : Char) {l a b : Str} {x y : List Str} (ha : c ∉ a) (hb : c ∉ b)
    (h : List.flatten (a :: l :: x) = List.flatten (b :: l :: y)) (hl : l.head? = some c) : a = b ∧ List.flatten x = List.flatten y := by
  cases l with
  | nil => cases hl
  | cons d l =>
    obtain rfl : d = c := by simpa using hl
    simp only [List.flatten_cons, List.cons_append] at h
    obtain ⟨h1, h2⟩ := cut_at ha hb h
    exact ⟨h1, List.append_cancel_left h2⟩

theorem cut_first {l : Str} {x y : List Str} (h : List.flatten (l :: x) = List.flatten (l :: y)) : x.flatten = y.flatten := by
  rw [List.flatten_cons, List.flatten_cons] at h
  exact List.append_cancel_left h

theorem cut_last {l a b : Str} (h : List.flatten [a, l] = List.flatten [b, l]) : a = b := by
  simp only [List.flatten_cons, List.flatten_nil, List.append_nil] at h
  exact List.append_cancel_right h

/-! ## Headers -/

/-- C106: the text of every header is its fields by name, in the forms said in `HeaderText`. -/
theorem C106_header (h : Header) : HeaderText h.str h := by
  refine ⟨hexInt h.version, hash_to_hex_str h.prev_hash, hash_to_hex_str h.merkle_root, strInt h.timestamp, strInt h.bits,
    strInt h.nonce, h.hex_str, strInt h.height, ?_, hexInt_text _, hex_text h.prev_hash.reverse, hex_text h.merkle_root.reverse,
    strInt_text _, strInt_text _, strInt_text _, hex_text h.hash.reverse, strInt_text _⟩
  rw [Header.str, fstring]

theorem headerText_unique {t : Str} {h h' : Header} (a : HeaderText t h) (b : HeaderText t h') :
    h.version = h'.version ∧ h.prev_hash = h'.prev_hash ∧ h.merkle_root = h'.merkle_root ∧ h.timestamp = h'.timestamp ∧
    h.bits = h'.bits ∧ h.nonce = h'.nonce ∧ h.hash = h'.hash ∧ h.height = h'.height := by
  obtain ⟨v, p, m, s, b, n, x, g, rfl, a1, a2, a3, a4, a5, a6, a7, a8⟩ := a
  obtain ⟨v', p', m', s', b', n', x', g', e, b1, b2, b3, b4, b5, b6, b7, b8⟩ := b
  have mh : ',' ≠ '-' ∧ ',' ∉ hexAlphabet := by decide
  have md : ',' ≠ '-' ∧ ',' ∉ decAlphabet := by decide
  have e0 := cut_first e
  obtain ⟨rfl, e1⟩ := cut_lit ',' (intText_no_mark a1 _ mh) (intText_no_mark b1 _ mh) e0 (by decide +kernel)
  obtain ⟨rfl, e2⟩ := cut_lit ',' (bytesText_no_mark a2 _ mh.2) (bytesText_no_mark b2 _ mh.2) e1 (by decide +kernel)
  obtain ⟨rfl, e3⟩ := cut_lit ',' (bytesText_no_mark a3 _ mh.2) (bytesText_no_mark b3 _ mh.2) e2 (by decide +kernel)
  obtain ⟨rfl, e4⟩ := cut_lit ',' (intText_no_mark a4 _ md) (intText_no_mark b4 _ md) e3 (by decide +kernel)
  obtain ⟨rfl, e5⟩ := cut_lit ',' (intText_no_mark a5 _ md) (intText_no_mark b5 _ md) e4 (by decide +kernel)
  obtain ⟨rfl, e6⟩ := cut_lit ',' (intText_no_mark a6 _ md) (intText_no_mark b6 _ md) e5 (by decide +kernel)
  obtain ⟨rfl, e7⟩ := cut_lit ',' (bytesText_no_mark a7 _ mh.2) (bytesText_no_mark b7 _ mh.2) e6 (by decide +kernel)
  obtain rfl := cut_last e7
  have nh : '-' ∉ hexAlphabet := by decide
  have nd : '-' ∉ decAlphabet := by decide
  exact ⟨intText_unique nh a1 b1, List.reverse_injective (bytesText_unique a2 b2),
    List.reverse_injective (bytesText_unique a3 b3), intText_unique nd a4 b4, intText_unique nd a5 b5, intText_unique nd a6 b6,
    List.reverse_injective (bytesText_unique a7 b7), intText_unique nd a8 b8⟩

/-- C106: two headers read from bytes with the same text are the same header, of the same bytes. -/
theorem C106_header_determined (H : Hashes) (raw raw' : Bytes) (height height' : Int) (h h' : Header)
    (hd : deserialized_header H raw height = .ok h) (hd' : deserialized_header H raw' height' = .ok h')
    (e : h.str = h'.str) : h = h' ∧ raw = raw' ∧ height = height' := by
  have len : ∀ {raw height h}, deserialized_header H raw height = .ok h → raw.length = 80 := by
    intro raw height h hd
    by_contra hl; rw [C20_length H raw height hl] at hd; cases hd
  obtain ⟨k, v, t, b, n, k1, k2, k3, -, -, -, -, k4, k5, k6, k7, k8, -⟩ := C20_fields H raw height (len hd)
  obtain ⟨k', v', t', b', n', k1', k2', k3', -, -, -, -, k4', k5', k6', k7', k8', -⟩ := C20_fields H raw' height' (len hd')
  rw [hd] at k1; obtain rfl := Except.ok.inj k1
  rw [hd'] at k1'; obtain rfl := Except.ok.inj k1'
  obtain ⟨f1, f2, f3, f4, f5, f6, f7, f8⟩ := headerText_unique (C106_header h) (e ▸ C106_header h')
  have hr : raw = raw' := by
    rw [f1, k4'] at k4; rw [f4, k5'] at k5; rw [f5, k6'] at k6; rw [f6, k7'] at k7
    rw [← k8, ← k8', f2, f3, Except.ok.inj k4, Except.ok.inj k5, Except.ok.inj k6, Except.ok.inj k7]
  have hh : height = height' := by rw [← k3, ← k3', f8]
  refine ⟨?_, hr, hh⟩
  rw [hr, hh, hd'] at hd
  exact (Except.ok.inj hd).symm

theorem numeral_two (A t : Str) (c : Char) (n d : Nat) (h : numeral A t = some n) (hd : digitOf A c = some d) :
    numeral A (t ++ [c]) = some (n * A.length + d) := numeral_snoc A t c n d h hd

/-- Digits of a decimal read as hexadecimal. -/
theorem hex_of_decimal (n : Nat) : ∃ m, numeral hexAlphabet (strNat n) = some m ∧ n ≤ m ∧ (10 ≤ n → n < m) := by
  induction n using Nat.strong_induction_on with
  | _ n ih =>
    rw [strNat, Nat.toDigits_eq_if (by omega)]
    split
    · next h =>
      have := digitOf_hexChar ⟨n, by omega⟩
      exact ⟨n, by simp [numeral, this], le_refl _, by omega⟩
    · next h =>
      obtain ⟨m, h1, h2, -⟩ := ih (n / 10) (by omega)
      have h3 := digitOf_hexChar ⟨n % 10, by omega⟩
      rw [strNat] at h1
      have hl : hexAlphabet.length = 16 := by decide
      refine ⟨_, numeral_snoc _ _ _ _ _ h1 h3, ?_, ?_⟩ <;> rw [hl] <;> simp only <;> omega

theorem flatten_parts (a b : List Str) (m : Str) : List.flatten (a ++ m :: b) = a.flatten ++ m ++ b.flatten := by
  rw [List.flatten_append, List.flatten_cons, List.append_assoc]

/-- C106: the bits of a header, and the bits required in the text of `IncorrectBits`, are printed in decimal after `0x`:
read as that says, they are always too great a number, except for bits less than ten. -/
theorem C106_bits_misprinted (h : Header) (required : Int) (h1 : 10 ≤ h.bits) (h2 : 10 ≤ required) :
    ∃ front back digits n digits' n',
      h.str = List.flatten [front, ", bits=0x".toList, digits, ", nonce=".toList, back] ∧
      numeral hexAlphabet digits = some n ∧ h.bits < n ∧
      IncorrectBits.str h required = List.flatten ["header ".toList, h.str, " requires bits 0x".toList, digits'] ∧
      numeral hexAlphabet digits' = some n' ∧ required < n' := by
  obtain ⟨n, n1, -, n2⟩ := hex_of_decimal h.bits.toNat
  obtain ⟨n', n1', -, n2'⟩ := hex_of_decimal required.toNat
  have e : ∀ k : Int, 10 ≤ k → strInt k = strNat k.toNat := by
    intro k hk; rw [strInt, if_neg (by omega)]
  have join : ∀ (x y : List Str) (a b c : Str), List.flatten (x ++ a :: b :: c :: y) = List.flatten [x.flatten, a, b, c, y.flatten] := by
    intro x y a b c
    simp only [List.flatten_append, List.flatten_cons, List.flatten_nil, List.append_nil]
  have hj := join ["Header(version=0x".toList, hexInt h.version, ", prev_hash=".toList, hash_to_hex_str h.prev_hash,
      ", merkle_root=".toList, hash_to_hex_str h.merkle_root, ", timestamp=".toList, strInt h.timestamp]
      [strInt h.nonce, ", hash=".toList, h.hex_str, ", height=".toList, strInt h.height, ")".toList]
      ", bits=0x".toList (strInt h.bits) ", nonce=".toList
  simp only [List.cons_append, List.nil_append] at hj
  refine ⟨_, _, strInt h.bits, n, strInt required, n', by rw [Header.str, fstring, hj], ?_, ?_, by rw [IncorrectBits.str, fstring], ?_, ?_⟩
  · rw [e _ h1]; exact n1
  · have := n2 (by omega); omega
  · rw [e _ h2]; exact n1'
  · have := n2' (by omega); omega

/-- C106: the text of `InsufficientPoW` can be made exactly if the bits of the header are canonical, and has its hash and
target in decimal. -/
theorem C106_insufficient (h : Header) :
    (∀ t, InsufficientPoW.str h = .ok t → ∃ target a b, h.target = .ok target ∧ IntText decAlphabet a (leValue h.hash) ∧
      IntText decAlphabet b target ∧
      t = List.flatten ["header f".toList, h.str, " hash value f".toList, a, " exceeds its target ".toList, b]) ∧
    ((∃ t, InsufficientPoW.str h = .ok t) ↔ ∃ b : Nat, h.bits = b ∧ CanonicalBits b) := by
  have nat : ∀ n : Nat, IntText decAlphabet (strNat n) n := fun n => by
    have := strInt_text n
    rwa [strInt, if_neg (by omega), Int.toNat_natCast] at this
  have hv : h.hash_value = leValue h.hash := by rw [Header.hash_value, hash_to_value, le_bytes_to_int_eq]
  have iff : (∃ t, InsufficientPoW.str h = .ok t) ↔ ∃ t, h.target = .ok t := by
    rw [InsufficientPoW.str]
    cases h.target with
    | ok t => exact ⟨fun _ => ⟨t, rfl⟩, fun _ => ⟨_, by rw [ok_bind', pure_ok']⟩⟩
    | error e => exact ⟨fun ⟨t, h⟩ => (by rw [error_bind'] at h; cases h), fun ⟨t, h⟩ => (by cases h)⟩
  constructor
  · intro t ht
    rw [InsufficientPoW.str, bind_eq_ok] at ht
    obtain ⟨target, h1, h2⟩ := ht
    refine ⟨target, strNat h.hash_value, strNat target, h1, ?_, nat _, (Except.ok.inj h2).symm⟩
    rw [hv]; exact nat _
  · rw [iff]
    constructor
    · rintro ⟨t, ht⟩
      obtain ⟨b, h2, h3, -⟩ := ((C11_bits_to_target h.bits).1 t).1 ht
      exact ⟨b, h2, h3⟩
    · rintro ⟨b, h1, h2⟩
      have hd : 256 ^ 3 ∣ (b % 2 ^ 24) * 256 ^ (b / 2 ^ 24) := by
        rcases h2 with rfl | h2
        · simp
        · exact h2.2.2.2
      obtain ⟨t, ht⟩ := hd
      exact ⟨t, ((C11_bits_to_target h.bits).1 t).2 ⟨b, h1, h2, by rw [Denotes, ht, mul_comm]⟩⟩

/-! ## Inputs, outputs and derivations -/

/-- C106: the text of every input, output and derivation is its fields by name. -/
theorem C106_texts (i : TxInput) (o : TxOutput) (d : BIP32Derivation) :
    InputText i.repr i ∧ OutputText o.repr o ∧ DerivationText d.repr d := by
  refine ⟨⟨hash_to_hex_str i.prev_hash, strInt i.prev_idx, hex i.script_sig, strInt i.sequence, ?_,
    hex_text i.prev_hash.reverse, strInt_text _, hex_text _, strInt_text _⟩,
    ⟨strInt o.value, hex o.script_pubkey, ?_, strInt_text _, hex_text _⟩,
    ⟨hex d.chain_code, strInt d.n, strInt d.depth, hex d.parent_fingerprint, ?_, hex_text _, strInt_text _, strInt_text _,
      hex_text _⟩⟩
  · rw [TxInput.repr, fstring]
  · rw [TxOutput.repr, fstring]
  · rw [BIP32Derivation.repr, fstring]

/-- C106: a text determines the input, output or derivation it is of, whatever their fields are. -/
theorem C106_determined :
    (∀ (t : Str) (i i' : TxInput), InputText t i → InputText t i' → i = i') ∧
    (∀ (t : Str) (o o' : TxOutput), OutputText t o → OutputText t o' → o = o') ∧
    (∀ (t : Str) (d d' : BIP32Derivation), DerivationText t d → DerivationText t d' → d = d') ∧
    (∀ i i' : TxInput, i.repr = i'.repr → i = i') ∧ (∀ o o' : TxOutput, o.repr = o'.repr → o = o') ∧
    (∀ d d' : BIP32Derivation, d.repr = d'.repr → d = d') := by
  have mh : '"' ≠ '-' ∧ '"' ∉ hexAlphabet := by decide
  have md : ',' ≠ '-' ∧ ',' ∉ decAlphabet := by decide
  have nd : '-' ∉ decAlphabet := by decide
  have h1 : ∀ (t : Str) (i i' : TxInput), InputText t i → InputText t i' → i = i' := by
    rintro t i i' ⟨p, n, s, q, rfl, a1, a2, a3, a4⟩ ⟨p', n', s', q', e, b1, b2, b3, b4⟩
    have e0 := cut_first e
    obtain ⟨rfl, e1⟩ := cut_lit '"' (bytesText_no_mark a1 _ mh.2) (bytesText_no_mark b1 _ mh.2) e0 (by decide +kernel)
    obtain ⟨rfl, e2⟩ := cut_lit ',' (intText_no_mark a2 _ md) (intText_no_mark b2 _ md) e1 (by decide +kernel)
    obtain ⟨rfl, e3⟩ := cut_lit '"' (bytesText_no_mark a3 _ mh.2) (bytesText_no_mark b3 _ mh.2) e2 (by decide +kernel)
    obtain rfl := cut_last e3
    cases i; cases i'
    rw [TxInput.mk.injEq]
    exact ⟨List.reverse_injective (bytesText_unique a1 b1), intText_unique nd a2 b2, bytesText_unique a3 b3,
      intText_unique nd a4 b4⟩
  have h2 : ∀ (t : Str) (o o' : TxOutput), OutputText t o → OutputText t o' → o = o' := by
    rintro t o o' ⟨v, s, rfl, a1, a2⟩ ⟨v', s', e, b1, b2⟩
    have e0 := cut_first e
    obtain ⟨rfl, e1⟩ := cut_lit ',' (intText_no_mark a1 _ md) (intText_no_mark b1 _ md) e0 (by decide +kernel)
    obtain rfl := cut_last e1
    cases o; cases o'
    rw [TxOutput.mk.injEq]
    exact ⟨intText_unique nd a1 b1, bytesText_unique a2 b2⟩
  have h3 : ∀ (t : Str) (d d' : BIP32Derivation), DerivationText t d → DerivationText t d' → d = d' := by
    rintro t d d' ⟨c, n, x, f, rfl, a1, a2, a3, a4⟩ ⟨c', n', x', f', e, b1, b2, b3, b4⟩
    have e0 := cut_first e
    obtain ⟨rfl, e1⟩ := cut_lit '"' (bytesText_no_mark a1 _ mh.2) (bytesText_no_mark b1 _ mh.2) e0 (by decide +kernel)
    obtain ⟨rfl, e2⟩ := cut_lit ',' (intText_no_mark a2 _ md) (intText_no_mark b2 _ md) e1 (by decide +kernel)
    obtain ⟨rfl, e3⟩ := cut_lit ',' (intText_no_mark a3 _ md) (intText_no_mark b3 _ md) e2 (by decide +kernel)
    obtain rfl := cut_last e3
    cases d; cases d'
    rw [BIP32Derivation.mk.injEq]
    exact ⟨bytesText_unique a1 b1, intText_unique nd a2 b2, intText_unique nd a3 b3, bytesText_unique a4 b4⟩
  have i0 : TxInput := ⟨[], 0, [], 0⟩
  have o0 : TxOutput := ⟨0, []⟩
  have d0 : BIP32Derivation := ⟨[], 0, 0, []⟩
  refine ⟨h1, h2, h3, fun i i' e => ?_, fun o o' e => ?_, fun d d' e => ?_⟩
  · exact h1 _ i i' (C106_texts i o0 d0).1 (e ▸ (C106_texts i' o0 d0).1)
  · exact h2 _ o o' (C106_texts i0 o d0).2.1 (e ▸ (C106_texts i0 o' d0).2.1)
  · exact h3 _ d d' (C106_texts i0 o0 d).2.2 (e ▸ (C106_texts i0 o0 d').2.2)

/-! ## Keys -/

/-- C106: a private key, extended or not, prints as 64 hexadecimal digits of the hash of its secret and of nothing else; so
nothing of an extended one but its secret, and not that, can be told from its text. -/
theorem C106_private (H : Hashes) (k : PrivateKey) (x : BIP32PrivateKey) :
    BytesText (k.str H) (H.sha256 k.secret) ∧ (k.str H).length = 64 ∧ BytesText (x.str H) (H.sha256 x.key.secret) ∧
    x.repr H = List.flatten ["BIP32PrivateKey(\"".toList, x.str H, "\")".toList] ∧
    ∀ y : BIP32PrivateKey, H.sha256 y.key.secret = H.sha256 x.key.secret ↔ y.repr H = x.repr H := by
  refine ⟨hex_text _, ?_, hex_text _, by rw [BIP32PrivateKey.repr, fstring], fun y => ?_⟩
  · rw [PrivateKey.str, hex_length, H.sha256_length]
  · rw [BIP32PrivateKey.repr, BIP32PrivateKey.repr, BIP32PrivateKey.str, BIP32PrivateKey.str, PrivateKey.str, PrivateKey.str]
    constructor
    · intro h; rw [h]
    · intro h
      have := cut_last (cut_first h)
      exact bytesText_unique (hex_text _) (this ▸ hex_text _)

/-- C106: the text of a public key is its bytes, and reads back as it; that of an extended one is its extended key
string, which reads back, and its `repr` has the same text in quotes. -/
theorem C106_public (H : Hashes) (L : Secp) (p : PublicKey L) (hp : PubValid p) (x : BIP32PublicKey L) (hx : XpubValid x)
    (hd : x.derivation.depth ≤ 255) (hc : x.key.coin ∈ all_coins) :
    BytesText p.str p.to_bytes ∧
    PublicKey.from_hex L p.str = .ok { point := p.point, compressed := p.compressed, coin := Bitcoin } ∧
    ∃ t coin, x.str H = .ok t ∧ coin ∈ all_coins ∧ SameVersions coin x.key.coin ∧
      bip32_key_from_string H L t = .ok (.pub (withCoinPub x coin)) ∧
      x.repr H = .ok (List.flatten ["BIP32PublicKey(\"".toList, t, "\")".toList]) := by
  obtain ⟨t, coin, h1, h2, h3, h4⟩ := C65_public H L x hx hd hc
  refine ⟨hex_text _, (C78_bytes L p hp none).2, t, coin, h1, h2, h3, h4, ?_⟩
  rw [BIP32PublicKey.repr, h1, ok_bind', fstring, pure_ok']

/-! ## Signatures -/

/-- C106: the text of a transaction signature is the digits of its DER bytes and, in brackets, the words of its
sighash; it tells the signature. -/
theorem C106_signature (L : Secp) (raw : Bytes) (h : Signature.new L raw = .ok raw) :
    (∃ der t w, raw = der ++ [t] ∧ BytesText w der ∧
      Signature.to_string raw = w ++ '[' :: (SigHash.to_string t.toNat ++ [']'])) ∧
    ∀ raw', Signature.new L raw' = .ok raw' → Signature.to_string raw' = Signature.to_string raw → raw' = raw := by
  have key : ∀ raw, Signature.new L raw = .ok raw → ∃ der t w, raw = der ++ [t] ∧ BytesText w der ∧
      Signature.to_string raw = w ++ '[' :: (SigHash.to_string t.toNat ++ [']']) := by
    intro raw h
    have hne : raw ≠ [] := by
      rintro rfl
      have hm : ¬ ([] : Bytes) = MISSING_SIG_BYTES := by decide
      simp only [Signature.new, hm, if_false, bind_eq_ok] at h
      obtain ⟨s, hs, -⟩ := h
      have := der_length L _ s hs
      simp [dropEnd] at this
    obtain ⟨der, t, rfl⟩ : ∃ der t, raw = der ++ [t] := ⟨_, _, (List.dropLast_append_getLast hne).symm⟩
    refine ⟨der, t, hex der, rfl, hex_text _, ?_⟩
    simp [Signature.to_string, dropEnd]
  refine ⟨key raw h, fun raw' h' e => ?_⟩
  obtain ⟨der, t, w, rfl, hw, e1⟩ := key raw h
  obtain ⟨der', t', w', rfl, hw', e2⟩ := key raw' h'
  rw [e1, e2] at e
  have hb : '[' ∉ hexAlphabet := by decide
  obtain ⟨rfl, e3⟩ := cut_at (bytesText_no_mark hw' _ hb) (bytesText_no_mark hw _ hb) e
  have e4 := C56_injective _ _ (List.append_cancel_right e3)
  rw [bytesText_unique hw' hw, UInt8.toNat_inj.1 e4]

/-- A signature that is missing prints as one too. -/
example : Signature.new toySecp [0xff] = .ok [0xff] ∧
    Signature.to_string [0xff] = "[SINGLE|ANYONE_CAN_PAY|FORKID|0x3c]".toList ∧
    Signature.to_string [0x30, 0x06, 0x41] = "3006[ALL|FORKID]".toList := by decide +kernel

example : (Header.mk (-255) [0x12, 0xab] [0xcd] 1231006505 0x1d00ffff 7 [1, 2] [] (-1)).str =
      "Header(version=0x-ff, prev_hash=ab12, merkle_root=cd, timestamp=1231006505, bits=0x486604799, nonce=7, hash=0201, height=-1)".toList ∧
    (TxOutput.mk 5 [0x6a, 0xff]).repr = "TxOutput(value=5, script_pubkey=\"6aff\")".toList ∧
    (TxInput.mk [1, 2] 0 [] 9).repr = "TxInput(prev_hash=\"0201\", prev_idx=0, script_sig=\"\", sequence=9)".toList ∧
    (BIP32Derivation.mk [1] (-2) 30 [4]).repr =
      "BIP32Derivation(chain_code=bytes.fromhex(\"01\"), n=-2, depth=30, parent_fingerprint=bytes.fromhex(\"04\"))".toList := by
  decide +kernel

/-- The genesis header of the main network meets the hypotheses of `C106_header_determined` and `C106_bits_misprinted`, and the
text of its proof of work, were it insufficient, can be made. -/
example : ∃ h, deserialized_header toyHashes Bitcoin.genesis_header 0 = .ok h ∧ 10 ≤ h.bits ∧
    ∃ t, InsufficientPoW.str h = .ok t := by
  have : ∃ h, deserialized_header toyHashes Bitcoin.genesis_header 0 = .ok h ∧ h.bits = 0x1d00ffff := by
    have e : (deserialized_header toyHashes Bitcoin.genesis_header 0).map (·.bits) = .ok 0x1d00ffff := by decide +kernel
    cases h : deserialized_header toyHashes Bitcoin.genesis_header 0 with
    | error _ => rw [h] at e; cases e
    | ok hd => rw [h] at e; exact ⟨hd, rfl, Except.ok.inj e⟩
  obtain ⟨h, h1, h2⟩ := this
  refine ⟨h, h1, by omega, (C106_insufficient h).2.2 ⟨0x1d00ffff, h2, ?_⟩⟩
  right; decide +kernel

end Bitcoinx
