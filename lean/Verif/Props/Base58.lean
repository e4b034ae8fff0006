import Verif.Lemmas.Text

/-! # C06-C10: hash display strings, base58, Base58Check, minikeys -/

namespace Bitcoinx
open Spec

/-! ## C06 -/

theorem hexDigit_spec : ∀ n : Fin 16, hexValue (hexDigit n) = some n.val ∧
    isAsciiSpace (hexDigit n) = false ∧ digitOf hexAlphabet (hexDigit n) = some n.val ∧
    hexDigit n ∈ hexAlphabet := by decide

theorem hexAlphabet_spec : ∀ c ∈ hexAlphabet, ∃ n : Fin 16, c = hexDigit n := by decide

theorem hex_byte (h l : Fin 16) :
    (UInt8.ofNat (h.val * 16 + l.val)).toNat / 16 = h.val ∧
    (UInt8.ofNat (h.val * 16 + l.val)).toNat % 16 = l.val := by
  have h1 := h.isLt
  have h2 := l.isLt
  rw [UInt8.toNat_ofNat']
  omega

theorem fromhex_hex_append (b : Bytes) (s : Str) :
    fromhex (hex b ++ s) = (fromhex s).map (b ++ ·) := by
  induction b with
  | nil => cases h : fromhex s <;> simp [hex, h, Except.map]
  | cons x xs ih =>
    have hx := x.toNat_lt
    obtain ⟨h1, h2, _⟩ := hexDigit_spec ⟨x.toNat / 16, by omega⟩
    obtain ⟨h3, h4, _⟩ := hexDigit_spec ⟨x.toNat % 16, by omega⟩
    simp only at h1 h2 h3 h4
    have hval : UInt8.ofNat (x.toNat / 16 * 16 + x.toNat % 16) = x := by
      rw [show x.toNat / 16 * 16 + x.toNat % 16 = x.toNat by omega]; simp
    simp only [hex, List.cons_append, fromhex, h1, h2, h3, ih, hval, Bool.false_eq_true, if_false]
    cases fromhex s <;> simp [Except.map]

theorem fromhex_hex (b : Bytes) : fromhex (hex b) = .ok b := by
  have := fromhex_hex_append b []
  simpa [fromhex, Except.map] using this

theorem hex_length (b : Bytes) : (hex b).length = 2 * b.length := by
  induction b with
  | nil => rfl
  | cons x xs ih => simp [hex, ih]; omega

theorem hex_over (b : Bytes) : Over hexAlphabet (hex b) := by
  induction b with
  | nil => intro c hc; simp [hex] at hc
  | cons x xs ih =>
    have hx := x.toNat_lt
    intro c hc
    simp only [hex, List.mem_cons] at hc
    rcases hc with rfl | rfl | hc
    · exact (hexDigit_spec ⟨x.toNat / 16, by omega⟩).2.2.2
    · exact (hexDigit_spec ⟨x.toNat % 16, by omega⟩).2.2.2
    · exact ih c hc

theorem numeral_hex (b : Bytes) : numeral hexAlphabet (hex b) = some (beValue b) := by
  induction b with
  | nil => rfl
  | cons x xs ih =>
    have hx := x.toNat_lt
    obtain ⟨_, _, h1, _⟩ := hexDigit_spec ⟨x.toNat / 16, by omega⟩
    obtain ⟨_, _, h3, _⟩ := hexDigit_spec ⟨x.toNat % 16, by omega⟩
    simp only at h1 h3
    have hl : hexAlphabet.length = 16 := by decide
    simp only [hex, numeral, h1, h3, ih, hl, hex_length, List.length_cons, Option.bind_eq_bind,
      Option.bind_some, Option.pure_def, beValue, Option.some.injEq]
    rw [show (256 : Nat) ^ xs.length = 16 ^ (2 * xs.length) by rw [pow_mul]; norm_num, pow_succ]
    generalize 16 ^ (2 * xs.length) = M
    have : x.toNat / 16 * 16 + x.toNat % 16 = x.toNat := by omega
    calc _ = (x.toNat / 16 * 16 + x.toNat % 16) * M + beValue xs := by ring
    _ = _ := by rw [this]

/-- Binary to display and back. -/
theorem C06_hash_hex_hash (x : Bytes) : hex_str_to_hash (hash_to_hex_str x) = .ok x := by
  simp [hex_str_to_hash, hash_to_hex_str, fromhex_hex]

/-- Display to binary and back, for every lower-case hex text of even length. -/
theorem C06_hex_hash_hex (s : Str) (hs : Over hexAlphabet s) (he : s.length % 2 = 0) :
    ∃ x, hex_str_to_hash s = .ok x ∧ hash_to_hex_str x = s := by
  have key : ∀ n (s : Str), s.length = 2 * n → Over hexAlphabet s → ∃ b, s = hex b := by
    intro n
    induction n with
    | zero => intro s h _; exact ⟨[], by simpa [hex] using h⟩
    | succ n ih =>
      intro s h ho
      match s, h with
      | c :: d :: rest, h =>
        obtain ⟨b, hb⟩ := ih rest (by simp at h; omega) (fun e he => ho e (by simp [he]))
        obtain ⟨i, hi⟩ := hexAlphabet_spec c (ho c (by simp))
        obtain ⟨j, hj⟩ := hexAlphabet_spec d (ho d (by simp))
        refine ⟨UInt8.ofNat (i.val * 16 + j.val) :: b, ?_⟩
        rw [hex, (hex_byte i j).1, (hex_byte i j).2, hb, ← hi, ← hj]
  obtain ⟨b, rfl⟩ := key (s.length / 2) s (by omega) hs
  exact ⟨b.reverse, by simp [hex_str_to_hash, fromhex_hex], by simp [hash_to_hex_str]⟩

/-- The display form: two lower-case hex digits per byte, denoting in base 16 the little-endian
value of the hash, which is what `hash_to_value` returns.  (These three facts determine it.) -/
theorem C06_display (x : Bytes) :
    (hash_to_hex_str x).length = 2 * x.length ∧ Over hexAlphabet (hash_to_hex_str x) ∧
    numeral hexAlphabet (hash_to_hex_str x) = some (leValue x) ∧ hash_to_value x = leValue x := by
  refine ⟨by simp [hash_to_hex_str, hex_length], hex_over _, ?_, le_bytes_to_int_eq x⟩
  rw [hash_to_hex_str, numeral_hex, beValue_reverse]

theorem fromhex_error {t : Str} {e : Err} (h : fromhex t = .error e) : e = .valueError := by
  induction t using fromhex.induct generalizing e with
  | case1 => rw [fromhex] at h; cases h
  | case2 c cs hc ih => rw [fromhex.eq_def] at h; simp only [hc, if_true] at h; exact ih h
  | case3 c hc => rw [fromhex.eq_def] at h; simp only [hc] at h; cases h; rfl
  | case4 c hc d ds a b ha hb ih =>
    rw [fromhex, if_neg hc] at h
    simp only [ha, hb] at h
    rcases bind_eq_error.mp h with h | ⟨_, _, h⟩
    · exact ih h
    · cases h
  | case5 c hc d ds hn =>
    rw [fromhex, if_neg hc] at h
    simp only at h
    cases h; rfl

/-- Whatever text is accepted, the bytes display as that text without its whitespace and in lower
case; a text with any other character or an odd number of digits raises `ValueError`. -/
theorem C06_accepts (s : Str) :
    (∀ x, hex_str_to_hash s = .ok x →
      hash_to_hex_str x = (s.filter (fun c => c.toNat ≠ 32 ∧ ¬ (9 ≤ c.toNat ∧ c.toNat ≤ 13))).map Char.toLower) ∧
    (∀ e, hex_str_to_hash s = .error e → e = .valueError) := by
  have hspace : (fun c : Char => decide (c.toNat ≠ 32 ∧ ¬ (9 ≤ c.toNat ∧ c.toNat ≤ 13))) =
      fun c => !isAsciiSpace c := by
    funext c
    have key : ∀ k : Fin 128, decide ((Char.ofNat k.val).toNat ≠ 32 ∧
        ¬ (9 ≤ (Char.ofNat k.val).toNat ∧ (Char.ofNat k.val).toNat ≤ 13)) = !isAsciiSpace (Char.ofNat k.val) := by
      decide
    by_cases hc : c.toNat < 128
    · simpa using key ⟨c.toNat, hc⟩
    · have h1 : isAsciiSpace c = false := by
        unfold isAsciiSpace
        simp only [Bool.or_eq_false_iff, beq_eq_false_iff_ne, ne_eq]
        refine ⟨⟨⟨⟨⟨?_, ?_⟩, ?_⟩, ?_⟩, ?_⟩, ?_⟩ <;> (rintro rfl; exact hc (by decide))
      rw [h1]
      simp only [Bool.not_false, decide_eq_true_eq]
      omega
  rw [hspace]
  have hv : ∀ c n, hexValue c = some n → n < 16 ∧ hexDigit n = c.toLower := by
    intro c n h
    have key : ∀ k : Fin 128, ∀ n, hexValue (Char.ofNat k.val) = some n →
        n < 16 ∧ hexDigit n = (Char.ofNat k.val).toLower := by
      intro k
      have : ∀ k : Fin 128, (hexValue (Char.ofNat k.val)).all
          (fun n => n < 16 ∧ hexDigit n = (Char.ofNat k.val).toLower) = true := by decide
      intro n hn
      have := this k
      rw [hn] at this
      simpa using this
    have hc : c.toNat < 128 := by
      have le : ∀ {a b : Char}, a ≤ b → a.toNat ≤ b.toNat := fun h => h
      unfold hexValue at h
      split at h
      · next hh => have := le hh.2; simp at this; omega
      · split at h
        · next hh => have := le hh.2; simp at this; omega
        · split at h
          · next hh => have := le hh.2; simp at this; omega
          · simp at h
    have := key ⟨c.toNat, hc⟩ n (by simpa using h)
    simpa using this
  have main : ∀ k (s : Str), s.length ≤ k → (∀ x, fromhex s = .ok x →
      hex x = (s.filter (fun c => !isAsciiSpace c)).map Char.toLower) ∧
      (∀ e, fromhex s = .error e → e = .valueError) := by
    intro k
    induction k with
    | zero =>
      intro s hk
      have : s = [] := by simpa using hk
      subst this
      simp [fromhex, hex]
    | succ k ih =>
      intro s hk
      match s with
      | [] => simp [fromhex, hex]
      | c :: cs =>
        by_cases hsp : isAsciiSpace c = true
        · have := ih cs (by simp at hk; omega)
          rw [fromhex.eq_def]
          simp only [hsp, if_true, List.filter_cons, Bool.not_true, Bool.false_eq_true, if_false]
          exact this
        · have hsp' : isAsciiSpace c = false := by simpa using hsp
          match cs with
          | [] => simp [fromhex, hsp']
          | d :: ds =>
            have ihd := ih ds (by simp at hk; omega)
            rw [fromhex.eq_def]
            simp only [hsp', Bool.false_eq_true, if_false]
            cases hc : hexValue c with
            | none => simp
            | some h =>
              cases hd : hexValue d with
              | none => simp
              | some l =>
                obtain ⟨hh, hcl⟩ := hv c h hc
                obtain ⟨hl, hdl⟩ := hv d l hd
                have hb := hex_byte ⟨h, hh⟩ ⟨l, hl⟩
                have hspd : isAsciiSpace d = false := by
                  by_contra hne
                  have : isAsciiSpace d = true := by simpa using hne
                  unfold isAsciiSpace at this
                  simp only [Bool.or_eq_true, beq_iff_eq] at this
                  rcases this with ((((rfl | rfl) | rfl) | rfl) | rfl) | rfl <;> simp [hexValue] at hd
                simp only
                constructor
                · intro x hx
                  rw [bind_eq_ok] at hx
                  obtain ⟨r, hr, hx⟩ := hx
                  simp only [pure_ok', Except.ok.injEq] at hx
                  subst hx
                  simp only [hex, hb.1, hb.2, ihd.1 r hr, hcl, hdl, List.filter_cons, hsp', hspd,
                    Bool.not_false, if_true, List.map_cons]
                · intro e he
                  rw [bind_eq_error] at he
                  rcases he with he | ⟨_, _, he⟩
                  · exact ihd.2 e he
                  · simp at he
  obtain ⟨h1, h2⟩ := main s.length s (Nat.le_refl _)
  constructor
  · intro x hx
    simp only [hex_str_to_hash, bind_eq_ok, pure_ok', Except.ok.injEq] at hx
    obtain ⟨r, hr, rfl⟩ := hx
    simp [hash_to_hex_str, h1 r hr]
  · intro e he
    simp only [hex_str_to_hash, bind_eq_error, pure_ok', reduceCtorEq, and_false, exists_false,
      or_false] at he
    exact h2 e he

example : hash_to_hex_str [0x0a, 0xff, 0x01] = "01ff0a".toList ∧
    hash_to_value [0x0a, 0xff, 0x01] = 0x01ff0a ∧
    hex_str_to_hash "01 FF0a".toList = .ok [0x0a, 0xff, 0x01] ∧
    hex_str_to_hash "01f".toList = .error .valueError := by decide +kernel

/-! ## C07 -/

/-- Decoding inverts encoding for every non-empty byte string. -/
theorem C07_decode_encode (b : Bytes) (h : b ≠ []) : base58_decode (base58_encode b) = .ok b :=
  base58_decode_encode b h

/-- The empty string encodes to the empty text, which does not decode. -/
theorem C07_empty : base58_encode [] = [] ∧ base58_decode [] = .error .base58Error := by
  constructor
  · simp [base58_encode, base58Loop, be_bytes_to_int]
  · rfl

theorem digitOf_b58 {c : Char} (h : c ∈ base58Alphabet) : digitOf base58Alphabet c = some (b58idx c) := by
  have : ∀ c ∈ base58Alphabet, digitOf base58Alphabet c = some (b58idx c) := by decide +kernel
  exact this c h

theorem numeral_b58 (t : Str) (h : Over base58Alphabet t) : numeral base58Alphabet t = some (b58val t) := by
  induction t with
  | nil => rfl
  | cons c cs ih =>
    have hl : base58Alphabet.length = 58 := by decide
    simp only [numeral, digitOf_b58 (h c (by simp)), ih (fun d hd => h d (by simp [hd])), hl,
      Option.bind_eq_bind, Option.bind_some, Option.pure_def, Option.some.injEq, b58val,
      List.map_cons, List.reverse_cons, Nat.ofDigits_append, List.length_reverse, List.length_map,
      Nat.ofDigits_singleton]
    ring

/-- What the text means: a numeral in base 58 for the big-endian value of the bytes, with exactly
one leading '1' per leading zero byte. -/
theorem C07_denotes (b : Bytes) :
    Over base58Alphabet (base58_encode b) ∧
    numeral base58Alphabet (base58_encode b) = some (beValue b) ∧
    leading '1' (base58_encode b) = leading 0 b := by
  have henc := base58_encode_eq b
  have hmem : Over base58Alphabet (base58_encode b) := by
    rw [henc]
    intro c hc
    rcases List.mem_append.1 hc with hc | hc
    · rw [List.eq_of_mem_replicate hc]; decide
    · exact digits_text_mem _ c hc
  refine ⟨hmem, ?_, ?_⟩
  · rw [numeral_b58 _ hmem, b58val, henc, List.map_append, List.map_replicate, b58idx_one,
      List.map_reverse, map_idx_ch_digits, List.reverse_append, List.reverse_reverse,
      List.reverse_replicate, ofDigits_replicate_zero_append, Nat.ofDigits_digits]
  · rw [henc, leading_replicate_append _ _ _ (leading_digits_text _)]

example : base58_encode [0, 0, 1, 2] = "115T".toList := by decide +kernel

/-! ## C08 -/

/-- Exactly the non-empty texts over the alphabet are accepted; every other text raises
`Base58Error`. -/
theorem C08_accepts (t : Str) :
    ((t ≠ [] ∧ Over base58Alphabet t) → ∃ b, base58_decode t = .ok b) ∧
    (¬ (t ≠ [] ∧ Over base58Alphabet t) → base58_decode t = .error .base58Error) := by
  constructor
  · rintro ⟨h1, h2⟩
    exact ⟨_, base58_decode_ok t h1 h2⟩
  · intro h
    by_cases hne : t = []
    · subst hne; rfl
    · have hm : ¬ ∀ c ∈ t, c ∈ base58_chars := fun hm => h ⟨hne, hm⟩
      have : t.isEmpty = false := by cases t <;> simp_all
      simp [base58_decode, this, base58Accumulate_err 0 t hm]

/-- Each accepted text is the encoding of what it decodes to, so two accepted texts never decode to
the same bytes. -/
theorem C08_canonical (t t' : Str) (b : Bytes) (h : base58_decode t = .ok b) :
    base58_encode b = t ∧ (base58_decode t' = .ok b → t' = t) := by
  refine ⟨(base58_encode_decode t b h).1, fun h' => ?_⟩
  rw [← (base58_encode_decode t b h).1, (base58_encode_decode t' b h').1]

example : base58_decode "115T".toList = .ok [0, 0, 1, 2] ∧
    base58_decode "0".toList = .error .base58Error := by decide +kernel

/-! ## C09 -/

theorem dropEnd_append_lastN {α : Type} (b : List α) (k : Nat) : dropEnd b k ++ lastN b k = b :=
  List.take_append_drop _ b

theorem double_sha256_length (H : Hashes) (x : Bytes) : (H.double_sha256 x).length = 32 :=
  H.sha256_length _

/-- `base58_decode_check` returns `p` exactly on `base58_encode_check(p)`; any other text raises
`Base58Error`. -/
theorem C09_check_iff (H : Hashes) (t : Str) :
    (∀ p, base58_decode_check H t = .ok p ↔ t = base58_encode_check H p) ∧
    ((¬ ∃ p, t = base58_encode_check H p) → base58_decode_check H t = .error .base58Error) := by
  have hfwd : ∀ p, base58_decode_check H t = .ok p → t = base58_encode_check H p := by
    intro p h
    simp only [base58_decode_check, bind_eq_ok] at h
    obtain ⟨b, hb, h⟩ := h
    split at h
    · simp at h
    · next hc =>
      simp only [pure_ok', Except.ok.injEq] at h
      subst h
      have hc := not_not.1 hc
      rw [base58_encode_check, ← hc, dropEnd_append_lastN]
      exact (base58_encode_decode t b hb).1.symm
  have hbwd : ∀ p, t = base58_encode_check H p → base58_decode_check H t = .ok p := by
    rintro p rfl
    have hl : ((H.double_sha256 p).take 4).length = 4 := by
      simp [double_sha256_length]
    have hne : p ++ (H.double_sha256 p).take 4 ≠ [] := by
      intro h
      have := congrArg List.length h
      simp [double_sha256_length] at this
    simp only [base58_decode_check, base58_encode_check, base58_decode_encode _ hne, ok_bind']
    have h1 : dropEnd (p ++ (H.double_sha256 p).take 4) 4 = p := by
      simp only [dropEnd, List.length_append, hl, Nat.add_sub_cancel]
      exact List.take_left' rfl
    have h2 : lastN (p ++ (H.double_sha256 p).take 4) 4 = (H.double_sha256 p).take 4 := by
      simp only [lastN, List.length_append, hl, Nat.add_sub_cancel]
      exact List.drop_left' rfl
    simp [h1, h2]
  refine ⟨fun p => ⟨hfwd p, hbwd p⟩, fun h => ?_⟩
  cases hd : base58_decode_check H t with
  | ok p => exact absurd ⟨p, hfwd p hd⟩ h
  | error e =>
    simp only [base58_decode_check, bind_eq_error] at hd
    rcases hd with hd | ⟨b, _, hd⟩
    · by_cases ha : t ≠ [] ∧ Over base58Alphabet t
      · obtain ⟨b, hb⟩ := (C08_accepts t).1 ha
        rw [hb] at hd; simp at hd
      · rw [(C08_accepts t).2 ha] at hd
        rw [← Except.error.inj hd]
    · split at hd
      · rw [← Except.error.inj hd]
      · simp at hd

/-- Round trip for every payload (the empty one included), and injectivity. -/
theorem C09_roundtrip (H : Hashes) (p q : Bytes) :
    base58_decode_check H (base58_encode_check H p) = .ok p ∧
    (base58_encode_check H p = base58_encode_check H q → p = q) := by
  have h := fun p => ((C09_check_iff H (base58_encode_check H p)).1 p).2 rfl
  refine ⟨h p, fun he => ?_⟩
  have h1 := h p
  rw [he, h q] at h1
  exact (Except.ok.inj h1).symm

/-- The checksum: a payload is accepted exactly when it is followed by the first four bytes of the double SHA-256
of it. -/
theorem C09_checksum (H : Hashes) (t : Str) (p : Bytes) :
    base58_decode_check H t = .ok p ↔ base58_decode t = .ok (p ++ (H.sha256 (H.sha256 p)).take 4) := by
  rw [(C09_check_iff H t).1 p, base58_encode_check, Hashes.double_sha256]
  have hne : p ++ (H.sha256 (H.sha256 p)).take 4 ≠ [] := by
    intro h
    have := congrArg List.length h
    simp [H.sha256_length] at this
  constructor
  · rintro rfl
    exact base58_decode_encode _ hne
  · intro h
    exact (base58_encode_decode t _ h).1.symm

example : base58_decode_check toyHashes (base58_encode_check toyHashes [0, 7]) = .ok [0, 7] :=
  (C09_roundtrip toyHashes [0, 7] []).1
example : base58_decode_check toyHashes "111".toList = .error .base58Error := by decide +kernel

/-! ## C10 -/

/-- The minikey rule, in terms of the ASCII codes of the text. -/
def Spec.IsMinikey (sha256 : Bytes → Bytes) (t : Str) : Prop :=
  (t.length = 22 ∨ t.length = 30) ∧ (∃ r, t = 'S' :: r) ∧ Over base58Alphabet t ∧
  ∃ r, sha256 (t.map (fun c => UInt8.ofNat c.toNat) ++ [63]) = 0 :: r

theorem utf8_ascii (t : Str) (h : ∀ c ∈ t, c.toNat < 128) :
    utf8 t = t.map (fun c => UInt8.ofNat c.toNat) := by
  induction t with
  | nil => rfl
  | cons c cs ih =>
    have hc : c.val.toNat ≤ 127 := by have := h c (by simp); unfold Char.toNat at this; omega
    have := ih (fun d hd => h d (by simp [hd]))
    unfold utf8 at this ⊢
    rw [List.flatMap_cons, this, String.utf8EncodeChar]
    simp only [hc, if_true, List.map_cons, List.cons_append, List.nil_append]
    rfl

theorem C10_is_minikey (H : Hashes) (t : Str) : is_minikey H t = true ↔ IsMinikey H.sha256 t := by
  unfold is_minikey IsMinikey
  have hb : t.all (fun c => (base58_cmap c).isSome) = true ↔ Over base58Alphabet t := by
    unfold Over
    simp only [List.all_eq_true]
    constructor
    · intro h c hc
      by_contra hn
      have := h c hc
      rw [base58_cmap_of_not_mem hn] at this
      simp at this
    · intro h c hc
      rw [base58_cmap_of_mem (h c hc)]; rfl
  simp only [Bool.and_eq_true, Bool.or_eq_true, beq_iff_eq]
  have hascii : Over base58Alphabet t → utf8 (t ++ ['?']) = t.map (fun c => UInt8.ofNat c.toNat) ++ [63] := by
    intro ho
    have hlt : ∀ c ∈ base58Alphabet, c.toNat < 128 := by decide
    rw [utf8_ascii]
    · simp
    · intro c hc
      rcases List.mem_append.1 hc with hc | hc
      · exact hlt c (ho c hc)
      · simp at hc; subst hc; decide
  constructor
  · rintro ⟨⟨⟨h1, h2⟩, h3⟩, h4⟩
    have ho := hb.1 h3
    refine ⟨h1, ?_, ho, ?_⟩
    · cases t with
      | nil => simp at h2
      | cons c cs => simp at h2; exact ⟨cs, by rw [h2]⟩
    · rw [hascii ho] at h4
      cases hs : H.sha256 (t.map (fun c => UInt8.ofNat c.toNat) ++ [63]) with
      | nil => rw [hs] at h4; simp at h4
      | cons x xs => rw [hs] at h4; simp at h4; exact ⟨xs, by rw [h4]⟩
  · rintro ⟨h1, ⟨r, h2⟩, h3, ⟨q, h4⟩⟩
    refine ⟨⟨⟨h1, by rw [h2]; rfl⟩, hb.2 h3⟩, ?_⟩
    rw [hascii h3, h4]; rfl

/-- The rule is satisfiable and refutable (with a suitable hash). -/
example : is_minikey { toyHashes with sha256 := fun _ => zeros 32, sha256_length := fun _ => rfl }
    ("SzavMBLoXU6kDrqtUVmffv".toList) = true ∧
    is_minikey { toyHashes with sha256 := fun _ => zeros 32, sha256_length := fun _ => rfl }
    ("SzavMBLoXU6kDrqtUVmff0".toList) = false := by decide +kernel

end Bitcoinx
