import Verif.Lemmas.Mnemonic
import Verif.Props.Packing

/-! # Hexadecimal numbers of eight digits -/

namespace Bitcoinx
open Spec

/-- The value of a hexadecimal text. -/
def hexNum (t : Str) : Nat := t.foldl (fun acc c => acc * 16 + (hexValue c).getD 0) 0

/-- The lowest digits of a number. -/
def fixedHex : Nat → Nat → Str
  | 0, _ => []
  | w + 1, n => fixedHex w (n / 16) ++ [Nat.digitChar (n % 16)]

theorem fixedHex_length (w n : Nat) : (fixedHex w n).length = w := by
  induction w generalizing n with
  | zero => rfl
  | succ w ih => simp [fixedHex, ih]

theorem fixedHex_zero (w : Nat) : fixedHex w 0 = List.replicate w '0' := by
  induction w with
  | zero => rfl
  | succ w ih =>
    rw [fixedHex, Nat.zero_div, ih, List.replicate_succ']
    rfl

theorem toDigits_fixedHex (w n : Nat) (h : n < 16 ^ (w + 1)) :
    List.replicate (w + 1 - (Nat.toDigits 16 n).length) '0' ++ Nat.toDigits 16 n = fixedHex (w + 1) n := by
  induction w generalizing n with
  | zero =>
    have : n < 16 := by simpa using h
    rw [Nat.toDigits_eq_if (by norm_num), if_pos this, fixedHex, fixedHex, Nat.mod_eq_of_lt this]
    rfl
  | succ w ih =>
    rw [Nat.toDigits_eq_if (by norm_num)]
    split
    · next hn =>
      rw [fixedHex, Nat.div_eq_of_lt hn, fixedHex_zero, Nat.mod_eq_of_lt hn]
      rfl
    · next hn =>
      have h1 := ih (n / 16) (Nat.div_lt_of_lt_mul (by rw [pow_succ] at h; rwa [mul_comm]))
      rw [fixedHex, ← h1]
      simp

theorem hex08_eq (n : Nat) (h : n < 2 ^ 32) : hex08 n = fixedHex 8 n :=
  toDigits_fixedHex 7 n (h.trans_eq (by norm_num))

theorem hexDigits_spec : ∀ c ∈ hexDigits, c.toNat < 127 ∧ isAsciiSpace c = false ∧ c ≠ '-' ∧ c ≠ '+' ∧ c ≠ 'x' ∧
    c ≠ 'X' ∧ c ≠ '_' ∧ (hexValue c).isSome = true ∧ (hexValue c).getD 0 < 16 ∧
    Nat.digitChar ((hexValue c).getD 0) = c.toLower ∧ c.toLower ∈ hexAlphabet := by decide

theorem hexAlphabet_lower : ∀ c ∈ hexAlphabet, c ∈ hexDigits ∧ c.toLower = c ∧
    digitOf hexAlphabet c = some ((hexValue c).getD 0) := by decide

theorem digitChar_spec : ∀ n : Fin 16, Nat.digitChar n.1 ∈ hexAlphabet ∧
    (hexValue (Nat.digitChar n.1)).getD 0 = n.1 := by decide

theorem fixedHex_over (w n : Nat) : Over hexAlphabet (fixedHex w n) := by
  induction w generalizing n with
  | zero => intro c hc; cases hc
  | succ w ih =>
    intro c hc
    rw [fixedHex] at hc
    rcases List.mem_append.1 hc with hc | hc
    · exact ih _ c hc
    · cases List.mem_singleton.1 hc
      exact (digitChar_spec ⟨n % 16, Nat.mod_lt _ (by norm_num)⟩).1

theorem hexNum_snoc (t : Str) (c : Char) : hexNum (t ++ [c]) = hexNum t * 16 + (hexValue c).getD 0 := by
  simp [hexNum]

theorem hexNum_fixedHex (w n : Nat) (h : n < 16 ^ w) : hexNum (fixedHex w n) = n := by
  induction w generalizing n with
  | zero => simp at h; subst h; rfl
  | succ w ih =>
    rw [fixedHex, hexNum_snoc, ih _ (Nat.div_lt_of_lt_mul (by rw [pow_succ] at h; rwa [mul_comm])),
      (digitChar_spec ⟨n % 16, Nat.mod_lt _ (by norm_num)⟩).2]
    simp only
    omega

theorem fixedHex_hexNum (t : Str) (h : Over hexDigits t) : fixedHex t.length (hexNum t) = t.map Char.toLower := by
  induction t using List.reverseRecOn with
  | nil => rfl
  | append_singleton t c ih =>
    obtain ⟨_, _, _, _, _, _, _, _, h1, h2, _⟩ := hexDigits_spec c (h c (by simp))
    rw [hexNum_snoc, List.length_append, List.length_singleton, fixedHex]
    rw [show (hexNum t * 16 + (hexValue c).getD 0) / 16 = hexNum t by omega,
      show (hexNum t * 16 + (hexValue c).getD 0) % 16 = (hexValue c).getD 0 by omega,
      ih (fun x hx => h x (by simp [hx])), h2]
    simp

theorem hexNum_lt (t : Str) (h : Over hexDigits t) : hexNum t < 16 ^ t.length := by
  induction t using List.reverseRecOn with
  | nil => simp [hexNum]
  | append_singleton t c ih =>
    obtain ⟨_, _, _, _, _, _, _, _, h1, _, _⟩ := hexDigits_spec c (h c (by simp))
    have := ih (fun x hx => h x (by simp [hx]))
    rw [hexNum_snoc, List.length_append, List.length_singleton, pow_succ]
    omega

theorem numeral_hexNum (t : Str) (h : Over hexAlphabet t) : numeral hexAlphabet t = some (hexNum t) := by
  have hl : hexAlphabet.length = 16 := by decide
  have key : ∀ (t : Str) (acc : Nat), t.foldl (fun acc c => acc * 16 + (hexValue c).getD 0) acc =
      acc * 16 ^ t.length + hexNum t := by
    intro t
    induction t with
    | nil => intro acc; simp [hexNum]
    | cons c cs ih =>
      intro acc
      simp only [hexNum, List.foldl_cons, List.length_cons] at ih ⊢
      rw [ih, ih (0 * 16 + _), pow_succ]
      ring
  induction t with
  | nil => rfl
  | cons c cs ih =>
    obtain ⟨_, _, hd⟩ := hexAlphabet_lower c (h c (by simp))
    rw [numeral, hd, ih (fun x hx => h x (by simp [hx]))]
    simp only [Option.bind_eq_bind, Option.bind_some, Option.pure_def, hl]
    rw [show hexNum (c :: cs) = _ from key cs (0 * 16 + (hexValue c).getD 0)]
    simp

theorem numeral_over {t : Str} {n : Nat} (h : numeral hexAlphabet t = some n) : Over hexAlphabet t := by
  induction t generalizing n with
  | nil => intro c hc; cases hc
  | cons c cs ih =>
    simp only [numeral, Option.bind_eq_bind, Option.bind_eq_some_iff] at h
    obtain ⟨d, hd, r, hr, _⟩ := h
    intro x hx
    rcases List.mem_cons.1 hx with rfl | hx
    · by_contra hn
      have : ∀ (al : Str), x ∉ al → digitOf al x = none := by
        intro al
        induction al with
        | nil => intro _; rfl
        | cons a al ih =>
          intro hx
          rw [List.mem_cons, not_or] at hx
          rw [digitOf, if_neg (fun h => hx.1 h.symm), ih hx.2]
          rfl
      rw [this _ hn] at hd
      cases hd
    · exact ih hr x hx

theorem splitCharLoop_none (sep : Char) (t acc : Str) (h : sep ∉ t) : splitCharLoop sep acc t = [acc ++ t] := by
  induction t generalizing acc with
  | nil => simp [splitCharLoop]
  | cons c cs ih =>
    rw [List.mem_cons, not_or] at h
    rw [splitCharLoop, if_neg (fun hc => h.1 hc.symm), ih _ h.2]
    simp

theorem dropWhile_none {t : Str} {p : Char → Bool} (h : ∀ c ∈ t, p c = false) : t.dropWhile p = t := by
  cases t with
  | nil => rfl
  | cons c cs => rw [List.dropWhile_cons_of_neg (by simp [h c (by simp)])]

/-- Hexadecimal digits are read as the number they denote. -/
theorem intBase16_digits (P : PyText) (t : Str) (hne : t ≠ []) (h : Over hexDigits t) :
    intBase16 P t = .ok (hexNum t) := by
  have hs := fun c hc => hexDigits_spec c (h c hc)
  have h1 : asciiDigits P t = t := by
    conv_rhs => rw [← List.map_id t]
    exact List.map_congr_left fun c hc => if_pos (hs c hc).1
  have h2 : ((t.dropWhile isAsciiSpace).reverse.dropWhile isAsciiSpace).reverse = t := by
    rw [dropWhile_none (fun c hc => (hs c hc).2.1), dropWhile_none (fun c hc => (hs c (by simpa using hc)).2.1),
      List.reverse_reverse]
  have h3 : t.head? ≠ some '-' := fun hh => (hs _ (List.mem_of_mem_head? hh)).2.2.1 rfl
  have h4 : t.head? ≠ some '+' := fun hh => (hs _ (List.mem_of_mem_head? hh)).2.2.2.1 rfl
  have h5 : t.take 2 ≠ ['0', 'x'] := fun hh =>
    (hs 'x' (List.mem_of_mem_take (i := 2) (by rw [hh]; simp))).2.2.2.2.1 rfl
  have h6 : t.take 2 ≠ ['0', 'X'] := fun hh =>
    (hs 'X' (List.mem_of_mem_take (i := 2) (by rw [hh]; simp))).2.2.2.2.2.1 rfl
  have h7 : hexGroups t = some (hexNum t) := by
    have hu : splitChar '_' t = [t] := by
      rw [splitChar, splitCharLoop_none _ _ _ (fun hh => (hs _ hh).2.2.2.2.2.2.1 rfl), List.nil_append]
    rw [hexGroups]
    rw [hu, if_pos, List.flatten_singleton]
    · rfl
    · simp only [List.all_cons, List.all_nil, Bool.and_true, Bool.and_eq_true, decide_eq_true_eq, List.all_eq_true]
      exact ⟨by simpa using hne, fun c hc => (hs c hc).2.2.2.2.2.2.2.1⟩
  rw [intBase16]
  rw [h1, h2, if_neg (show ¬ (t.head? = some '-' ∨ t.head? = some '+') from fun h => h.elim h3 h4),
    if_neg (show ¬ (t.take 2 = ['0', 'x'] ∨ t.take 2 = ['0', 'X']) from fun h => h.elim h5 h6), h7]
  simp only
  rw [if_neg (by simpa using h3)]

/-! ## Blocks -/

/-- Texts of eight characters are determined by their concatenation. -/
theorem blocks_inj {a b : List Str} (ha : ∀ t ∈ a, t.length = 8) (hb : ∀ t ∈ b, t.length = 8)
    (h : a.flatten = b.flatten) : a = b := by
  induction a generalizing b with
  | nil =>
    cases b with
    | nil => rfl
    | cons y ys =>
      have := congrArg List.length h
      have h8 := hb y (by simp)
      simp [h8] at this
      omega
  | cons x xs ih =>
    have h8 := ha x (by simp)
    cases b with
    | nil =>
      have := congrArg List.length h
      simp [h8] at this
    | cons y ys =>
      have h8' := hb y (by simp)
      rw [List.flatten_cons, List.flatten_cons] at h
      obtain ⟨h1, h2⟩ := List.append_inj h (h8.trans h8'.symm)
      rw [h1, ih (fun t ht => ha t (by simp [ht])) (fun t ht => hb t (by simp [ht])) h2]

theorem flatten_length8 {a : List Str} (ha : ∀ t ∈ a, t.length = 8) : a.flatten.length = 8 * a.length := by
  induction a with
  | nil => rfl
  | cons x xs ih =>
    rw [List.flatten_cons, List.length_append, ha x (by simp), ih (fun t ht => ha t (by simp [ht])), List.length_cons]
    omega

theorem chunks8 (t : Str) (k : Nat) (h : t.length = 8 * k) :
    ∃ cs, chunks t 8 = .ok cs ∧ cs.flatten = t ∧ cs.length = k ∧ ∀ c ∈ cs, c.length = 8 := by
  obtain ⟨cs, h1, h2, _, _, h5⟩ := C73_chunks t 8 (by norm_num)
  refine ⟨cs, h1, h2, by rw [h5, h]; omega, ?_⟩
  intro c hc
  rw [chunks, if_neg (by norm_num)] at h1
  cases h1
  obtain ⟨j, hj, rfl⟩ := List.mem_map.1 hc
  have := List.mem_range.1 hj
  simp only [slice, List.length_drop, List.length_take]
  rw [h] at this ⊢
  omega

theorem chunks_blocks (a : List Str) (ha : ∀ t ∈ a, t.length = 8) : chunks a.flatten 8 = .ok a := by
  obtain ⟨cs, h1, h2, _, h4⟩ := chunks8 a.flatten a.length (flatten_length8 ha)
  rw [h1, blocks_inj h4 ha h2]

end Bitcoinx
