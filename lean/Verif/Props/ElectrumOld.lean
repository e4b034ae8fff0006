import Verif.Lemmas.Hex
import Verif.Lemmas.Wordlists
import Verif.Props.Bip39

/-! # C71: old Electrum seeds -/

namespace Bitcoinx
open Spec ElectrumMnemonic

/-! ## Three words -/

/-- The numbers of the words for a number. -/
def oldTriple (v : Nat) : List Nat :=
  [v % 1626, (v / 1626 % 1626 + v % 1626) % 1626, (v / 1626 / 1626 + (v / 1626 % 1626 + v % 1626) % 1626) % 1626]

theorem oldTriple_iff (v : Nat) (h : v < 2 ^ 32) (t : List Nat) : OldTriple v t ↔ t = oldTriple v := by
  constructor
  · rintro ⟨d1, d2, d3, h1, h2, h3, rfl, rfl⟩
    have e1 : (d1 + 1626 * d2 + 1626 ^ 2 * d3) % 1626 = d1 := by omega
    have e2 : (d1 + 1626 * d2 + 1626 ^ 2 * d3) / 1626 = d2 + 1626 * d3 := by omega
    have e3 : (d2 + 1626 * d3) % 1626 = d2 := by omega
    have e4 : (d2 + 1626 * d3) / 1626 = d3 := by omega
    rw [oldTriple, e1, e2, e3, e4]
    congr 1
    congr 1
    · omega
    · congr 1
      omega
  · rintro rfl
    refine ⟨v % 1626, v / 1626 % 1626, v / 1626 / 1626, by omega, by omega, by omega, by omega, ?_⟩
    rw [oldTriple]
    congr 1
    congr 1
    · omega
    · congr 1
      omega

theorem old_indices_value (P : PyText) (t : Str) (hl : t.length = 8) (h : Over hexDigits t) :
    old_indices P 1626 t = .ok (oldTriple (hexNum t)) := by
  have hne : t ≠ [] := by rintro rfl; cases hl
  rw [old_indices, intBase16_digits P t hne h, ok_bind', pure_ok', oldTriple]
  congr 1

theorem hexNum_lt32 {t : Str} (hl : t.length = 8) (h : Over hexDigits t) : hexNum t < 2 ^ 32 := by
  have := hexNum_lt t h
  rw [hl] at this
  exact this.trans_eq (by norm_num)

theorem old_parts_ok {vs : List Nat} {ts : List (List Nat)} (h : List.Forall₂ OldTriple vs ts)
    (hv : ∀ v ∈ vs, v < 2 ^ 32) : old_parts 1626 ts.flatten = .ok vs := by
  induction h with
  | nil => rfl
  | @cons v t vs ts h _ ih =>
    obtain ⟨d1, d2, d3, h1, h2, h3, h4, rfl⟩ := h
    have hlt := hv v (by simp)
    rw [List.flatten_cons, List.cons_append, List.cons_append, List.cons_append, List.nil_append, old_parts]
    have e : ((d1 : Nat) : Int) + 1626 * (((((d1 + d2) % 1626 : Nat) : Int) - ((d1 : Nat) : Int)) % 1626 + 1626 *
        (((((d1 + d2 + d3) % 1626 : Nat) : Int) - (((d1 + d2) % 1626 : Nat) : Int)) % 1626)) = (v : Int) := by
      have e1 : ((((d1 + d2) % 1626 : Nat) : Int) - ((d1 : Nat) : Int)) % 1626 = d2 := by omega
      have e2 : ((((d1 + d2 + d3) % 1626 : Nat) : Int) - (((d1 + d2) % 1626 : Nat) : Int)) % 1626 = d3 := by omega
      rw [e1, e2]
      omega
    rw [e, if_neg (by omega), ih (fun v hv' => hv v (by simp [hv'])), ok_bind', pure_ok', Int.toNat_natCast]

theorem old_parts_inv {is vs : List Nat} (hlt : ∀ i ∈ is, i < 1626) (h : old_parts 1626 is = .ok vs) :
    ∃ ts : List (List Nat), is = ts.flatten ∧ List.Forall₂ OldTriple vs ts ∧ ∀ v ∈ vs, v < 2 ^ 32 := by
  induction vs generalizing is with
  | nil =>
    match is, h with
    | [], _ => exact ⟨[], rfl, .nil, by simp⟩
    | [_], h => cases h
    | [_, _], h => cases h
    | i1 :: i2 :: i3 :: is, h =>
      rw [old_parts] at h
      split at h
      · cases h
      · obtain ⟨vs, _, h2⟩ := bind_eq_ok.mp h
        cases h2
  | cons v vs ih =>
    match is, h with
    | [_], h => cases h
    | [_, _], h => cases h
    | i1 :: i2 :: i3 :: is, h =>
      have l1 := hlt i1 (by simp)
      have l2 := hlt i2 (by simp)
      have l3 := hlt i3 (by simp)
      rw [old_parts] at h
      split at h
      · cases h
      · next hn =>
        obtain ⟨vs', h1, h2⟩ := bind_eq_ok.mp h
        cases h2
        obtain ⟨ts, e1, e2, e3⟩ := ih (fun i hi => hlt i (by simp [hi])) h1
        refine ⟨[i1, i2, i3] :: ts, by rw [e1]; rfl, .cons ?_ e2, ?_⟩
        · refine ⟨i1, ((i2 - i1 : Int) % 1626).toNat, ((i3 - i2 : Int) % 1626).toNat, l1, by omega, by omega, by omega, ?_⟩
          congr 1
          congr 1
          · omega
          · congr 1
            omega
        · intro v hv
          rcases List.mem_cons.1 hv with rfl | hv
          · omega
          · exact e3 v hv

/-- The only errors are `ValueError`. -/
theorem old_parts_error {n : Int} {is : List Nat} {e : Err} (h : old_parts n is = .error e) : e = .valueError := by
  match is, h with
  | [], h => cases h
  | [_], h => cases h; rfl
  | [_, _], h => cases h; rfl
  | i1 :: i2 :: i3 :: is, h =>
    rw [old_parts] at h
    split at h
    · cases h; rfl
    · rcases bind_eq_error.mp h with h | ⟨_, _, h⟩
      · exact old_parts_error h
      · cases h

/-! ## Mnemonics -/

theorem old_normal (U : PyUni) (ws : List Str) (h : ∀ w ∈ ws, Word U w) :
    normalize_old U (joinStr [' '] ws) = joinStr [' '] ws := by
  have h2 : ws.map U.case.lower = ws := by
    conv_rhs => rw [← List.map_id ws]
    exact List.map_congr_left fun w hw => (h w hw).lower
  rw [normalize_old, lower_join, h2, split_join' _ _ (fun w hw => ⟨(h w hw).ne_nil, (h w hw).no_space⟩)]

theorem old_split (U : PyUni) (m : Str) :
    U.text.split (normalize_old U m) = U.text.split (U.case.lower m) := by
  rw [normalize_old, split_join' _ _ (split_words _ _)]

theorem electrum_length_int : (original_electrum_wordlist.length : Int) = 1626 := by rw [electrum_length]; rfl

theorem mapAll_listIndex_iff {ws : List Str} {is : List Nat} :
    mapAll (listIndex original_electrum_wordlist) ws = .ok is ↔
      List.Forall₂ (fun i w => original_electrum_wordlist[i]? = some w) is ws := by
  constructor
  · intro h
    exact ((mapAll_inv h).imp fun _ _ h => listIndex_inv h).flip
  · intro h
    apply mapAll_ok
    exact (h.imp fun _ _ h => listIndex_getElem (electrum_wordlist_spec asciiUni).nodup h).flip

theorem index_lt {is : List Nat} {ws : List Str}
    (h : List.Forall₂ (fun i w => original_electrum_wordlist[i]? = some w) is ws) : ∀ i ∈ is, i < 1626 := by
  intro i hi
  obtain ⟨w, _, hw⟩ := forall₂_mem_left h i hi
  rw [← electrum_length]
  exact (List.getElem?_eq_some_iff.1 hw).1

theorem triples_length {vs : List Nat} {ts : List (List Nat)} (h : List.Forall₂ OldTriple vs ts) :
    ts.flatten.length = 3 * vs.length := by
  induction h with
  | nil => rfl
  | cons h _ ih =>
    obtain ⟨d1, d2, d3, _, _, _, _, rfl⟩ := h
    rw [List.flatten_cons, List.length_append, ih, List.length_cons]
    simp
    omega

theorem old_texts {vs : List Nat} {texts : List Str}
    (h : List.Forall₂ (fun v t => t.length = 8 ∧ numeral hexAlphabet t = some v) vs texts) : texts = vs.map hex08 := by
  induction h with
  | nil => rfl
  | @cons v t vs ts h _ ih =>
    have ho := numeral_over h.2
    have ho' : Over hexDigits t := fun c hc => (hexAlphabet_lower c (ho c hc)).1
    have hv : hexNum t = v := by
      have := numeral_hexNum t ho
      rw [h.2] at this
      exact (Option.some.inj this).symm
    have hlow : t.map Char.toLower = t := by
      conv_rhs => rw [← List.map_id t]
      exact List.map_congr_left fun c hc => (hexAlphabet_lower c (ho c hc)).2.1
    have := fixedHex_hexNum t ho'
    rw [hlow, h.1, hv] at this
    rw [List.map_cons, ← ih, hex08_eq _ (by rw [← hv]; exact hexNum_lt32 h.1 ho'), this]

theorem hex08_texts {vs : List Nat} (hv : ∀ v ∈ vs, v < 2 ^ 32) :
    List.Forall₂ (fun v t => t.length = 8 ∧ numeral hexAlphabet t = some v) vs (vs.map hex08) := by
  induction vs with
  | nil => exact .nil
  | cons v vs ih =>
    have h := hv v (by simp)
    refine .cons ⟨?_, ?_⟩ (ih fun v hv' => hv v (by simp [hv']))
    · rw [hex08_eq v h, fixedHex_length]
    · rw [hex08_eq v h, numeral_hexNum _ (fixedHex_over _ _), hexNum_fixedHex _ _ (h.trans_eq (by norm_num))]

/-- C71: which mnemonics are accepted and with which seed: twelve or twenty-four words of the list, each three of which
are a number of 32 bits. -/
theorem C71_accepts (U : PyUni) (m seed : Str) :
    old_to_hex_seed U m = .ok seed ↔
      ∃ indices, (indices.length = 12 ∨ indices.length = 24) ∧
        Words original_electrum_wordlist indices (normalize_old U m) ∧ OldSeed indices seed := by
  have hmem : ∀ k : Nat, k ∈ [12, 24] ↔ k = 12 ∨ k = 24 := by simp
  constructor
  · intro h
    rw [old_to_hex_seed] at h
    simp only at h
    by_cases hl : (U.text.split (normalize_old U m)).length ∈ [12, 24]
    · rw [if_neg (not_not.mpr hl)] at h
      obtain ⟨is, h1, h⟩ := bind_eq_ok.mp h
      obtain ⟨vs, h2, h⟩ := bind_eq_ok.mp h
      cases h
      rw [electrum_length_int] at h2
      have hf := mapAll_listIndex_iff.1 h1
      obtain ⟨ts, e1, e2, e3⟩ := old_parts_inv (index_lt hf) h2
      refine ⟨is, by rw [forall₂_len hf]; exact (hmem _).1 hl, ⟨_, hf, ?_⟩, vs, ts, vs.map hex08, e2, e3,
        hex08_texts e3, e1, rfl⟩
      rw [old_split, normalize_old]
    · rw [if_pos hl] at h
      cases h
  · rintro ⟨is, hl, ⟨ws, hf, hn⟩, vs, ts, texts, e1, e2, e3, rfl, rfl⟩
    have hword := word_of_index (electrum_wordlist_spec U) hf
    have hsp : U.text.split (normalize_old U m) = ws := by
      rw [hn, split_join' _ _ (fun w hw => ⟨(hword w hw).ne_nil, (hword w hw).no_space⟩)]
    rw [old_to_hex_seed]
    simp only
    rw [hsp, if_neg (not_not.mpr ((hmem _).2 (by rw [← forall₂_len hf]; exact hl))), mapAll_listIndex_iff.2 hf, ok_bind',
      electrum_length_int, old_parts_ok e1 e2, ok_bind', pure_ok', ← old_texts e3]

/-- C71: anything else is a `ValueError`. -/
theorem C71_rejects (U : PyUni) (m : Str) (e : Err) (h : old_to_hex_seed U m = .error e) : e = .valueError := by
  rw [old_to_hex_seed] at h
  simp only at h
  split at h
  · cases h; rfl
  · rcases bind_eq_error.mp h with h | ⟨is, _, h⟩
    · obtain ⟨w, _, h⟩ := mapAll_error h
      exact listIndex_err h
    · rcases bind_eq_error.mp h with h | ⟨_, _, h⟩
      · exact old_parts_error h
      · cases h

theorem lower_texts {cs : List Str} (hl : ∀ c ∈ cs, c.length = 8) (ho : ∀ c ∈ cs, Over hexDigits c) :
    ((cs.map hexNum).map hex08).flatten = cs.flatten.map Char.toLower := by
  induction cs with
  | nil => rfl
  | cons c cs ih =>
    have h1 := hl c (by simp)
    have h2 := ho c (by simp)
    rw [List.map_cons, List.map_cons, List.flatten_cons, List.flatten_cons, List.map_append,
      ih (fun c hc => hl c (by simp [hc])) (fun c hc => ho c (by simp [hc])), hex08_eq _ (hexNum_lt32 h1 h2)]
    have := fixedHex_hexNum c h2
    rw [h1] at this
    rw [this]

/-- The mnemonic of a seed. -/
theorem hex_seed_to_old_eq (P : PyText) (cs : List Str) (hk : cs.length = 4 ∨ cs.length = 8)
    (hl : ∀ c ∈ cs, c.length = 8) (ho : ∀ c ∈ cs, Over hexDigits c) (ws : List Str)
    (hws : List.Forall₂ (fun i w => original_electrum_wordlist[i]? = some w) ((cs.map hexNum).map oldTriple).flatten ws) :
    hex_seed_to_old P cs.flatten = .ok (joinStr [' '] ws) := by
  have hlen := flatten_length8 hl
  rw [hex_seed_to_old, if_neg (not_not.mpr (by simp only [List.mem_cons, List.not_mem_nil, or_false]; omega))]
  rw [chunks_blocks cs hl, ok_bind', electrum_length_int]
  have h1 : mapAll (old_indices P 1626) cs = .ok ((cs.map hexNum).map oldTriple) := by
    apply mapAll_ok
    clear hws hk hlen
    induction cs with
    | nil => exact .nil
    | cons c cs ih =>
      exact .cons (old_indices_value P c (hl c (by simp)) (ho c (by simp)))
        (ih (fun c hc => hl c (by simp [hc])) (fun c hc => ho c (by simp [hc])))
  rw [h1, ok_bind', mapAll_ok (hws.imp fun _ _ h => listItem_ok.2 h), ok_bind', pure_ok']

theorem oldTriple_lt (vs : List Nat) : ∀ i ∈ (vs.map oldTriple).flatten, i < 1626 := by
  intro i hi
  obtain ⟨t, ht, hi⟩ := List.mem_flatten.1 hi
  obtain ⟨v, _, rfl⟩ := List.mem_map.1 ht
  simp only [oldTriple, List.mem_cons, List.not_mem_nil, or_false] at hi
  omega

theorem forall₂_oldTriple {vs : List Nat} (hv : ∀ v ∈ vs, v < 2 ^ 32) :
    List.Forall₂ OldTriple vs (vs.map oldTriple) := by
  induction vs with
  | nil => exact .nil
  | cons v vs ih =>
    exact .cons ((oldTriple_iff v (hv v (by simp)) _).2 rfl) (ih fun v hv' => hv v (by simp [hv']))

/-- C71: every seed of 32 or 64 hexadecimal digits has a mnemonic, of twelve or twenty-four words, which is normalized
and whose seed is that seed, in lower case. -/
theorem C71_seed (U : PyUni) (seed : Str) (hl : seed.length = 32 ∨ seed.length = 64) (ho : Over hexDigits seed) :
    ∃ m, hex_seed_to_old U.text seed = .ok m ∧ old_to_hex_seed U m = .ok (seed.map Char.toLower) ∧
      normalize_old U m = m ∧ 8 * (U.text.split m).length = 3 * seed.length := by
  obtain ⟨cs, h1, rfl, h3, h4⟩ := chunks8 seed (seed.length / 8) (by omega)
  have hoc : ∀ c ∈ cs, Over hexDigits c := fun c hc x hx => ho x (List.mem_flatten.2 ⟨c, hc, hx⟩)
  have hvs : ∀ v ∈ cs.map hexNum, v < 2 ^ 32 := by
    intro v hv
    obtain ⟨c, hc, rfl⟩ := List.mem_map.1 hv
    exact hexNum_lt32 (h4 c hc) (hoc c hc)
  have htr := forall₂_oldTriple hvs
  obtain ⟨ws, hws⟩ : ∃ ws, List.Forall₂ (fun i w => original_electrum_wordlist[i]? = some w)
      ((cs.map hexNum).map oldTriple).flatten ws := by
    apply forall₂_exists
    intro i hi
    have hi := oldTriple_lt _ i hi
    rw [← electrum_length] at hi
    exact ⟨original_electrum_wordlist[i], List.getElem?_eq_getElem hi⟩
  have hword := word_of_index (electrum_wordlist_spec U) hws
  have hn := old_normal U ws hword
  have hsp := split_join' U.text ws (fun w hw => ⟨(hword w hw).ne_nil, (hword w hw).no_space⟩)
  have hlw : ws.length = 3 * cs.length := by
    rw [← forall₂_len hws, triples_length htr, List.length_map]
  have hcl := flatten_length8 h4
  refine ⟨joinStr [' '] ws, hex_seed_to_old_eq U.text cs (by omega) h4 hoc ws hws, ?_, hn, by rw [hsp, hlw]; omega⟩
  rw [C71_accepts]
  refine ⟨_, ?_, ⟨ws, hws, hn⟩, cs.map hexNum, _, (cs.map hexNum).map hex08, htr, hvs, hex08_texts hvs, rfl, ?_⟩
  · rw [forall₂_len hws]; omega
  · rw [lower_texts h4 hoc]

/-- C71: the seed of a mnemonic that is accepted has 32 or 64 digits in lower case, and its mnemonic is the mnemonic,
normalized. -/
theorem C71_mnemonic (U : PyUni) (m seed : Str) (h : old_to_hex_seed U m = .ok seed) :
    hex_seed_to_old U.text seed = .ok (normalize_old U m) ∧ Over hexAlphabet seed ∧
      3 * seed.length = 8 * (U.text.split (U.case.lower m)).length := by
  obtain ⟨is, hl, ⟨ws, hf, hn⟩, vs, ts, texts, e1, e2, e3, rfl, rfl⟩ := (C71_accepts U m seed).1 h
  have hword := word_of_index (electrum_wordlist_spec U) hf
  have ht := old_texts e3
  have h8 : ∀ c ∈ texts, c.length = 8 := by
    intro c hc
    obtain ⟨v, _, h, _⟩ := forall₂_mem_right e3 c hc
    exact h
  have hoa : ∀ c ∈ texts, Over hexAlphabet c := by
    intro c hc
    obtain ⟨v, _, _, h⟩ := forall₂_mem_right e3 c hc
    exact numeral_over h
  have hod : ∀ c ∈ texts, Over hexDigits c := fun c hc x hx => (hexAlphabet_lower x (hoa c hc x hx)).1
  have hvs : texts.map hexNum = vs := by
    rw [ht, List.map_map]
    conv_rhs => rw [← List.map_id vs]
    apply List.map_congr_left
    intro v hv
    simp only [Function.comp, id]
    rw [hex08_eq v (e2 v hv), hexNum_fixedHex _ _ ((e2 v hv).trans_eq (by norm_num))]
  have hts : ts = vs.map oldTriple := by
    clear hl hf hn e3 ht hvs h
    induction e1 with
    | nil => rfl
    | @cons v t vs ts h _ ih =>
      rw [List.map_cons, (oldTriple_iff v (e2 v (by simp)) t).1 h, ih (fun v hv => e2 v (by simp [hv]))]
  have htl := triples_length e1
  have hlen : texts.length = vs.length := (forall₂_len e3).symm
  refine ⟨?_, fun x hx => ?_, ?_⟩
  · rw [hn]
    exact hex_seed_to_old_eq U.text texts (by omega) h8 hod ws (by rw [hvs, ← hts]; exact hf)
  · obtain ⟨c, hc, hx⟩ := List.mem_flatten.1 hx
    exact hoa c hc x hx
  · rw [← old_split, hn, split_join' _ _ (fun w hw => ⟨(hword w hw).ne_nil, (hword w hw).no_space⟩), ← forall₂_len hf,
      flatten_length8 h8, hlen, htl]
    omega

/-- C71: `is_valid_old` never raises; it accepts what `old_to_hex_seed` accepts and hexadecimal texts of sixteen or
thirty-two bytes. -/
theorem C71_valid (U : PyUni) (m : Str) :
    ∃ b, is_valid_old U m = .ok b ∧ (b = true ↔ (∃ seed, old_to_hex_seed U m = .ok seed) ∨
      ∃ raw, fromhex m = .ok raw ∧ (raw.length = 16 ∨ raw.length = 32)) := by
  rw [is_valid_old]
  cases ho : old_to_hex_seed U m with
  | ok seed => exact ⟨true, rfl, by simp⟩
  | error e =>
    rw [C71_rejects U m e ho]
    simp only
    rw [if_pos (show Err.isValueError .valueError = true from rfl)]
    cases hf : fromhex m with
    | ok raw => exact ⟨_, rfl, by simp⟩
    | error e =>
      rw [fromhex_error hf]
      exact ⟨false, rfl, by simp⟩

/-- C71: the seeds generated are valid, and so are their mnemonics, which have the number of words requested. -/
theorem C71_generate (U : PyUni) (random : Nat → Bytes) (hr : ∀ n, (random n).length = n) (word_count : Nat)
    (h : word_count = 12 ∨ word_count = 24) :
    ∃ seed m, generate_old_seed random word_count = .ok seed ∧ hex_seed_to_old U.text seed = .ok m ∧
      (U.text.split m).length = word_count ∧ old_to_hex_seed U m = .ok seed ∧
      is_valid_old U seed = .ok true ∧ is_valid_old U m = .ok true := by
  have hraw : (random (word_count * 4 / 3)).length = word_count * 4 / 3 := hr _
  have hlen := hex_length (random (word_count * 4 / 3))
  have ho := hex_over (random (word_count * 4 / 3))
  obtain ⟨m, h1, h2, _, h4⟩ := C71_seed U (hex (random (word_count * 4 / 3))) (by omega)
    (fun c hc => (hexAlphabet_lower c (ho c hc)).1)
  have hlow : (hex (random (word_count * 4 / 3))).map Char.toLower = hex (random (word_count * 4 / 3)) := by
    conv_rhs => rw [← List.map_id (hex _)]
    exact List.map_congr_left fun c hc => (hexAlphabet_lower c (ho c hc)).2.1
  rw [hlow] at h2
  refine ⟨_, m, ?_, h1, by omega, h2, ?_, ?_⟩
  · rw [generate_old_seed, if_neg (not_not.mpr (by simpa using h))]
  · obtain ⟨b, hb, hiff⟩ := C71_valid U (hex (random (word_count * 4 / 3)))
    rw [hb, hiff.2 (.inr ⟨_, fromhex_hex _, by omega⟩)]
  · obtain ⟨b, hb, hiff⟩ := C71_valid U m
    rw [hb, hiff.2 (.inl ⟨_, h2⟩)]

/-! ## Seeds that are not hexadecimal -/

/-- What a text is read as depends on its characters only as `int` sees them. -/
theorem hex_seed_congr {P P' : PyText} {s s' : Str} (h : asciiDigits P s = asciiDigits P' s') :
    hex_seed_to_old P s = hex_seed_to_old P' s' := by
  have hlen : s.length = s'.length := by simpa [asciiDigits] using congrArg List.length h
  have hsl : ∀ (P : PyText) (s : Str) (i j : Nat), asciiDigits P (slice s i j) = slice (asciiDigits P s) i j := by
    intro P s i j
    simp only [asciiDigits, slice, List.map_drop, List.map_take]
  have hint : ∀ i j, intBase16 P (slice s i j) = intBase16 P' (slice s' i j) := by
    intro i j
    simp only [intBase16, hsl, h]
  have hmap : ∀ (n : Int) (ks : List Nat),
      mapAll (old_indices P n) (ks.map fun k => slice s (k * 8) (k * 8 + 8)) =
        mapAll (old_indices P' n) (ks.map fun k => slice s' (k * 8) (k * 8 + 8)) := by
    intro n ks
    induction ks with
    | nil => rfl
    | cons k ks ih =>
      simp only [List.map_cons, mapAll, ih]
      simp only [old_indices, hint]
  simp only [hex_seed_to_old, chunks, hlen]
  simp only [show ¬ ((8 : Nat) = 0) by decide, if_false, ok_bind', hmap]

theorem asciiDigits_ascii (P : PyText) (s : Str) (h : ∀ c ∈ s, c.toNat < 127) : asciiDigits P s = s := by
  conv_rhs => rw [← List.map_id s]
  exact List.map_congr_left fun c hc => if_pos (h c hc)

/-- A text of words of the list means the same whatever the tables of characters. -/
theorem old_to_hex_seed_words (U V : PyUni) {is : List Nat} {m : Str} (h : Words original_electrum_wordlist is m) :
    old_to_hex_seed U m = old_to_hex_seed V m := by
  obtain ⟨ws, hws, rfl⟩ := h
  have hu := word_of_index (electrum_wordlist_spec U) hws
  have hv := word_of_index (electrum_wordlist_spec V) hws
  simp only [old_to_hex_seed, old_normal U ws hu, old_normal V ws hv,
    split_join' U.text ws (fun w hw => ⟨(hu w hw).ne_nil, (hu w hw).no_space⟩),
    split_join' V.text ws (fun w hw => ⟨(hv w hw).ne_nil, (hv w hw).no_space⟩)]

/-- C71: a text that is not hexadecimal may have a mnemonic too, one with a seed that is another text: signs are read,
and one with a minus sign may have a mnemonic that has no seed. -/
theorem C71_signed (U : PyUni) :
    (∃ seed seed' m, seed.length = 32 ∧ ¬ Over hexDigits seed ∧ hex_seed_to_old U.text seed = .ok m ∧
      old_to_hex_seed U m = .ok seed' ∧ seed' ≠ seed) ∧
    (∃ seed m, seed.length = 32 ∧ hex_seed_to_old U.text seed = .ok m ∧ old_to_hex_seed U m = .error .valueError) := by
  have read : ∀ seed : Str, (∀ c ∈ seed, c.toNat < 127) →
      hex_seed_to_old U.text seed = hex_seed_to_old asciiText seed := fun seed h =>
    hex_seed_congr (by rw [asciiDigits_ascii _ _ h, asciiDigits_ascii _ _ h])
  have words : ∀ (is : List Nat) (ws : List Str), ws.length = is.length →
      (∀ k ∈ List.range is.length, original_electrum_wordlist[is.getD k 0]? = some (ws.getD k [])) →
      Words original_electrum_wordlist is (joinStr [' '] ws) := by
    intro is ws hl h
    refine ⟨ws, ?_, rfl⟩
    rw [List.forall₂_iff_get]
    refine ⟨hl.symm, fun k h1 h2 => ?_⟩
    have := h k (List.mem_range.2 h1)
    simpa [List.getD_eq_getElem?_getD, List.getElem?_eq_getElem h1, List.getElem?_eq_getElem h2] using this
  refine ⟨⟨"+0000001000000000000000000000000".toList, "00000001000000000000000000000000".toList,
      joinStr [' '] (["just", "just", "just"].map String.toList ++ List.replicate 9 "like".toList),
      by decide, ?_, ?_, ?_, by decide⟩, ⟨"-0000001000000000000000000000000".toList,
      joinStr [' '] (["weary", "weapon", "unseen"].map String.toList ++ List.replicate 9 "like".toList), by decide, ?_, ?_⟩⟩
  · intro h
    exact absurd (h '+' (by decide)) (by decide)
  · rw [read _ (by decide +kernel)]
    decide +kernel
  · rw [old_to_hex_seed_words U asciiUni (words [1, 1, 1, 0, 0, 0, 0, 0, 0, 0, 0, 0] _ (by decide) (by decide +kernel))]
    decide +kernel
  · rw [read _ (by decide +kernel)]
    decide +kernel
  · rw [old_to_hex_seed_words U asciiUni
      (words [1625, 1624, 1623, 0, 0, 0, 0, 0, 0, 0, 0, 0] _ (by decide) (by decide +kernel))]
    decide +kernel

/-- C71: the decimal digits of other alphabets may stand for those of a seed. -/
theorem C71_digits (P : PyText) (seed seed' : Str)
    (h : List.Forall₂ (fun c c' => c = c' ∨
      (127 ≤ c.toNat ∧ P.isspace c = false ∧ c'.toNat < 127 ∧ ∃ d, P.decimal c = some d ∧ c' = Nat.digitChar d)) seed seed') :
    hex_seed_to_old P seed = hex_seed_to_old P seed' := by
  refine hex_seed_congr ?_
  induction h with
  | nil => rfl
  | @cons c c' s s' h1 _ ih =>
    simp only [asciiDigits, List.map_cons] at ih ⊢
    rw [ih]
    congr 1
    rcases h1 with rfl | ⟨h1, h2, h3, d, h4, rfl⟩
    · rfl
    · rw [if_neg (by omega), if_neg (by simp [h2]), h4]
      exact (if_pos h3).symm

/-! ## Examples -/

/-- A well-known seed and its mnemonic. -/
example : old_to_hex_seed asciiUni
    "powerful random nobody notice nothing important anyway look away hidden message over".toList =
    .ok "acb740e454c3134901d7c8f16497cc1c".toList := by decide +kernel

example : hex_seed_to_old asciiText "ACB740e454c3134901d7c8f16497cc1c".toList =
    .ok "powerful random nobody notice nothing important anyway look away hidden message over".toList := by
  decide +kernel

/-- Three words that are a number of more than 32 bits. -/
example : old_to_hex_seed asciiUni "like like weapon like like weapon like like weapon like like weapon".toList =
    .ok "ffebf860ffebf860ffebf860ffebf860".toList ∧
    old_to_hex_seed asciiUni "like like weapon like like weapon like like weapon like like weary".toList =
      .error .valueError := by decide +kernel

/-- `hex_seed_to_old` reads some texts that are not hexadecimal. -/
example : hex_seed_to_old asciiText " +0x_0_1 +0x_0_1 +0x_0_1 +0x_0_1".toList =
    hex_seed_to_old asciiText "00000001000000010000000100000001".toList := by decide +kernel

/-- A table of characters that knows the Arabic-Indic digits too. -/
def arabicText : PyText where
  isspace c := isAsciiSplit c
  isdigit c := isAsciiDigit c || decide (0x660 ≤ c.toNat ∧ c.toNat ≤ 0x669)
  decimal c := if isAsciiDigit c then some (c.toNat - '0'.toNat)
    else if 0x660 ≤ c.toNat ∧ c.toNat ≤ 0x669 then some (c.toNat - 0x660) else none
  max_str_digits := 0
  max_str_digits_min := .inl rfl
  isspace_ascii _ _ := rfl
  isdigit_ascii c h := by
    have : ¬ (0x660 ≤ c.toNat ∧ c.toNat ≤ 0x669) := by omega
    simp [this]
  decimal_ascii c h := by
    rw [if_neg (show ¬ (0x660 ≤ c.toNat ∧ c.toNat ≤ 0x669) by omega)]
  decimal_lt c d h := by
    split at h
    · next hc => exact asciiText.decimal_lt c d ((if_pos hc).trans h)
    · split at h
      · have := Option.some.inj h; omega
      · cases h
  isdigit_decimal c d h := by
    split at h
    · next hc => simp [hc]
    · split at h
      · next hc => simp [hc]
      · cases h

example : hex_seed_to_old arabicText "٠0000001000000010000000100000001".toList =
    hex_seed_to_old arabicText "00000001000000010000000100000001".toList :=
  C71_digits _ _ _ (.cons (.inr ⟨by decide, by decide, by decide, 0, by decide, rfl⟩) (List.forall₂_same.2 fun _ _ => .inl rfl))

end Bitcoinx
