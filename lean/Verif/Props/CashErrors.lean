import Verif.Lemmas.CashField
import Verif.Props.Cashaddr

/-! # C92: wrong characters anywhere in a cash address -/

namespace Bitcoinx

open Spec cashaddr

/-- The word of the code for a prefix and five-bit numbers. -/
def cashWord (pre : Str) (s : Bytes) : List Nat := pre.map (·.toNat % 32) ++ 0 :: s.map (·.toNat)

theorem polyAdd_word {pre pre' : Str} (s s' : Bytes) (h : pre.length = pre'.length) :
    polyAdd (cashWord pre s) (cashWord pre' s') =
      polyAdd (pre.map (·.toNat % 32)) (pre'.map (·.toNat % 32)) ++
        0 :: polyAdd (s.map (·.toNat)) (s'.map (·.toNat)) := by
  rw [cashWord, cashWord, polyAdd_append (by simp [h]), polyAdd_cons]
  rfl

theorem count_prefix (pre pre' : Str) :
    (polyAdd (pre.map (·.toNat % 32)) (pre'.map (·.toNat % 32))).countP (· ≠ 0) ≤
      mismatches pre pre' := by
  induction pre generalizing pre' with
  | nil => simp [polyAdd]
  | cons c pre ih => cases pre' with
    | nil => simp [polyAdd]
    | cons d pre' =>
      have := ih pre'
      rw [List.map_cons, List.map_cons, polyAdd_cons, List.countP_cons, mismatches]
      by_cases h : c = d
      · subst h
        simp only [Nat.xor_self]
        simpa using this
      · rw [if_neg h]
        split_ifs <;> omega

theorem count_payload {s s' : Bytes} (hs : ∀ d ∈ s, d.toNat < 32) (hs' : ∀ d ∈ s', d.toNat < 32) :
    (polyAdd (s.map (·.toNat)) (s'.map (·.toNat))).countP (· ≠ 0) ≤
      mismatches (s.map cashChar) (s'.map cashChar) := by
  induction s generalizing s' with
  | nil => simp [polyAdd]
  | cons c s ih => cases s' with
    | nil => simp [polyAdd]
    | cons d s' =>
      have := ih (fun x hx => hs x (by simp [hx])) (s' := s') (fun x hx => hs' x (by simp [hx]))
      rw [List.map_cons, List.map_cons, polyAdd_cons, List.countP_cons, List.map_cons, List.map_cons,
        mismatches]
      by_cases h : cashChar c = cashChar d
      · have e := List.cons.inj (map_cashChar_inj [c] [d] (by simpa using hs c (by simp))
          (by simpa using hs' d (by simp)) (by simp [h]))
        obtain ⟨rfl, _⟩ := e
        simp only [Nat.xor_self]
        simpa using this
      · rw [if_neg h]
        split_ifs <;> omega

theorem polyAdd_eq_zero {p q : List Nat} (hl : p.length = q.length) (h : ∀ a ∈ polyAdd p q, a = 0) :
    p = q := by
  induction p generalizing q with
  | nil => cases q with
    | nil => rfl
    | cons _ _ => simp at hl
  | cons a p ih => cases q with
    | nil => simp at hl
    | cons b q =>
      rw [polyAdd_cons] at h
      have e : a ^^^ b = 0 := h _ (by simp)
      rw [Nat.xor_eq_zero_iff.mp e, ih (by simpa using hl) (fun x hx => h x (by simp [hx]))]

/-- What a text that decodes looks like. -/
theorem decode_word {C : PyCase} {addr pre body : Str} {r : Str × Bytes} (hcol : ':' ∉ pre)
    (h1 : C.lower addr = pre ++ ':' :: body) (hd : decode_payload C addr = .ok r) :
    ∃ s : Bytes, body = s.map cashChar ∧ (∀ d ∈ s, d.toNat < 32) ∧ s.length ≤ 124 ∧
      CashValid (cashWord pre s) := by
  obtain ⟨pre1, payload⟩ := r
  obtain ⟨_, p0, g1, g2, g3, g4, g5, g6, g7⟩ := (decode_payload_iff _ _ _ _).mp hd
  have e1 := splitColon_append pre body hcol
  rw [← h1, g1, cashText, splitColon_append _ _ g3] at e1
  have e := Option.some.inj e1
  have ep : pre = p0 := (congrArg Prod.fst e).symm
  have eb : body = _ := (congrArg Prod.snd e).symm
  subst ep
  refine ⟨payload ++ create_checksum pre payload, eb, ?_, ?_, ?_⟩
  · intro d hd
    rcases List.mem_append.mp hd with h | h
    · exact g6 d h
    · exact create_checksum_lt _ _ d h
  · rw [List.length_append, create_checksum_length]; omega
  · exact (checksum_iff pre payload _ g6 (create_checksum_length _ _)
      (create_checksum_lt _ _)).mpr rfl

theorem mod32_lt (s : Str) : ∀ a ∈ s.map (·.toNat % 32), a < 32 := by
  intro a ha
  obtain ⟨c, _, rfl⟩ := List.mem_map.mp ha
  omega

theorem decode_four (C : PyCase) (addr addr' pre pre' body body' : Str)
    (hcol : ':' ∉ pre) (hcol' : ':' ∉ pre')
    (h1 : C.lower addr = pre ++ ':' :: body) (h2 : C.lower addr' = pre' ++ ':' :: body')
    (hlp : pre.length = pre'.length) (hlb : body.length = body'.length)
    (hlen : pre = pre' ∨ pre.length ≤ 900)
    (hm : mismatches pre pre' + mismatches body body' ≤ 4)
    (hne : body ≠ body' ∨ pre.map (·.toNat % 32) ≠ pre'.map (·.toNat % 32))
    (hok : ∃ r, decode C addr = .ok r) : decode C addr' = .error .valueError := by
  obtain ⟨r, hok⟩ := hok
  rw [decode_eq] at hok
  obtain ⟨x, hd, _⟩ := bind_eq_ok.mp hok
  obtain ⟨s, rfl, hs, hsl, hv⟩ := decode_word hcol h1 hd
  cases hd' : decode_payload C addr' with
  | error e =>
    rw [decode_eq, hd', decode_payload_error C addr' e hd']
    rfl
  | ok r' =>
    exfalso
    obtain ⟨s', rfl, hs', hsl', hv'⟩ := decode_word hcol' h2 hd'
    have hls : s.length = s'.length := by simpa using hlb
    have hw := polyAdd_word s s' hlp
    have hz := code_distance (v := cashWord pre s) (w := cashWord pre' s')
      (by simp [cashWord, hlp, hls]) hv hv'
      (by
        rw [hw]
        intro a ha
        rcases List.mem_append.mp ha with ha | ha
        · exact polyAdd_lt (mod32_lt _) (mod32_lt _) a ha
        · rcases List.mem_cons.mp ha with rfl | ha
          · norm_num
          · refine polyAdd_lt ?_ ?_ a ha
            · intro b hb; obtain ⟨d, hd, rfl⟩ := List.mem_map.mp hb; exact hs d hd
            · intro b hb; obtain ⟨d, hd, rfl⟩ := List.mem_map.mp hb; exact hs' d hd)
      (by
        rw [hw, List.countP_append, List.countP_cons]
        have := count_prefix pre pre'
        have := count_payload hs hs'
        simp only [ne_eq, not_true_eq_false, decide_false, Bool.false_eq_true, if_false]
        simp only [ne_eq] at *
        omega)
      (by
        intro i hi
        rcases hlen with rfl | hlen
        · rw [hw, polyAdd_self, List.reverse_append, List.getD_append_right]
          · simp
          · simp [polyAdd]; omega
        · rw [List.getD_eq_default]
          rw [hw]
          simp [polyAdd]
          omega)
    rw [hw] at hz
    rcases hne with hne | hne
    · apply hne
      have e := polyAdd_eq_zero (p := s.map (·.toNat)) (q := s'.map (·.toNat)) (by simp [hls])
        (fun a ha => hz a (by simp [ha]))
      have : s = s' := by
        refine List.map_injective_iff.mpr ?_ e
        intro a b hab
        exact UInt8.toNat_inj.mp hab
      rw [this]
    · exact hne (polyAdd_eq_zero (by simp [hlp]) (fun a ha => hz a (by simp [ha])))

/-- **C92**.  If an address decodes, then no text with the same prefix in which between one and four of
the other characters are replaced, wherever they are, decodes: `decode` raises `ValueError`.  (Both
texts are compared in lower case.) -/
theorem C92_payload (C : PyCase) (addr addr' pre body body' : Str) (hcol : ':' ∉ pre)
    (h1 : C.lower addr = pre ++ ':' :: body) (h2 : C.lower addr' = pre ++ ':' :: body')
    (hlb : body.length = body'.length) (hm : mismatches body body' ≤ 4) (hne : body ≠ body')
    (hok : ∃ r, decode C addr = .ok r) : decode C addr' = .error .valueError := by
  have h0 : ∀ s : Str, mismatches s s = 0 := by
    intro s
    induction s with
    | nil => rfl
    | cons c s ih => simp [mismatches, ih]
  exact decode_four C addr addr' pre pre body body' hcol hcol h1 h2 rfl hlb (.inl rfl)
    (by rw [h0]; omega) (.inl hne) hok

theorem letter_mod32 {c d : Char} (hc : c.isLower) (hd : d.isLower)
    (h : c.toNat % 32 = d.toNat % 32) : c = d := by
  have key : ∀ e : Char, e.isLower → 97 ≤ e.toNat ∧ e.toNat ≤ 122 := by
    intro e he
    simp only [Char.isLower, ge_iff_le, Bool.and_eq_true, decide_eq_true_eq] at he
    exact ⟨he.1, he.2⟩
  have h1 := key c hc
  have h2 := key d hd
  exact Char.toNat_inj.mp (by omega)

/-- **C92** (with the prefix).  The same if some of the wrong characters are in the prefix, when both
prefixes consist of at most 900 letters. -/
theorem C92_prefix (C : PyCase) (addr addr' pre pre' body body' : Str)
    (hpre : ∀ c ∈ pre, c.isLower) (hpre' : ∀ c ∈ pre', c.isLower)
    (h1 : C.lower addr = pre ++ ':' :: body) (h2 : C.lower addr' = pre' ++ ':' :: body')
    (hlp : pre.length = pre'.length) (hlb : body.length = body'.length) (hlen : pre.length ≤ 900)
    (hm : mismatches (pre ++ body) (pre' ++ body') ≤ 4) (hne : pre ++ body ≠ pre' ++ body')
    (hok : ∃ r, decode C addr = .ok r) : decode C addr' = .error .valueError := by
  have hcolon : ∀ p : Str, (∀ c ∈ p, c.isLower) → ':' ∉ p := by
    intro p hp h
    exact absurd (hp _ h) (by decide)
  have happ : ∀ a a' b b' : Str, a.length = a'.length →
      mismatches (a ++ b) (a' ++ b') = mismatches a a' + mismatches b b' := by
    intro a
    induction a with
    | nil =>
      intro a' b b' hl
      cases a' with
      | nil => simp [mismatches]
      | cons _ _ => simp at hl
    | cons c a ih =>
      intro a' b b' hl
      cases a' with
      | nil => simp at hl
      | cons d a' =>
        simp only [List.cons_append, mismatches]
        rw [ih a' b b' (by simpa using hl)]
        omega
  rw [happ _ _ _ _ hlp] at hm
  refine decode_four C addr addr' pre pre' body body' (hcolon _ hpre) (hcolon _ hpre') h1 h2 hlp hlb
    (.inr hlen) hm ?_ hok
  by_contra hcon
  push Not at hcon
  obtain ⟨hb, hp⟩ := hcon
  apply hne
  rw [hb]
  congr 1
  refine List.ext_getElem hlp (fun i hi hi' => ?_)
  have e := congrArg (·[i]?) hp
  simp only [List.getElem?_map, List.getElem?_eq_getElem hi, List.getElem?_eq_getElem hi',
    Option.map_some, Option.some.injEq] at e
  exact letter_mod32 (hpre _ (List.getElem_mem _)) (hpre' _ (List.getElem_mem _)) e

/-- **C92** (what is not detected).  A prefix whose characters have the same low five bits is
indistinguishable: the same payload and checksum decode under it as well. -/
theorem C92_blind (C : PyCase) (pre pre' body : Str) (kind : Nat) (hash : Bytes)
    (hlow : C.lower (pre ++ ':' :: body) = pre ++ ':' :: body) (hcol : ':' ∉ pre)
    (hp' : CashPrefix pre') (hsame : pre'.map (·.toNat % 32) = pre.map (·.toNat % 32))
    (hok : decode C (pre ++ ':' :: body) = .ok (pre, kind, hash)) :
    decode C (pre' ++ ':' :: body) = .ok (pre', kind, hash) := by
  obtain ⟨_, hk, payload, chk, g1, g2, g3, g4, g5⟩ := (C50_canonical C pre kind hash _ hlow).mp hok
  refine (C49_decode C pre' kind hash _ ⟨hp', hk, payload, chk, g1, g2, g3, ?_, ?_⟩).1
  · rw [cashText, List.append_cancel_left_eq, List.cons.injEq] at g4
    rw [g4.2, cashText]
  · rw [hsame]; exact g5

/-! ## Examples -/

/-- Four wrong characters far apart. -/
example : decode asciiCase "bitcoincash:ppm2qsznhks23z7629mqs6s4cwef74vcwvy22gdx6q".toList =
    .error .valueError ∧
    mismatches "qpm2qsznhks23z7629mms6s4cwef74vcwvy22gdx6a".toList
      "ppm2qsznhks23z7629mqs6s4cwef74vcwvy22gdx6q".toList = 3 := by decide +kernel

/-- The hypotheses of `C92_payload` are met by them. -/
example : decode asciiCase "bitcoincash:ppm2qsznhks23z7629mqs6s4cwef74vcwvy22gdx6q".toList =
    .error .valueError :=
  C92_payload asciiCase "bitcoincash:qpm2qsznhks23z7629mms6s4cwef74vcwvy22gdx6a".toList _
    "bitcoincash".toList "qpm2qsznhks23z7629mms6s4cwef74vcwvy22gdx6a".toList
    "ppm2qsznhks23z7629mqs6s4cwef74vcwvy22gdx6q".toList (by decide) (by decide +kernel)
    (by decide +kernel) (by decide) (by decide) (by decide) ⟨("bitcoincash".toList, 0,
      (fromhex "76a04053bda0a88bda5177b86a15c3b29f559873".toList).toOption.getD []), by decide +kernel⟩

/-- A prefix with `4` for `t`, which is not noticed. -/
example : decode asciiCase "bi4coincash:qpm2qsznhks23z7629mms6s4cwef74vcwvy22gdx6a".toList =
    .ok ("bi4coincash".toList, 0,
      (fromhex "76a04053bda0a88bda5177b86a15c3b29f559873".toList).toOption.getD []) :=
  C92_blind asciiCase "bitcoincash".toList "bi4coincash".toList
    "qpm2qsznhks23z7629mms6s4cwef74vcwvy22gdx6a".toList 0 _ (by decide +kernel) (by decide)
    ⟨by decide, by decide⟩ (by decide) (by decide +kernel)

/-- Two wrong letters in the prefix and two in the payload. -/
example : decode asciiCase "bitcaencash:ppm2qsznhks23z7629mqs6s4cwef74vcwvy22gdx6a".toList =
    .error .valueError :=
  C92_prefix asciiCase "bitcoincash:qpm2qsznhks23z7629mms6s4cwef74vcwvy22gdx6a".toList _
    "bitcoincash".toList "bitcaencash".toList "qpm2qsznhks23z7629mms6s4cwef74vcwvy22gdx6a".toList
    "ppm2qsznhks23z7629mqs6s4cwef74vcwvy22gdx6a".toList (by decide) (by decide) (by decide +kernel)
    (by decide +kernel) (by decide) (by decide) (by decide) (by decide +kernel) (by decide)
    ⟨("bitcoincash".toList, 0,
      (fromhex "76a04053bda0a88bda5177b86a15c3b29f559873".toList).toOption.getD []), by decide +kernel⟩

end Bitcoinx
