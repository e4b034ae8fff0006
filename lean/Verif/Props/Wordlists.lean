import Verif.Props.Bip39
import Verif.Props.Bip32Path

/-! # C86: word lists -/

namespace Bitcoinx
open Spec

namespace Spec

/-- A line of a word list: a normalized word, nothing, or a comment. -/
def WordlistLine (U : PyUni) (line : Str) : Prop :=
  (Word U line ∧ line.head? ≠ some '#') ∨ line = [] ∨ (line.head? = some '#' ∧ '\n' ∉ line)

end Spec

theorem isspace_newline (P : PyText) : P.isspace '\n' = true := by rw [P.isspace_ascii _ (by decide)]; decide

theorem isspace_hash (P : PyText) : P.isspace '#' = false := by rw [P.isspace_ascii _ (by decide)]; decide

theorem join_flatMap (sep : Char) (x : Str) (xs : List Str) :
    joinStr [sep] (x :: xs) = x ++ xs.flatMap (fun p => sep :: p) := by
  induction xs generalizing x with
  | nil => simp [joinStr]
  | cons y ys ih => rw [joinStr, ih]; simp

theorem splitChar_join (sep : Char) (ls : List Str) (hne : ls ≠ []) (h : ∀ l ∈ ls, sep ∉ l) :
    splitChar sep (joinStr [sep] ls) = ls := by
  cases ls with
  | nil => exact absurd rfl hne
  | cons x xs =>
    rw [join_flatMap, splitChar, splitCharLoop_join sep x [] xs (h x (by simp)) (fun p hp => h p (by simp [hp])),
      List.nil_append]

theorem strip_nospace (P : PyText) (w : Str) (h : ∀ c ∈ w, P.isspace c = false) : P.strip w = w := by
  have dw : ∀ t : Str, (∀ c ∈ t, P.isspace c = false) → t.dropWhile P.isspace = t := by
    intro t ht
    cases t with
    | nil => rfl
    | cons c cs => rw [List.dropWhile_cons_of_neg (by simp [ht c (by simp)])]
  rw [PyText.strip, dw w h, dw _ (fun c hc => h c (by simpa using hc)), List.reverse_reverse]

theorem strip_head (P : PyText) (c : Char) (cs : Str) (h : P.isspace c = false) :
    ∃ cs', P.strip (c :: cs) = c :: cs' := by
  rw [PyText.strip, List.dropWhile_cons_of_neg (by simp [h]), List.reverse_cons]
  have : ∀ t : Str, ∃ t', (t ++ [c]).dropWhile P.isspace = t' ++ [c] := by
    intro t
    induction t with
    | nil => exact ⟨[], by rw [List.nil_append, List.dropWhile_cons_of_neg (by simp [h])]⟩
    | cons x xs ih =>
      rw [List.cons_append, List.dropWhile_cons]
      split
      · exact ih
      · exact ⟨x :: xs, rfl⟩
  obtain ⟨t', ht⟩ := this cs.reverse
  exact ⟨t'.reverse, by rw [ht]; simp⟩

/-- The lines that are words. -/
theorem lines_words (U : PyUni) (ls : List Str) (h : ∀ l ∈ ls, WordlistLine U l) :
    ((ls.map U.text.strip).filter (fun line => line ≠ [] && !startsWith ['#'] line)).map U.case.lower =
      ls.filter (fun l => l ≠ [] && l.head? ≠ some '#') := by
  induction ls with
  | nil => rfl
  | cons l ls ih =>
    have ih := ih fun l hl => h l (by simp [hl])
    rw [List.map_cons]
    rcases h l (by simp) with ⟨hw, hh⟩ | rfl | ⟨hh, _⟩
    · rw [strip_nospace _ _ hw.no_space, List.filter_cons_of_pos, List.filter_cons_of_pos, List.map_cons, ih, hw.lower]
      · simp [hw.ne_nil, hh]
      · have : startsWith ['#'] l = false := by
          cases l with
          | nil => exact absurd rfl hw.ne_nil
          | cons c cs =>
            have hc : ¬ '#' = c := fun hc => hh (by rw [hc]; rfl)
            simp [startsWith, List.isPrefixOf, hc]
        simp [hw.ne_nil, this]
    · rw [List.filter_cons_of_neg, List.filter_cons_of_neg, ih]
      · simp
      · simp [PyText.strip]
    · cases l with
      | nil => cases hh
      | cons c cs =>
        cases hh
        obtain ⟨cs', hs⟩ := strip_head U.text '#' cs (isspace_hash _)
        rw [hs, List.filter_cons_of_neg, List.filter_cons_of_neg, ih]
        · simp
        · simp [startsWith, List.isPrefixOf]

/-- C86: a text whose lines are normalized words, comments and empty lines gives exactly the words, in order, if there
are as many as expected, and otherwise `SyntaxError`. -/
theorem C86_words (U : PyUni) (ls : List Str) (hne : ls ≠ []) (h : ∀ l ∈ ls, WordlistLine U l)
    (hn : U.nfkd (joinStr ['\n'] ls) = joinStr ['\n'] ls) (count : Option Nat) :
    text_to_wordlist U (joinStr ['\n'] ls) count =
      (if ∃ n, count = some n ∧ n ≠ (ls.filter (fun l => l ≠ [] && l.head? ≠ some '#')).length then .error .syntaxError
        else .ok (ls.filter (fun l => l ≠ [] && l.head? ≠ some '#'))) := by
  have hnl : ∀ l ∈ ls, '\n' ∉ l := by
    intro l hl hc
    rcases h l hl with ⟨hw, _⟩ | rfl | ⟨_, hh⟩
    · have := hw.no_space _ hc
      rw [isspace_newline] at this
      cases this
    · cases hc
    · exact hh hc
  rw [text_to_wordlist, normalize_text, hn, splitChar_join _ _ hne hnl, lines_words U ls h]
  generalize hw : ls.filter (fun l => l ≠ [] && l.head? ≠ some '#') = ws
  have hsp : ws.any (fun word => ' ' ∈ word) = false := by
    rw [List.any_eq_false]
    intro w hww
    rw [← hw, List.mem_filter] at hww
    simp only [Bool.and_eq_true, decide_eq_true_eq] at hww
    intro hc
    rw [decide_eq_true_eq] at hc
    rcases h w hww.1 with ⟨hword, _⟩ | hword | ⟨hh, _⟩
    · have := hword.no_space _ hc
      rw [isspace_space] at this
      cases this
    · exact hww.2.1 hword
    · exact hww.2.2 hh
  rw [if_neg (by rw [hsp]; exact Bool.false_ne_true)]
  cases count with
  | none => simp
  | some n =>
    by_cases hc : ws.length = n
    · rw [if_neg (by simp [hc]), if_neg (by rintro ⟨_, h1, h2⟩; cases h1; exact h2 hc.symm)]
    · rw [if_pos (by simp [hc]), if_pos ⟨n, rfl, fun h => hc h.symm⟩]

/-- C86: whatever the text, no word of the result is empty or contains a space, and there are as many as expected; the
only exception is `SyntaxError`. -/
theorem C86_result (U : PyUni) (text : Str) (count : Option Nat) :
    (∃ ws, text_to_wordlist U text count = .ok ws ∧ (∀ w ∈ ws, ' ' ∉ w ∧ w ≠ []) ∧
      (∀ n, count = some n → ws.length = n)) ∨ text_to_wordlist U text count = .error .syntaxError := by
  rw [text_to_wordlist]
  split
  · exact .inr rfl
  · next h1 =>
    split
    · exact .inr rfl
    · next h2 =>
      refine .inl ⟨_, rfl, fun w hw => ⟨fun hc => h1 ?_, ?_⟩, fun n hn => ?_⟩
      · rw [List.any_eq_true]
        exact ⟨w, hw, by simpa using hc⟩
      · obtain ⟨line, hl, rfl⟩ := List.mem_map.1 hw
        have := (List.mem_filter.1 hl).2
        simp only [Bool.and_eq_true, decide_eq_true_eq] at this
        exact U.lower_ne_nil line this.1
      · subst hn
        simpa using h2

/-! ## The files -/

/-- The text of bitcoinx/data/english.txt. -/
def englishText : Str := joinStr ['\n'] (english_wordlist ++ [[]])

/-- The text of bitcoinx/data/electrum_old.txt. -/
def electrumText : Str := joinStr ['\n'] ("# list of words from \
http://en.wiktionary.org/wiki/Wiktionary:Frequency_lists/Contemporary_poetry".toList :: [] ::
  (original_electrum_wordlist ++ [[]]))

theorem letters_line (U : PyUni) (w : Str) (h : lettersOnly w = true) :
    WordlistLine U w ∧ (∀ c ∈ w, c.toNat < 128) ∧ w ≠ [] ∧ w.head? ≠ some '#' := by
  have hw := lettersOnly_word U w h
  rw [lettersOnly, Bool.and_eq_true, List.all_eq_true] at h
  have hc : ∀ c ∈ w, 97 ≤ c.toNat ∧ c.toNat ≤ 122 := by
    intro c hc
    simpa [Nat.ble_eq] using h.2 c hc
  have hh : w.head? ≠ some '#' := by
    intro hh
    have := (hc '#' (List.mem_of_mem_head? hh)).1
    revert this
    decide
  exact ⟨.inl ⟨hw, hh⟩, fun c h => by have := hc c h; omega, hw.ne_nil, hh⟩

theorem join_ascii (sep : Char) (hs : sep.toNat < 128) (ls : List Str) (h : ∀ l ∈ ls, ∀ c ∈ l, c.toNat < 128) :
    ∀ c ∈ joinStr [sep] ls, c.toNat < 128 := by
  cases ls with
  | nil => intro c hc; cases hc
  | cons x xs =>
    rw [join_flatMap]
    intro c hc
    rcases List.mem_append.1 hc with hc | hc
    · exact h x (by simp) c hc
    · obtain ⟨p, hp, hc⟩ := List.mem_flatMap.1 hc
      rcases List.mem_cons.1 hc with rfl | hc
      · exact hs
      · exact h p (by simp [hp]) c hc

theorem letters_filter (ls : List Str) (h : ls.all lettersOnly = true) :
    (ls ++ [[]]).filter (fun l => l ≠ [] && l.head? ≠ some '#') = ls := by
  rw [List.filter_append]
  have : ls.filter (fun l => l ≠ [] && l.head? ≠ some '#') = ls := by
    rw [List.filter_eq_self]
    intro l hl
    obtain ⟨_, _, h1, h2⟩ := letters_line asciiUni l (List.all_eq_true.1 h l hl)
    simp [h1, h2]
  rw [this]
  simp

/-- C86: the lists that the package has are read as the lists of the model. -/
theorem C86_shipped (U : PyUni) :
    text_to_wordlist U englishText (some 2048) = .ok english_wordlist ∧
    text_to_wordlist U electrumText (some 1626) = .ok original_electrum_wordlist := by
  have he := List.all_eq_true.1 english_letters
  have ho := List.all_eq_true.1 electrum_letters
  have ha : ∀ c ∈ "# list of words from \
http://en.wiktionary.org/wiki/Wiktionary:Frequency_lists/Contemporary_poetry".toList,
      c.toNat < 128 ∧ c ≠ '\n' := by decide +kernel
  constructor
  · rw [englishText, C86_words U _ (by simp), letters_filter _ english_letters, english_length, if_neg]
    · rintro ⟨n, h1, h2⟩; cases h1; exact h2 rfl
    · intro l hl
      rcases List.mem_append.1 hl with hl | hl
      · exact (letters_line U l (he l hl)).1
      · exact .inr (.inl (List.mem_singleton.1 hl))
    · apply U.nfkd_ascii
      apply join_ascii _ (by decide)
      intro l hl
      rcases List.mem_append.1 hl with hl | hl
      · exact (letters_line U l (he l hl)).2.1
      · cases List.mem_singleton.1 hl
        intro c hc
        cases hc
  · rw [electrumText, C86_words U _ (by simp), List.filter_cons_of_neg, List.filter_cons_of_neg,
      letters_filter _ electrum_letters, electrum_length, if_neg]
    · rintro ⟨n, h1, h2⟩; cases h1; exact h2 rfl
    · simp
    · simp
    · intro l hl
      rcases List.mem_cons.1 hl with rfl | hl
      · exact .inr (.inr ⟨rfl, fun hc => (ha _ hc).2 rfl⟩)
      · rcases List.mem_cons.1 hl with rfl | hl
        · exact .inr (.inl rfl)
        · rcases List.mem_append.1 hl with hl | hl
          · exact (letters_line U l (ho l hl)).1
          · exact .inr (.inl (List.mem_singleton.1 hl))
    · apply U.nfkd_ascii
      apply join_ascii _ (by decide)
      intro l hl
      rcases List.mem_cons.1 hl with rfl | hl
      · exact fun c hc => (ha c hc).1
      · rcases List.mem_cons.1 hl with rfl | hl
        · intro c hc
          cases hc
        · rcases List.mem_append.1 hl with hl | hl
          · exact (letters_line U l (ho l hl)).2.1
          · cases List.mem_singleton.1 hl
            intro c hc
            cases hc

/-- C86: white space other than a space inside a word is not detected, nor is a word that occurs twice. -/
theorem C86_undetected : text_to_wordlist asciiUni "one\ttwo\nthree\nthree".toList (some 3) =
    .ok ["one\ttwo".toList, "three".toList, "three".toList] := by decide +kernel

example : text_to_wordlist asciiUni "# words\n  One \n\ntwo\n".toList (some 2) = .ok ["one".toList, "two".toList] := by
  decide +kernel

example : text_to_wordlist asciiUni "one two".toList none = .error .syntaxError := by decide +kernel

end Bitcoinx
