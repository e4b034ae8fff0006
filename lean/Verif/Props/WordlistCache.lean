import Verif.Props.Wordlists
import Verif.Spec.WordlistCache

/-! # C109: the cache of word lists -/

namespace Bitcoinx
open Spec

/-- The number of words that a request expects. -/
def ListRequest.expected : ListRequest → Nat
  | .electrum _ => 1626
  | .bip39 _ _ => 2048

theorem run_eq (U : PyUni) (cache : WordlistCache) (r : ListRequest) :
    r.run U cache = Wordlists.cached_wordlist U r.files cache r.filename (some (ListRequest.expected r)) := by
  cases r <;> rfl

theorem expected_pos (r : ListRequest) : ListRequest.expected r ≠ 0 := by cases r <;> simp [ListRequest.expected]

theorem read_length {U : PyUni} {files : Str → Res Str} {f : Str} {n : Nat} {l : List Str}
    (h : Wordlists.read_wordlist U files f (some n) = .ok l) :
    l.length = n ∧ ∃ text, files f = .ok text ∧ text_to_wordlist U text (some n) = .ok l := by
  rw [Wordlists.read_wordlist] at h
  cases hf : files f with
  | error e => rw [hf] at h; cases h
  | ok text =>
    rw [hf] at h
    have h' : text_to_wordlist U text (some n) = .ok l := h
    refine ⟨?_, text, rfl, h'⟩
    rcases C86_result U text (some n) with ⟨ws, h1, _, h2⟩ | h1
    · rw [h1] at h'
      cases h'
      exact h2 n rfl
    · rw [h1] at h'
      cases h'

/-- What one request does. -/
theorem run_cases (U : PyUni) (cache : WordlistCache) (r : ListRequest) (hne : cache r.filename ≠ some []) :
    (∃ l, cache r.filename = some l ∧ r.run U cache = (.ok l, cache)) ∨
    (cache r.filename = none ∧
      ((∃ l, Wordlists.read_wordlist U r.files r.filename (some (ListRequest.expected r)) = .ok l ∧ l ≠ [] ∧
          r.run U cache = (.ok l, fun name => if name = r.filename then some l else cache name)) ∨
       ∃ e, Wordlists.read_wordlist U r.files r.filename (some (ListRequest.expected r)) = .error e ∧
          r.run U cache = (.error e, cache))) := by
  rw [run_eq, Wordlists.cached_wordlist]
  cases hc : cache r.filename with
  | some l =>
    have hl : l ≠ [] := fun h => hne (by rw [hc, h])
    exact .inl ⟨l, rfl, by simp [hl]⟩
  | none =>
    refine .inr ⟨rfl, ?_⟩
    cases hr : Wordlists.read_wordlist U r.files r.filename (some (ListRequest.expected r)) with
    | error e => exact .inr ⟨e, rfl, by simp [hr]⟩
    | ok l =>
      refine .inl ⟨l, rfl, fun h => ?_, by simp [hr]⟩
      have := (read_length hr).1
      rw [h] at this
      exact expected_pos r this.symm

/-- The invariant: each list in the cache was read by a request for its file, and is not empty. -/
theorem cached_inv {U : PyUni} {past : List ListRequest} {cache : WordlistCache} (h : Cached U past cache) (f : Str)
    (l : List Str) (hl : cache f = some l) : l ≠ [] ∧ ∃ r ∈ past, r.filename = f ∧
      Wordlists.read_wordlist U r.files f (some (ListRequest.expected r)) = .ok l := by
  induction h with
  | start => cases hl
  | step past cache r hp ih =>
    have old : cache f = some l → l ≠ [] ∧ ∃ r' ∈ past ++ [r], r'.filename = f ∧
        Wordlists.read_wordlist U r'.files f (some (ListRequest.expected r')) = .ok l := fun hl => by
      obtain ⟨h1, r', h2, h3⟩ := ih hl
      exact ⟨h1, r', by simp [h2], h3⟩
    by_cases he : cache r.filename = some []
    · rw [run_eq, Wordlists.cached_wordlist, he] at hl
      cases hr : Wordlists.read_wordlist U r.files r.filename (some (ListRequest.expected r)) with
      | error e => simp only [Option.getD_some, hr, if_true] at hl; exact old hl
      | ok l' =>
        simp only [Option.getD_some, hr, if_true] at hl
        split at hl
        · next hf =>
          cases hl
          refine ⟨fun h => ?_, r, by simp, hf.symm, hf ▸ hr⟩
          have := (read_length hr).1
          rw [h] at this
          exact expected_pos r this.symm
        · exact old hl
    · rcases run_cases U cache r he with ⟨_, _, h2⟩ | ⟨_, ⟨l', h1, h2, h3⟩ | ⟨e, _, h2⟩⟩
      · rw [h2] at hl; exact old hl
      · rw [h3] at hl
        simp only at hl
        split at hl
        · next hf => cases hl; exact ⟨h2, r, by simp, hf.symm, hf ▸ h1⟩
        · exact old hl
      · rw [h2] at hl; exact old hl

theorem cached_ne {U : PyUni} {past : List ListRequest} {cache : WordlistCache} (h : Cached U past cache) (f : Str) :
    cache f ≠ some [] := fun hc => (cached_inv h f [] hc).1 rfl

/-- C109: whatever was asked before and however the files changed, a list that is returned was in the file at the time of
that request or of an earlier one, and has 2048 words, or 1626 if the file is that of the old Electrum words. -/
theorem C109_answers (U : PyUni) (past : List ListRequest) (cache : WordlistCache) (hp : Cached U past cache)
    (r : ListRequest) (l : List Str) (h : (r.run U cache).1 = .ok l) :
    ∃ r' ∈ past ++ [r], r'.filename = r.filename ∧
      ((l.length = 2048 ∧ ∃ text, r'.files r.filename = .ok text ∧ text_to_wordlist U text (some 2048) = .ok l) ∨
      (l.length = 1626 ∧ r.filename = "electrum_old.txt".toList ∧
        ∃ text, r'.files r.filename = .ok text ∧ text_to_wordlist U text (some 1626) = .ok l)) := by
  have fin : ∀ r', r' ∈ past ++ [r] → r'.filename = r.filename →
      Wordlists.read_wordlist U r'.files r.filename (some (ListRequest.expected r')) = .ok l → ∃ r' ∈ past ++ [r], r'.filename = r.filename ∧
      ((l.length = 2048 ∧ ∃ text, r'.files r.filename = .ok text ∧ text_to_wordlist U text (some 2048) = .ok l) ∨
      (l.length = 1626 ∧ r.filename = "electrum_old.txt".toList ∧
        ∃ text, r'.files r.filename = .ok text ∧ text_to_wordlist U text (some 1626) = .ok l)) := by
    intro r' h1 h2 h3
    refine ⟨r', h1, h2, ?_⟩
    have h4 := read_length h3
    cases r' with
    | electrum files => exact .inr ⟨h4.1, h2.symm, h4.2⟩
    | bip39 files f => exact .inl ⟨h4.1, h4.2⟩
  rcases run_cases U cache r (cached_ne hp _) with ⟨l', h1, h2⟩ | ⟨_, ⟨l', h1, _, h3⟩ | ⟨e, _, h2⟩⟩
  · rw [h2] at h
    cases h
    obtain ⟨_, r', h3, h4, h5⟩ := cached_inv hp _ _ h1
    exact fin r' (by simp [h3]) h4 h5
  · rw [h3] at h
    cases h
    exact fin r (by simp) rfl h1
  · rw [h2] at h
    cases h

theorem run_keeps (U : PyUni) {cache : WordlistCache} (r : ListRequest) (hne : cache r.filename ≠ some []) {f : Str}
    {l : List Str} (h : cache f = some l) : (r.run U cache).2 f = some l := by
  rcases run_cases U cache r hne with ⟨l', _, h2⟩ | ⟨hn, ⟨l', _, _, h3⟩ | ⟨e, _, h2⟩⟩
  · rw [h2]; exact h
  · rw [h3]
    simp only
    rw [if_neg]
    · exact h
    · rintro rfl
      rw [hn] at h
      cases h
  · rw [h2]; exact h

theorem run_answer_cached (U : PyUni) {cache : WordlistCache} (r : ListRequest) (hne : cache r.filename ≠ some [])
    {l : List Str} (h : (r.run U cache).1 = .ok l) : (r.run U cache).2 r.filename = some l := by
  rcases run_cases U cache r hne with ⟨l', h1, h2⟩ | ⟨hn, ⟨l', _, _, h3⟩ | ⟨e, _, h2⟩⟩
  · rw [h2] at h ⊢; cases h; exact h1
  · rw [h3] at h ⊢; cases h; simp
  · rw [h2] at h; cases h

/-- C109: once a list was returned for a file, the same list is returned for it ever after, whatever happens to the file and
whichever number of words is expected. -/
theorem C109_stable (U : PyUni) (past later : List ListRequest) (cache cache' : WordlistCache) (r r' : ListRequest)
    (hp : Cached U past cache) (l : List Str) (h : (r.run U cache).1 = .ok l)
    (hl : Cached U (past ++ [r] ++ later) cache') (hf : r'.filename = r.filename) : (r'.run U cache').1 = .ok l := by
  have unique : ∀ {p : List ListRequest} {c c' : WordlistCache}, Cached U p c → Cached U p c' → c = c' := by
    intro p c c' h1
    induction h1 generalizing c' with
    | start =>
      intro h2
      generalize hq : ([] : List ListRequest) = q at h2
      cases h2 with
      | start => rfl
      | step => simp at hq
    | step p c r _ ih =>
      intro h2
      generalize hq : p ++ [r] = q at h2
      cases h2 with
      | start => simp at hq
      | step p' c'' r'' h3 =>
        obtain ⟨rfl, h4⟩ := List.append_inj' hq rfl
        cases h4
        rw [ih h3]
  have hc : cache' r.filename = some l := by
    induction later using List.reverseRecOn generalizing cache' with
    | nil =>
      rw [List.append_nil] at hl
      rw [← unique (.step past cache r hp) hl]
      exact run_answer_cached U r (cached_ne hp _) h
    | append_singleton later x ih =>
      rw [← List.append_assoc] at hl
      generalize hq : past ++ [r] ++ later ++ [x] = q at hl
      cases hl with
      | start => simp at hq
      | step p c y h3 =>
        obtain ⟨rfl, h4⟩ := List.append_inj' hq rfl
        cases h4
        exact run_keeps U x (cached_ne h3 _) (ih c h3)
  rcases run_cases U cache' r' (cached_ne hl _) with ⟨l', h1, h2⟩ | ⟨hn, _⟩
  · rw [hf, hc] at h1
    cases h1
    rw [h2]
  · rw [hf, hc] at hn
    cases hn

/-- C109: if the files do not change, what was asked before makes no difference for any other file than that of the old
Electrum words: the answer, list or exception, is that of reading the file. -/
theorem C109_history (U : PyUni) (files : Str → Res Str) (past : List ListRequest) (cache : WordlistCache)
    (hp : Cached U past cache) (hc : ∀ r ∈ past, r.files = files) (f : Str) (hf : f ≠ "electrum_old.txt".toList) :
    (Wordlists.bip39_wordlist U files cache f).1 = (do text_to_wordlist U (← files f) (some 2048)) := by
  have hrun := run_cases U cache (.bip39 files f) (cached_ne hp _)
  have he : (Wordlists.bip39_wordlist U files cache f) = ListRequest.run U cache (.bip39 files f) := rfl
  rw [he]
  rcases hrun with ⟨l, h1, h2⟩ | ⟨_, ⟨l, h1, _, h3⟩ | ⟨e, h1, h2⟩⟩
  · rw [h2]
    obtain ⟨_, r, h3, h4, h5⟩ := cached_inv hp _ _ h1
    cases r with
    | electrum files' => exact absurd h4.symm hf
    | bip39 files' f' =>
      have : files' = files := hc _ h3
      subst this
      exact h5.symm
  · rw [h3]; exact h1.symm
  · rw [h2]; exact h1.symm

theorem cached_new (U : PyUni) (files : Str → Res Str) (cache : WordlistCache) (f : Str) (count : Option Nat)
    (h : cache f = none) : (Wordlists.cached_wordlist U files cache f count).1 = Wordlists.read_wordlist U files f count := by
  rw [Wordlists.cached_wordlist, h, Option.getD_none, if_pos rfl]
  cases Wordlists.read_wordlist U files f count <;> rfl

theorem cached_old (U : PyUni) (files : Str → Res Str) (cache : WordlistCache) (f : Str) (count : Option Nat)
    (l : List Str) (hl : l ≠ []) (h : cache f = some l) : (Wordlists.cached_wordlist U files cache f count).1 = .ok l := by
  rw [Wordlists.cached_wordlist, h, Option.getD_some, if_neg hl]

/-- C109: with the file of old Electrum words as it is shipped, those words are what is returned for them, whatever was asked
before.  Asked for as a BIP39 list, the same file is refused, unless its words were asked for before: then they are
returned, though they are not 2048. -/
theorem C109_electrum (U : PyUni) (files : Str → Res Str) (hfile : files "electrum_old.txt".toList = .ok electrumText)
    (past : List ListRequest) (cache : WordlistCache) (hp : Cached U past cache) (hc : ∀ r ∈ past, r.files = files) :
    (Wordlists.original_electrum_wordlist U files cache).1 = .ok original_electrum_wordlist ∧
    (ListRequest.electrum files ∉ past →
      (Wordlists.bip39_wordlist U files cache "electrum_old.txt".toList).1 = .error .syntaxError) ∧
    (ListRequest.electrum files ∈ past →
      (Wordlists.bip39_wordlist U files cache "electrum_old.txt".toList).1 = .ok original_electrum_wordlist) := by
  have hread : ∀ count, Wordlists.read_wordlist U files "electrum_old.txt".toList (some count) =
      text_to_wordlist U electrumText (some count) := fun count => by
    rw [Wordlists.read_wordlist, hfile]; rfl
  have h1626 := (C86_shipped U).2
  have h2048 : text_to_wordlist U electrumText (some 2048) = .error .syntaxError := by
    rcases C86_result U electrumText (some 2048) with ⟨ws, h1, _, h2⟩ | h1
    · exfalso
      have h3 : ws = original_electrum_wordlist := by
        rw [text_to_wordlist] at h1 h1626
        split at h1
        · cases h1
        · split at h1
          · cases h1
          · split at h1626
            · cases h1626
            · split at h1626
              · cases h1626
              · exact (Except.ok.inj h1).symm.trans (Except.ok.inj h1626)
      have h4 := h2 2048 rfl
      rw [h3, electrum_length] at h4
      cases h4
    · exact h1
  have hinv : (ListRequest.electrum files ∈ past → cache "electrum_old.txt".toList = some original_electrum_wordlist) ∧
      (ListRequest.electrum files ∉ past → cache "electrum_old.txt".toList = none) := by
    induction hp with
    | start => exact ⟨fun h => absurd h (by simp), fun _ => rfl⟩
    | step past cache r hp ih =>
      have ih := ih fun r hr => hc r (by simp [hr])
      have hne := cached_ne hp r.filename
      have hr : r.files = files := hc r (by simp)
      constructor
      · intro hmem
        by_cases hold : ListRequest.electrum files ∈ past
        · exact run_keeps U r hne (ih.1 hold)
        · have : r = .electrum files := by
            rcases List.mem_append.1 hmem with h | h
            · exact absurd h hold
            · exact (List.mem_singleton.1 h).symm
          subst this
          apply run_answer_cached U (.electrum files) hne
          rcases run_cases U cache (.electrum files) hne with ⟨l, h1, _⟩ | ⟨_, ⟨l, h1, _, h3⟩ | ⟨e, h1, _⟩⟩
          · rw [show (ListRequest.electrum files).filename = "electrum_old.txt".toList from rfl, ih.2 hold] at h1
            cases h1
          · have h1 : Wordlists.read_wordlist U files "electrum_old.txt".toList (some 1626) = .ok l := h1
            rw [hread, h1626] at h1
            rw [h3, h1]
          · have h1 : Wordlists.read_wordlist U files "electrum_old.txt".toList (some 1626) = .error e := h1
            rw [hread, h1626] at h1
            cases h1
      · intro hmem
        have hold : ListRequest.electrum files ∉ past := fun h => hmem (by simp [h])
        have hn := ih.2 hold
        rcases run_cases U cache r hne with ⟨l, _, h2⟩ | ⟨_, ⟨l, h1, _, h3⟩ | ⟨e, _, h2⟩⟩
        · rw [h2]; exact hn
        · rw [h3]
          simp only
          rw [if_neg]
          · exact hn
          · intro hf
            cases r with
            | electrum files' =>
              have : files' = files := hr
              subst this
              exact hmem (by simp)
            | bip39 files' f =>
              have e1 : files' = files := hr
              have e2 : "electrum_old.txt".toList = f := hf
              subst e1
              subst e2
              have h1 : Wordlists.read_wordlist U files' "electrum_old.txt".toList (some 2048) = .ok l := h1
              rw [hread, h2048] at h1
              cases h1
        · rw [h2]; exact hn
  have new : ∀ count, ListRequest.electrum files ∉ past →
      (Wordlists.cached_wordlist U files cache "electrum_old.txt".toList (some count)).1 =
        text_to_wordlist U electrumText (some count) := by
    intro count h
    rw [cached_new U files cache _ _ (hinv.2 h), hread]
  have old : ∀ count, ListRequest.electrum files ∈ past →
      (Wordlists.cached_wordlist U files cache "electrum_old.txt".toList (some count)).1 =
        .ok original_electrum_wordlist := by
    intro count h
    have hne := (cached_inv hp "electrum_old.txt".toList original_electrum_wordlist (hinv.1 h)).1
    exact cached_old U files cache _ _ _ hne (hinv.1 h)
  refine ⟨?_, fun h => (new 2048 h).trans h2048, fun h => old 2048 h⟩
  by_cases h : ListRequest.electrum files ∈ past
  · exact old 1626 h
  · exact (new 1626 h).trans h1626

/-! A case: a file with the old Electrum words, asked for twice. -/

example : let files : Str → Res Str := fun _ => .ok electrumText
    Cached asciiUni [.electrum files] (ListRequest.run asciiUni (fun _ => none) (.electrum files)).2 :=
  .step [] _ _ .start

end Bitcoinx
