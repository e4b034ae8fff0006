import Verif.Props.Bip39
import Verif.Props.Message
import Verif.Lemmas.Digests
import Verif.Lemmas.Asm

/-! # C108: the seeds of BIP39 mnemonics -/

namespace Bitcoinx
open Spec

theorem sentence_iff (ws : List Str) (t : Str) : Sentence ws t ↔ t = joinStr [' '] ws := by
  constructor
  · intro h
    induction h with
    | nil => rfl
    | one w => rfl
    | more w ws t hne _ ih =>
      cases ws with
      | nil => exact absurd rfl hne
      | cons x xs => rw [joinStr, ih]; simp
  · rintro rfl
    induction ws with
    | nil => exact .nil
    | cons w ws ih =>
      cases ws with
      | nil => exact .one w
      | cons x xs =>
        have := Sentence.more w (x :: xs) _ (by simp) ih
        simpa [joinStr] using this

theorem pbkdf2Rounds_spec (prf : Bytes → Bytes) (hl : ∀ x, (prf x).length = 64) (salt : Bytes) (n j : Nat) (key : Bytes)
    (h1 : key.length = 64)
    (h2 : ∀ k < 64, key.getD k 0 = ((List.range (j + 1)).map (fun i => (prfChain prf salt i).getD k 0)).foldl (· ^^^ ·) 0) :
    Pbkdf2 prf salt (j + 1 + n) (pbkdf2Rounds prf n (prfChain prf salt j) key) := by
  induction n generalizing j key with
  | zero => exact ⟨h1, h2⟩
  | succ n ih =>
    have := ih (j + 1) (List.zipWith (· ^^^ ·) key (prfChain prf salt (j + 1))) (by simp [h1, prfChain, hl]) (by
      intro k hk
      rw [List.range_succ, List.map_append, List.foldl_append, ← h2 k hk]
      have h3 : k < key.length := by omega
      have h4 : k < (prfChain prf salt (j + 1)).length := by rw [prfChain, hl]; omega
      simp [List.getD_eq_getElem?_getD, List.getElem?_zipWith, h3, h4])
    rw [show j + 1 + (n + 1) = j + 1 + 1 + n by omega]
    exact this

/-- C108: the key derivation is that of RFC 8018. -/
theorem C108_pbkdf2 (H : Hashes) (password salt : Bytes) (n : Nat) (hn : 1 ≤ n) (key : Bytes) :
    pbkdf2_hmac_sha512 H password salt n = key ↔ Pbkdf2 (H.hmac_sha512 password) salt n key := by
  have h := pbkdf2Rounds_spec (H.hmac_sha512 password) (H.hmac_sha512_length password) salt (n - 1) 0
    (prfChain (H.hmac_sha512 password) salt 0) (H.hmac_sha512_length _ _) (by simp)
  rw [show 0 + 1 + (n - 1) = n by omega] at h
  have he : pbkdf2_hmac_sha512 H password salt n = pbkdf2Rounds (H.hmac_sha512 password) (n - 1)
    (prfChain (H.hmac_sha512 password) salt 0) (prfChain (H.hmac_sha512 password) salt 0) := rfl
  rw [← he] at h
  constructor
  · rintro rfl; exact h
  · rintro ⟨h1, h2⟩
    apply List.ext_getElem (h.1.trans h1.symm)
    intro k hk hk'
    have h3 := h.2 k (by omega)
    have h4 := h2 k (by omega)
    rw [← h4] at h3
    simpa [List.getD_eq_getElem?_getD, hk, hk'] using h3

theorem seed_iff (H : Hashes) (U : PyUni) (m p : Str) (seed : Bytes) :
    BIP39Mnemonic.to_seed H U m p = seed ↔
      Bip39Seed H (utf8 (BIP39Mnemonic.normalize U m)) (utf8 (U.nfkd p)) seed := by
  rw [BIP39Mnemonic.to_seed, C108_pbkdf2 _ _ _ _ (by omega), Bip39Seed,
    show utf8 "mnemonic".toList = [0x6d, 0x6e, 0x65, 0x6d, 0x6f, 0x6e, 0x69, 0x63] by decide +kernel]
  rfl

theorem normalize_sentence (U : PyUni) (m : Str) (ws : List Str) (hs : Split U.text.isspace (U.nfkd m) ws) :
    BIP39Mnemonic.normalize U m = joinStr [' '] (ws.map U.case.lower) := by
  rw [BIP39Mnemonic.normalize, normalize_text, (split_iff U.text _ ws).2 hs, lower_join]

/-- C108: the seed is that of BIP39 for the words of the mnemonic, decomposed and in lower case, with one space between
two of them, and for the decomposed passphrase. -/
theorem C108_seed (H : Hashes) (U : PyUni) (m p : Str) (ws : List Str) (t : Str)
    (hs : Split U.text.isspace (U.nfkd m) ws) (ht : Sentence (ws.map U.case.lower) t) (seed : Bytes) :
    BIP39Mnemonic.to_seed H U m p = seed ↔ Bip39Seed H (utf8 t) (utf8 (U.nfkd p)) seed := by
  rw [seed_iff, normalize_sentence U m ws hs, ← (sentence_iff _ t).1 ht]

theorem nfkd_split_exists (U : PyUni) (m : Str) : ∃ ws, Split U.text.isspace (U.nfkd m) ws :=
  ⟨_, (split_iff U.text _ _).1 rfl⟩

theorem split_lower_words (U : PyUni) (m : Str) (ws : List Str) (hs : Split U.text.isspace (U.nfkd m) ws) :
    ∀ w ∈ ws.map U.case.lower, w ≠ [] ∧ ∀ c ∈ w, U.text.isspace c = false := by
  intro w hw
  obtain ⟨v, hv, rfl⟩ := List.mem_map.1 hw
  rw [← (split_iff U.text _ ws).2 hs] at hv
  obtain ⟨h1, h2⟩ := split_words _ _ v hv
  exact U.lower_word v h1 h2

/-- C108: two mnemonics with passphrases have the same seed if their words are the same up to case and their passphrases
are the same decomposed.  If they have the same seed otherwise, the key derivation has a collision. -/
theorem C108_same (H : Hashes) (U : PyUni) (m m' p p' : Str) (ws ws' : List Str)
    (hs : Split U.text.isspace (U.nfkd m) ws) (hs' : Split U.text.isspace (U.nfkd m') ws') :
    (ws.map U.case.lower = ws'.map U.case.lower ∧ U.nfkd p = U.nfkd p' →
      BIP39Mnemonic.to_seed H U m p = BIP39Mnemonic.to_seed H U m' p') ∧
    (BIP39Mnemonic.to_seed H U m p = BIP39Mnemonic.to_seed H U m' p' →
      (ws.map U.case.lower = ws'.map U.case.lower ∧ U.nfkd p = U.nfkd p') ∨
      ∃ (a a' b b' seed : Bytes), (a, b) ≠ (a', b') ∧ Bip39Seed H a b seed ∧ Bip39Seed H a' b' seed) := by
  constructor
  · rintro ⟨h1, h2⟩
    rw [BIP39Mnemonic.to_seed, BIP39Mnemonic.to_seed, normalize_sentence U m ws hs, normalize_sentence U m' ws' hs', h1,
      normalize_text, normalize_text, h2]
  · intro h
    by_cases hc : ws.map U.case.lower = ws'.map U.case.lower ∧ U.nfkd p = U.nfkd p'
    · exact .inl hc
    · right
      refine ⟨_, _, _, _, _, ?_, (seed_iff H U m p _).1 rfl, (seed_iff H U m' p' _).1 h.symm⟩
      intro he
      obtain ⟨h1, h2⟩ := Prod.mk.inj he
      refine hc ⟨?_, utf8_injective h2⟩
      have h3 := utf8_injective h1
      rw [normalize_sentence U m ws hs, normalize_sentence U m' ws' hs'] at h3
      have h4 := congrArg U.text.split h3
      rwa [split_join' _ _ (split_lower_words U m ws hs), split_join' _ _ (split_lower_words U m' ws' hs')] at h4

theorem split_mem {space : Char → Bool} {t : Str} {ws : List Str} (h : Split space t ws) :
    ∀ w ∈ ws, ∀ c ∈ w, c ∈ t := by
  induction h with
  | blank t h => simp
  | word s w rest ws _ _ _ _ _ ih =>
    intro v hv c hc
    rcases List.mem_cons.1 hv with rfl | hv
    · simp [hc]
    · simp [ih v hv c hc]

/-- C108: for ASCII texts: the case of the letters and the white space of a mnemonic make no difference; those of a
passphrase do, as any two passphrases with one seed show a collision. -/
theorem C108_ascii (H : Hashes) (U : PyUni) (m m' : Str) (hm : ∀ c ∈ m, c.toNat < 128) (hm' : ∀ c ∈ m', c.toNat < 128)
    (ws ws' : List Str) (hs : Split isAsciiSplit m ws) (hs' : Split isAsciiSplit m' ws')
    (h : ws.map (List.map Char.toLower) = ws'.map (List.map Char.toLower)) :
    (∀ p, BIP39Mnemonic.to_seed H U m p = BIP39Mnemonic.to_seed H U m' p) ∧
    ∀ p p' : Str, (∀ c ∈ p, c.toNat < 128) → (∀ c ∈ p', c.toNat < 128) → p ≠ p' →
      BIP39Mnemonic.to_seed H U m p = BIP39Mnemonic.to_seed H U m' p' →
      ∃ (a a' b b' seed : Bytes), (a, b) ≠ (a', b') ∧ Bip39Seed H a b seed ∧ Bip39Seed H a' b' seed := by
  have key : ∀ (t : Str) (us : List Str), (∀ c ∈ t, c.toNat < 128) → Split isAsciiSplit t us →
      Split U.text.isspace (U.nfkd t) us ∧ us.map U.case.lower = us.map (List.map Char.toLower) := by
    intro t us ht hsp
    constructor
    · rw [U.nfkd_ascii t ht]
      clear h hs hs' hm hm'
      induction hsp with
      | blank t h => exact .blank t fun c hc => by rw [U.text.isspace_ascii c (ht c hc)]; exact h c hc
      | word s w rest us h1 h2 h3 h4 h5 ih =>
        refine .word s w rest us ?_ h2 ?_ ?_ (ih fun c hc => ht c (by simp [hc]))
        · intro c hc
          rw [U.text.isspace_ascii c (ht c (by simp [hc]))]; exact h1 c hc
        · intro c hc
          rw [U.text.isspace_ascii c (ht c (by simp [hc]))]; exact h3 c hc
        · intro c hc
          rw [U.text.isspace_ascii c (ht c (by
            have : c ∈ rest := List.mem_of_mem_head? hc
            simp [this]))]
          exact h4 c hc
    · exact List.map_congr_left fun w hw => U.case.lower_ascii w fun c hc => ht c (split_mem hsp w hw c hc)
  obtain ⟨k1, k2⟩ := key m ws hm hs
  obtain ⟨k1', k2'⟩ := key m' ws' hm' hs'
  have hw : ws.map U.case.lower = ws'.map U.case.lower := by rw [k2, k2', h]
  refine ⟨fun p => (C108_same H U m m' p p ws ws' k1 k1').1 ⟨hw, rfl⟩, fun p p' hp hp' hne he => ?_⟩
  rcases (C108_same H U m m' p p' ws ws' k1 k1').2 he with ⟨_, h2⟩ | h2
  · rw [U.nfkd_ascii p hp, U.nfkd_ascii p' hp'] at h2
    exact absurd h2 hne
  · exact h2

/-- C108: for a mnemonic that is valid by a word list, the seed is the one of the text that its entropy gives, exactly as it
is: other implementations, which do not change the case or the white space, agree on the seeds of generated mnemonics. -/
theorem C108_valid (H : Hashes) (U : PyUni) (l : List Str) (h2048 : l.length = 2048) (hl : Wordlist U l) (m p : Str)
    (hv : BIP39Mnemonic.is_valid H U m l = .ok true) :
    ∃ (e : Bytes) (t : Str), Bip39Size e.length ∧ BIP39Mnemonic.from_entropy H e l = .ok t ∧ U.nfkd t = t ∧
      BIP39Mnemonic.to_seed H U m p = BIP39Mnemonic.to_seed H U t p ∧
      Bip39Seed H (utf8 t) (utf8 (U.nfkd p)) (BIP39Mnemonic.to_seed H U m p) := by
  obtain ⟨e, hsz, he⟩ := (C70_sound H U l h2048 hl m).1 hv
  obtain ⟨i, _, ws, hws, ht⟩ := (C70_words H e hsz l _).1 he
  have hword := word_of_index hl hws
  have hn := normalize_words U ws hword
  rw [← ht] at hn
  refine ⟨e, _, hsz, he, ?_, ?_, (seed_iff H U m p _).1 rfl⟩
  · rw [ht, nfkd_join]
    congr 1
    conv_rhs => rw [← List.map_id ws]
    exact List.map_congr_left fun w hw => (hword w hw).nfkd
  · rw [BIP39Mnemonic.to_seed, BIP39Mnemonic.to_seed, hn]

/-! Cases: a vector for PBKDF2 with SHA-512, and two spellings of a mnemonic. -/

example : pbkdf2_hmac_sha512 Digest.fips (utf8 "password".toList) (utf8 "salt".toList) 2 = (fromhex
    "e1d9c16aa681708a45f5c7c4e215ceb66e011a2e9f0040713f18aefdb866d53cf76cab2868a39b9f7840edce4fef5a82be67335c77a6068e04112754f27ccf4e".toList).toOption.getD [] := by
  decide +kernel

example : Split asciiUni.text.isspace (asciiUni.nfkd " Zoo  abandon".toList) ["Zoo".toList, "abandon".toList] :=
  (split_iff asciiText _ _).1 (by decide +kernel)

example : Sentence (["Zoo".toList, "abandon".toList].map asciiUni.case.lower) "zoo abandon".toList :=
  (sentence_iff _ _).2 (by decide +kernel)

example (p : Str) : BIP39Mnemonic.to_seed toyHashes asciiUni " Zoo  abandon".toList p =
    BIP39Mnemonic.to_seed toyHashes asciiUni "zoo\tABANDON\n".toList p :=
  (C108_ascii toyHashes asciiUni _ _ (by decide +kernel) (by decide +kernel) ["Zoo".toList, "abandon".toList]
    ["zoo".toList, "ABANDON".toList] ((split_iff asciiText _ _).1 (by decide +kernel))
    ((split_iff asciiText _ _).1 (by decide +kernel)) (by decide +kernel)).1 p

end Bitcoinx
