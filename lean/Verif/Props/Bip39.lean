import Verif.Lemmas.Mnemonic
import Verif.Lemmas.Wordlists

/-! # C70: BIP39 mnemonics -/

namespace Bitcoinx
open Spec

/-- The number of the entropy followed by the checksum. -/
def bip39Number (H : Hashes) (e : Bytes) : Nat :=
  beValue e * 2 ^ (e.length / 4) + beValue (H.sha256 e) / 2 ^ (256 - e.length / 4)

/-- The numbers of the words. -/
def bip39Indices (H : Hashes) (e : Bytes) : List Nat :=
  (BIP39Mnemonic.partsLoop (3 * e.length / 4) (bip39Number H e)).reverse

theorem checksum_lt (H : Hashes) (e : Bytes) (k : Nat) (hk : k ≤ 256) :
    beValue (H.sha256 e) / 2 ^ (256 - k) < 2 ^ k := by
  have h := beValue_lt (H.sha256 e)
  rw [H.sha256_length] at h
  apply Nat.div_lt_of_lt_mul
  rw [← pow_add, Nat.sub_add_cancel hk]
  exact h.trans_eq (by norm_num)

theorem bip39Number_lt (H : Hashes) (e : Bytes) (h : Bip39Size e.length) :
    bip39Number H e < 2048 ^ (3 * e.length / 4) := by
  obtain ⟨k, h4, h8, hl⟩ := h
  have h1 : e.length / 4 = k := by omega
  have h2 : 3 * e.length / 4 = 3 * k := by omega
  have h3 := beValue_lt e
  have h5 := checksum_lt H e k (by omega)
  rw [bip39Number, h1, h2]
  rw [hl] at h3
  have h6 : (2048 : Nat) ^ (3 * k) = 256 ^ (4 * k) * 2 ^ k := by
    rw [show (2048 : Nat) = 2 ^ 11 by norm_num, show (256 : Nat) = 2 ^ 8 by norm_num, ← pow_mul, ← pow_mul, ← pow_add]
    congr 1
    omega
  rw [h6]
  calc _ < beValue e * 2 ^ k + 2 ^ k := by omega
    _ = (beValue e + 1) * 2 ^ k := by ring
    _ ≤ _ := Nat.mul_le_mul_right _ h3

theorem bip39_iff (H : Hashes) (e : Bytes) (h : Bip39Size e.length) (indices : List Nat) :
    Bip39 H e indices ↔ indices = bip39Indices H e := by
  have hlt := bip39Number_lt H e h
  obtain ⟨k, h4, h8, hl⟩ := h
  have h1 : e.length / 4 = k := by omega
  have h2 : 3 * e.length / 4 = 3 * k := by omega
  have hbits : (bytesBits (H.sha256 e)).length = 256 := by rw [bytesBits_length, H.sha256_length]
  have hv : bitsValue (bytesBits e ++ (bytesBits (H.sha256 e)).take (e.length / 4)) = bip39Number H e := by
    rw [bitsValue_append, bitsValue_bytesBits, bitsValue_take _ _ (by rw [hbits]; omega), bitsValue_bytesBits, hbits,
      List.length_take, hbits, Nat.min_eq_left (by omega), bip39Number]
  have hlen : (bytesBits e ++ (bytesBits (H.sha256 e)).take (e.length / 4)).length = 11 * (3 * k) := by
    rw [List.length_append, bytesBits_length, List.length_take, hbits]
    omega
  constructor
  · rintro ⟨hi, hb⟩
    have hil : indices.length = 3 * k := by
      have := congrArg List.length hb
      rw [flatMap_bits_length, hlen] at this
      omega
    have hn : Nat.ofDigits 2048 indices.reverse = bip39Number H e := by
      rw [← hv, ← hb, bitsValue_flatMap _ hi]
    have := partsLoop_ofDigits indices.reverse (fun i h => hi i (by simpa using h))
    rw [List.length_reverse, hil, hn, ← h2] at this
    rw [bip39Indices, this, List.reverse_reverse]
  · rintro rfl
    have hi : ∀ i ∈ bip39Indices H e, i < 2048 := by
      intro i hi
      exact partsLoop_lt _ _ i (by simpa [bip39Indices] using hi)
    refine ⟨hi, bitsValue_inj ?_ ?_⟩
    · rw [flatMap_bits_length, hlen, bip39Indices, List.length_reverse, partsLoop_length, h2]
    · rw [bitsValue_flatMap _ hi, hv, bip39Indices, List.reverse_reverse, ofDigits_partsLoop _ _ hlt]

theorem from_entropy_eq (H : Hashes) (e : Bytes) (h : Bip39Size e.length) (l : List Str) :
    BIP39Mnemonic.from_entropy H e l = (do return joinStr [' '] (← mapAll (listItem l) (bip39Indices H e))) := by
  obtain ⟨k, h4, h8, hl⟩ := h
  rw [BIP39Mnemonic.from_entropy]
  simp only
  rw [if_neg (by omega)]
  simp only [be_bytes_to_int_eq, Nat.shiftRight_eq_div_pow, Nat.one_shiftLeft]
  rfl

/-- C70: the mnemonic generated consists of the words whose numbers of eleven bits are the entropy and the first bits of
its hash. -/
theorem C70_words (H : Hashes) (e : Bytes) (h : Bip39Size e.length) (l : List Str) (m : Str) :
    BIP39Mnemonic.from_entropy H e l = .ok m ↔ ∃ indices, Bip39 H e indices ∧ Words l indices m := by
  rw [from_entropy_eq H e h]
  constructor
  · intro hm
    obtain ⟨ws, h1, h2⟩ := bind_eq_ok.mp hm
    cases h2
    exact ⟨_, (bip39_iff H e h _).2 rfl, ws, (mapAll_inv h1).imp fun _ _ h => listItem_ok.1 h, rfl⟩
  · rintro ⟨indices, hi, ws, hw, rfl⟩
    rw [(bip39_iff H e h _).1 hi] at hw
    rw [mapAll_ok (hw.imp fun _ _ h => listItem_ok.2 h)]
    rfl

theorem forall₂_exists {α β : Type} {R : α → β → Prop} {xs : List α} (h : ∀ x ∈ xs, ∃ y, R x y) :
    ∃ ys, List.Forall₂ R xs ys := by
  induction xs with
  | nil => exact ⟨[], .nil⟩
  | cons x xs ih =>
    obtain ⟨y, hy⟩ := h x (by simp)
    obtain ⟨ys, hys⟩ := ih fun x hx => h x (by simp [hx])
    exact ⟨y :: ys, .cons hy hys⟩

theorem forall₂_mem_right {α β : Type} {R : α → β → Prop} {xs : List α} {ys : List β} (h : List.Forall₂ R xs ys) :
    ∀ y ∈ ys, ∃ x ∈ xs, R x y := by
  induction h with
  | nil => simp
  | cons h _ ih =>
    intro y hy
    rcases List.mem_cons.1 hy with rfl | hy
    · exact ⟨_, by simp, h⟩
    · obtain ⟨x, h1, h2⟩ := ih y hy
      exact ⟨x, by simp [h1], h2⟩

theorem forall₂_mem_left {α β : Type} {R : α → β → Prop} {xs : List α} {ys : List β} (h : List.Forall₂ R xs ys) :
    ∀ x ∈ xs, ∃ y ∈ ys, R x y := by
  induction h with
  | nil => simp
  | cons h _ ih =>
    intro x hx
    rcases List.mem_cons.1 hx with rfl | hx
    · exact ⟨_, by simp, h⟩
    · obtain ⟨y, h1, h2⟩ := ih x hx
      exact ⟨y, by simp [h1], h2⟩

theorem forall₂_len {α β : Type} {R : α → β → Prop} {xs : List α} {ys : List β} (h : List.Forall₂ R xs ys) :
    xs.length = ys.length := by
  induction h with
  | nil => rfl
  | cons _ _ ih => simp [ih]

/-- Every entropy has its words. -/
theorem words_exist {l : List Str} (h2048 : l.length = 2048) (indices : List Nat) (h : ∀ i ∈ indices, i < 2048) :
    ∃ ws, List.Forall₂ (fun i w => l[i]? = some w) indices ws :=
  forall₂_exists fun i hi => ⟨l[i]'(by rw [h2048]; exact h i hi), by simp [List.getElem?_eq_getElem, h2048, h i hi]⟩

theorem safe_index_eq {l : List Str} (hd : l.Nodup) {i : Nat} {w : Str} (h : l[i]? = some w) :
    BIP39Mnemonic.safe_index l w = some i := by
  rw [BIP39Mnemonic.safe_index, listIndex_getElem hd h]

/-- The words with given numbers determine the numbers. -/
theorem indices_of_words {l : List Str} (hd : l.Nodup) {indices : List Nat} {ws : List Str}
    (h : List.Forall₂ (fun i w => l[i]? = some w) indices ws) :
    ws.filterMap (BIP39Mnemonic.safe_index l) = indices ∧
      ws.filter (fun w => (BIP39Mnemonic.safe_index l w).isNone) = [] := by
  induction h with
  | nil => exact ⟨rfl, rfl⟩
  | cons h _ ih =>
    have hs := safe_index_eq hd h
    constructor
    · rw [List.filterMap_cons_some hs, ih.1]
    · rw [List.filter_cons_of_neg (by simp [hs]), ih.2]

theorem words_of_filter {l : List Str} {ws : List Str}
    (h : ws.filter (fun w => (BIP39Mnemonic.safe_index l w).isNone) = []) :
    List.Forall₂ (fun i w => l[i]? = some w) (ws.filterMap (BIP39Mnemonic.safe_index l)) ws := by
  induction ws with
  | nil => exact .nil
  | cons w ws ih =>
    cases hs : BIP39Mnemonic.safe_index l w with
    | none => rw [List.filter_cons_of_pos (by simp [hs])] at h; cases h
    | some i =>
      rw [List.filter_cons_of_neg (by simp [hs])] at h
      rw [List.filterMap_cons_some hs]
      refine .cons ?_ (ih h)
      apply listIndex_inv
      unfold BIP39Mnemonic.safe_index at hs
      split at hs
      · next h => cases hs; exact h
      · cases hs

theorem mem_sizes {m : Nat} : m ∈ [12, 15, 18, 21, 24] ↔ ∃ k, 4 ≤ k ∧ k ≤ 8 ∧ m = 3 * k := by
  constructor
  · intro h
    simp only [List.mem_cons, List.not_mem_nil, or_false] at h
    exact ⟨m / 3, by omega, by omega, by omega⟩
  · rintro ⟨k, h1, h2, h3⟩
    have : k = 4 ∨ k = 5 ∨ k = 6 ∨ k = 7 ∨ k = 8 := by omega
    rcases this with rfl | rfl | rfl | rfl | rfl <;> subst h3 <;> simp

theorem int_to_be_bytes_size (n w : Nat) (h : n < 256 ^ w) : int_to_be_bytes (n : Int) (some w) = .ok (beBytes w n) := by
  have h0 : ¬ ((n : Int) < 0) := by omega
  simp only [int_to_be_bytes, Option.getD_some, h0, if_false, Int.toNat_natCast, h, if_true]

/-- Validity in terms of the words of the normalized mnemonic. -/
theorem is_valid_words (H : Hashes) (U : PyUni) (m : Str) (l : List Str) (h2048 : l.length = 2048) (k : Nat)
    (h4 : 4 ≤ k) (h8 : k ≤ 8) (hk : (U.text.split (BIP39Mnemonic.normalize U m)).length = 3 * k) (indices : List Nat)
    (hi : (U.text.split (BIP39Mnemonic.normalize U m)).filterMap (BIP39Mnemonic.safe_index l) = indices)
    (hb : (U.text.split (BIP39Mnemonic.normalize U m)).filter (fun w => (BIP39Mnemonic.safe_index l w).isNone) = []) :
    ∃ e : Bytes, e.length = 4 * k ∧ beValue e = Nat.ofDigits 2048 indices.reverse / 2 ^ k ∧
      BIP39Mnemonic.is_valid H U m l =
        .ok (beValue (H.sha256 e) / 2 ^ (256 - k) == Nat.ofDigits 2048 indices.reverse % 2 ^ k) := by
  have hw := words_of_filter hb
  rw [hi] at hw
  have hlt : ∀ i ∈ indices, i < 2048 := by
    intro i hi
    obtain ⟨w, _, hw⟩ := forall₂_mem_left hw i hi
    rw [← h2048]
    exact (List.getElem?_eq_some_iff.1 hw).1
  have hil : indices.length = 3 * k := (forall₂_len hw).trans hk
  have hN : Nat.ofDigits 2048 indices.reverse / 2 ^ k < 256 ^ (4 * k) := by
    have := Nat.ofDigits_lt_base_pow_length (b := 2048) (l := indices.reverse) (by norm_num)
      (fun x hx => hlt x (by simpa using hx))
    rw [List.length_reverse, hil] at this
    apply Nat.div_lt_of_lt_mul
    refine this.trans_eq ?_
    rw [show (2048 : Nat) = 2 ^ 11 by norm_num, show (256 : Nat) = 2 ^ 8 by norm_num, ← pow_mul, ← pow_mul, ← pow_add]
    congr 1
    omega
  refine ⟨beBytes (4 * k) (Nat.ofDigits 2048 indices.reverse / 2 ^ k), beBytes_length _ _, beValue_beBytes _ _ hN, ?_⟩
  rw [BIP39Mnemonic.is_valid, if_neg (not_not.mpr h2048)]
  simp only
  rw [hk, if_neg (not_not.mpr (mem_sizes.2 ⟨k, h4, h8, rfl⟩)), hb, if_neg (not_not.mpr rfl), hi, entropyLoop_eq]
  rw [show 4 * (3 * k) / 3 = 4 * k by omega, show 3 * k / 3 = k by omega]
  simp only [Nat.one_shiftLeft, Nat.zero_add, Nat.one_mul]
  rw [int_to_be_bytes_size _ _ hN, ok_bind', be_bytes_to_int_eq, Nat.shiftRight_eq_div_pow, pure_ok']

theorem word_of_index {U : PyUni} {l : List Str} (hl : Wordlist U l) {indices : List Nat} {ws : List Str}
    (h : List.Forall₂ (fun i w => l[i]? = some w) indices ws) : ∀ w ∈ ws, Word U w := by
  intro w hw
  obtain ⟨i, _, hi⟩ := forall₂_mem_right h w hw
  exact hl.word w (List.mem_of_getElem? hi)

/-- C70: every entropy gives a mnemonic; it has three quarters as many words as the entropy has bytes, it is normalized,
and it is valid. -/
theorem C70_valid (H : Hashes) (U : PyUni) (l : List Str) (h2048 : l.length = 2048) (hl : Wordlist U l) (e : Bytes)
    (h : Bip39Size e.length) :
    ∃ m, BIP39Mnemonic.from_entropy H e l = .ok m ∧ BIP39Mnemonic.is_valid H U m l = .ok true ∧
      4 * (U.text.split m).length = 3 * e.length ∧ BIP39Mnemonic.normalize U m = m := by
  have hb := (bip39_iff H e h _).2 rfl
  have hlt := bip39Number_lt H e h
  obtain ⟨ws, hws⟩ := words_exist h2048 _ hb.1
  have hword := word_of_index hl hws
  have hm := (C70_words H e h l _).2 ⟨_, hb, ws, hws, rfl⟩
  have hn := normalize_words U ws hword
  have hsp := split_join' U.text ws (fun w hw => ⟨(hword w hw).ne_nil, (hword w hw).no_space⟩)
  obtain ⟨k, h4, h8, hk⟩ := h
  have h2 : 3 * e.length / 4 = 3 * k := by omega
  have hlen : ws.length = 3 * k := by
    rw [← forall₂_len hws, bip39Indices, List.length_reverse, partsLoop_length, h2]
  refine ⟨_, hm, ?_, by rw [hsp, hlen]; omega, hn⟩
  obtain ⟨i1, i2⟩ := indices_of_words hl.nodup hws
  obtain ⟨e', h1', h2', h3'⟩ := is_valid_words H U (joinStr [' '] ws) l h2048 k h4 h8 (by rw [hn, hsp, hlen])
    (bip39Indices H e) (by rw [hn, hsp, i1]) (by rw [hn, hsp, i2])
  have hk1 : e.length / 4 = k := by omega
  have hc := checksum_lt H e k (by omega)
  have hd : Nat.ofDigits 2048 (bip39Indices H e).reverse =
      beValue e * 2 ^ k + beValue (H.sha256 e) / 2 ^ (256 - k) := by
    rw [bip39Indices, List.reverse_reverse, ofDigits_partsLoop _ _ hlt, bip39Number, hk1]
  have he : e' = e := by
    apply beValue_inj _ _ (h1'.trans hk.symm)
    rw [h2', hd, mul_comm, Nat.mul_add_div (by positivity), Nat.div_eq_of_lt hc, Nat.add_zero]
  rw [h3', he, hd, mul_comm, Nat.mul_add_mod, Nat.mod_eq_of_lt hc]
  simp

/-- C70: a mnemonic is valid exactly if, normalized, it is the one that some entropy gives. -/
theorem C70_sound (H : Hashes) (U : PyUni) (l : List Str) (h2048 : l.length = 2048) (hl : Wordlist U l) (m : Str) :
    BIP39Mnemonic.is_valid H U m l = .ok true ↔
      ∃ e : Bytes, Bip39Size e.length ∧ BIP39Mnemonic.from_entropy H e l = .ok (BIP39Mnemonic.normalize U m) := by
  constructor
  · intro hv
    have hv0 := hv
    rw [BIP39Mnemonic.is_valid, if_neg (not_not.mpr h2048)] at hv
    simp only at hv
    by_cases hs : (U.text.split (BIP39Mnemonic.normalize U m)).length ∈ [12, 15, 18, 21, 24]
    · rw [if_neg (not_not.mpr hs)] at hv
      by_cases hb : (U.text.split (BIP39Mnemonic.normalize U m)).filter
          (fun w => (BIP39Mnemonic.safe_index l w).isNone) = []
      · obtain ⟨k, h4, h8, hk⟩ := mem_sizes.1 hs
        obtain ⟨e, h1, h2, h3⟩ := is_valid_words H U m l h2048 k h4 h8 hk _ rfl hb
        rw [hv0] at h3
        have hc := beq_iff_eq.1 (Except.ok.inj h3).symm
        have hws := words_of_filter hb
        have hsz : Bip39Size e.length := ⟨k, h4, h8, h1⟩
        have hlt : ∀ i ∈ (U.text.split (BIP39Mnemonic.normalize U m)).filterMap (BIP39Mnemonic.safe_index l),
            i < 2048 := by
          intro i hi
          obtain ⟨w, _, hw⟩ := forall₂_mem_left hws i hi
          rw [← h2048]
          exact (List.getElem?_eq_some_iff.1 hw).1
        refine ⟨e, hsz, (C70_words H e hsz l _).2 ⟨_, (bip39_iff H e hsz _).2 rfl, _, ?_,
          (join_split_normalize U m).symm⟩⟩
        have hidx : bip39Indices H e =
            (U.text.split (BIP39Mnemonic.normalize U m)).filterMap (BIP39Mnemonic.safe_index l) := by
          have h5 : bip39Number H e = Nat.ofDigits 2048
              ((U.text.split (BIP39Mnemonic.normalize U m)).filterMap (BIP39Mnemonic.safe_index l)).reverse := by
            rw [bip39Number, show e.length / 4 = k by omega, h2, hc, mul_comm]
            exact Nat.div_add_mod _ _
          have h6 := partsLoop_ofDigits
            ((U.text.split (BIP39Mnemonic.normalize U m)).filterMap (BIP39Mnemonic.safe_index l)).reverse
            (fun i hi => hlt i (by simpa using hi))
          rw [List.length_reverse, forall₂_len hws, hk, ← h5] at h6
          rw [bip39Indices, show 3 * e.length / 4 = 3 * k by omega, h6, List.reverse_reverse]
        rw [hidx]
        exact hws
      · rw [if_pos hb] at hv
        cases hv
    · rw [if_pos hs] at hv
      cases hv
  · rintro ⟨e, hsz, he⟩
    obtain ⟨m', h1, h2, _, h4⟩ := C70_valid H U l h2048 hl e hsz
    rw [he] at h1
    cases h1
    rw [← h2, BIP39Mnemonic.is_valid, BIP39Mnemonic.is_valid, h4]

/-- C70: different entropies give different mnemonics. -/
theorem C70_injective (H : Hashes) (U : PyUni) (l : List Str) (hl : Wordlist U l) (e e' : Bytes)
    (h : Bip39Size e.length) (h' : Bip39Size e'.length) (m : Str) (hm : BIP39Mnemonic.from_entropy H e l = .ok m)
    (hm' : BIP39Mnemonic.from_entropy H e' l = .ok m) : e = e' := by
  obtain ⟨i, hi, ws, hws, rfl⟩ := (C70_words H e h l _).1 hm
  obtain ⟨i', hi', ws', hws', heq⟩ := (C70_words H e' h' l _).1 hm'
  have hword := word_of_index hl hws
  have hword' := word_of_index hl hws'
  have heq := congrArg U.text.split heq
  rw [split_join' U.text ws (fun w hw => ⟨(hword w hw).ne_nil, (hword w hw).no_space⟩),
    split_join' U.text ws' (fun w hw => ⟨(hword' w hw).ne_nil, (hword' w hw).no_space⟩)] at heq
  subst heq
  have hii : i = i' := by rw [← (indices_of_words hl.nodup hws).1, (indices_of_words hl.nodup hws').1]
  subst hii
  have hbits : bytesBits e ++ (bytesBits (H.sha256 e)).take (e.length / 4) =
    bytesBits e' ++ (bytesBits (H.sha256 e')).take (e'.length / 4) := hi.2.symm.trans hi'.2
  have hl1 := congrArg List.length hbits
  simp only [List.length_append, bytesBits_length, List.length_take, H.sha256_length] at hl1
  obtain ⟨k, _, _, hk⟩ := h
  obtain ⟨k', _, _, hk'⟩ := h'
  have hlen : e.length = e'.length := by omega
  have := (List.append_inj hbits (by rw [bytesBits_length, bytesBits_length, hlen])).1
  exact beValue_inj _ _ hlen (by rw [← bitsValue_bytesBits, this, bitsValue_bytesBits])

/-- C70: `generate` for the sizes allowed; other sizes and lists of another length are a `ValueError`. -/
theorem C70_generate (H : Hashes) (random : Nat → Bytes) (hr : ∀ n, (random n).length = n) (U : PyUni) (l : List Str)
    (hl : Wordlist U l) (bits : Nat) :
    (l.length = 2048 ∧ (∃ k, 4 ≤ k ∧ k ≤ 8 ∧ bits = 32 * k) ∧
      ∃ m, BIP39Mnemonic.generate H random l bits = .ok m ∧ BIP39Mnemonic.is_valid H U m l = .ok true ∧
        (U.text.split m).length = (bits + bits / 32) / 11) ∨
    (¬ (l.length = 2048 ∧ ∃ k, 4 ≤ k ∧ k ≤ 8 ∧ bits = 32 * k) ∧
      BIP39Mnemonic.generate H random l bits = .error .valueError) := by
  have hmem : bits ∈ [128, 160, 192, 224, 256] ↔ ∃ k, 4 ≤ k ∧ k ≤ 8 ∧ bits = 32 * k := by
    constructor
    · intro h
      simp only [List.mem_cons, List.not_mem_nil, or_false] at h
      exact ⟨bits / 32, by omega, by omega, by omega⟩
    · rintro ⟨k, h1, h2, h3⟩
      have : k = 4 ∨ k = 5 ∨ k = 6 ∨ k = 7 ∨ k = 8 := by omega
      rcases this with rfl | rfl | rfl | rfl | rfl <;> subst h3 <;> simp
  rw [BIP39Mnemonic.generate]
  by_cases h1 : l.length = 2048
  · rw [if_neg (not_not.mpr h1)]
    by_cases h2 : bits ∈ [128, 160, 192, 224, 256]
    · rw [if_neg (not_not.mpr h2)]
      obtain ⟨k, h4, h8, hk⟩ := hmem.1 h2
      have hs : (random (bits / 8)).length = 4 * k := by rw [hr]; omega
      obtain ⟨m, h5, h6, h7, _⟩ := C70_valid H U l h1 hl (random (bits / 8)) ⟨k, h4, h8, hs⟩
      exact .inl ⟨h1, hmem.1 h2, m, h5, h6, by omega⟩
    · rw [if_pos h2]
      exact .inr ⟨fun h => h2 (hmem.2 h.2), rfl⟩
  · rw [if_pos h1]
    exact .inr ⟨fun h => h1 h.1, rfl⟩

/-- C70: what else `is_valid` does: a list of another length is a `ValueError`; a wrong number of words is not valid;
otherwise if there are words not in the list it raises `BadWords` with them; and otherwise it returns. -/
theorem C70_invalid (H : Hashes) (U : PyUni) (l : List Str) (m : Str) (words : List Str)
    (hw : words = U.text.split (BIP39Mnemonic.normalize U m)) :
    (l.length ≠ 2048 → BIP39Mnemonic.is_valid H U m l = .error .valueError) ∧
    (l.length = 2048 → (¬ ∃ k, 4 ≤ k ∧ k ≤ 8 ∧ words.length = 3 * k) → BIP39Mnemonic.is_valid H U m l = .ok false) ∧
    (l.length = 2048 → (∃ k, 4 ≤ k ∧ k ≤ 8 ∧ words.length = 3 * k) → (∃ w ∈ words, w ∉ l) →
      BIP39Mnemonic.is_valid H U m l = .error (.badWords (words.filter (· ∉ l)))) ∧
    (l.length = 2048 → (∃ k, 4 ≤ k ∧ k ≤ 8 ∧ words.length = 3 * k) → (∀ w ∈ words, w ∈ l) →
      ∃ b, BIP39Mnemonic.is_valid H U m l = .ok b) := by
  subst hw
  have hf : (fun w => (BIP39Mnemonic.safe_index l w).isNone) = (fun w => decide (w ∉ l)) := by
    funext w
    rw [Bool.eq_iff_iff, decide_eq_true_iff, ← listIndex_error, BIP39Mnemonic.safe_index]
    cases listIndex l w <;> simp
  refine ⟨fun h => ?_, fun h1 h2 => ?_, fun h1 h2 ⟨w, h3, h4⟩ => ?_, fun h1 h2 h3 => ?_⟩
  · rw [BIP39Mnemonic.is_valid, if_pos h]
  · rw [BIP39Mnemonic.is_valid, if_neg (not_not.mpr h1)]
    simp only
    rw [if_pos (fun h => h2 (mem_sizes.1 h))]
  · rw [BIP39Mnemonic.is_valid, if_neg (not_not.mpr h1)]
    simp only
    rw [if_neg (not_not.mpr (mem_sizes.2 h2)), hf, if_pos]
    intro h
    have := List.filter_eq_nil_iff.1 h w h3
    simp [h4] at this
  · obtain ⟨k, h4, h8, hk⟩ := h2
    obtain ⟨e, _, _, h⟩ := is_valid_words H U m l h1 k h4 h8 hk _ rfl (by
      rw [hf, List.filter_eq_nil_iff]
      intro w hw
      simp [h3 w hw])
    exact ⟨_, h⟩

/-! ## The English list -/

/-- C70: the English list that the package has meets the hypotheses on word lists. -/
theorem C70_english (U : PyUni) : english_wordlist.length = 2048 ∧ Wordlist U english_wordlist :=
  ⟨english_length, english_wordlist_spec U⟩

/-- Entropy of sixteen zero bytes, with a hash whose first bits are those of SHA256. -/
def zeroHashes : Hashes := { toyHashes with sha256 := fun _ => 0x37 :: zeros 31, sha256_length := by simp [zeros] }

example : BIP39Mnemonic.from_entropy zeroHashes (zeros 16) english_wordlist = .ok
    "abandon abandon abandon abandon abandon abandon abandon abandon abandon abandon abandon about".toList := by
  decide +kernel

example : Bip39Size (zeros 16).length := ⟨4, by decide⟩

example : BIP39Mnemonic.is_valid zeroHashes asciiUni
    " abandon abandon abandon  ABANDON abandon abandon abandon abandon abandon abandon abandon about".toList
    english_wordlist = .ok true := by decide +kernel

example : BIP39Mnemonic.is_valid zeroHashes asciiUni
    "abandon abandon abandon abandon abandon abandon abandon abandon abandon abandon abandon above".toList
    english_wordlist = .ok false := by decide +kernel

example : BIP39Mnemonic.is_valid zeroHashes asciiUni
    "abandon abandon abandon abandon abandon bitcoin abandon abandon abandon abandon abandon about".toList
    english_wordlist = .error (.badWords ["bitcoin".toList]) := by decide +kernel

end Bitcoinx
