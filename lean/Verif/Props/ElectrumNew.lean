import Verif.Props.ElectrumOld

/-! # C72: new Electrum mnemonics -/

namespace Bitcoinx
open Spec ElectrumMnemonic

namespace Spec

/-- The numbers of the words of a number: its digits to the base of the size of the list, the least significant first,
the last of which is not zero. -/
def NewIndices (size : Nat) (value : Nat) (indices : List Nat) : Prop :=
  (∀ i ∈ indices, i < size) ∧ (∀ h : indices ≠ [], indices.getLast h ≠ 0) ∧ Nat.ofDigits size indices = value

/-- What the search accepts: the HMAC of the mnemonic starts with the prefix, in hexadecimal digits; and if so requested
it is not an old mnemonic. -/
def NewAccepted (H : Hashes) (U : PyUni) (pre : Str) (skip_old : Bool) (m : Str) : Prop :=
  pre <+: hex (H.hmac_sha512 (utf8 "Seed version".toList) (utf8 (U.case.lower (U.nfkd m)))) ∧
    (skip_old = true → (∀ seed, old_to_hex_seed U m ≠ .ok seed) ∧
      ∀ raw, fromhex m = .ok raw → raw.length ≠ 16 ∧ raw.length ≠ 32)

end Spec

theorem newIndices_iff {n : Nat} (hn : 2 ≤ n) (v : Nat) (is : List Nat) : NewIndices n v is ↔ is = Nat.digits n v := by
  constructor
  · rintro ⟨h1, h2, h3⟩
    rw [← h3, Nat.digits_ofDigits n (by omega) is h1 h2]
  · rintro rfl
    refine ⟨fun i hi => Nat.digits_lt_base (by omega) hi, fun h => ?_, Nat.ofDigits_digits n v⟩
    apply Nat.getLast_digit_ne_zero
    rintro rfl
    simp at h

theorem entropyWords_eq (l : List Str) (hn : 2 ≤ l.length) (fuel e : Nat) (h : e ≤ fuel) :
    entropyWords l fuel e = (Nat.digits l.length e).map (fun i => l.getD i []) := by
  induction fuel generalizing e with
  | zero =>
    have : e = 0 := by omega
    subst this
    simp [entropyWords]
  | succ fuel ih =>
    rw [entropyWords]
    split
    · next h0 => subst h0; simp
    · next h0 =>
      have hlt : e / l.length < e := Nat.div_lt_self (by omega) (by omega)
      rw [ih _ (by omega), Nat.digits_def' (by omega) (show 0 < e by omega), List.map_cons]

theorem forall₂_getD (l : List Str) {is : List Nat} (h : ∀ i ∈ is, i < l.length) :
    List.Forall₂ (fun i w => l[i]? = some w) is (is.map (fun i => l.getD i [])) := by
  induction is with
  | nil => exact .nil
  | cons i is ih =>
    have hi := h i (by simp)
    refine .cons ?_ (ih fun i hi => h i (by simp [hi]))
    rw [List.getElem?_eq_getElem hi]
    simp [List.getD, List.getElem?_eq_getElem hi]

theorem forall₂_unique {l : List Str} {is : List Nat} {ws : List Str}
    (h : List.Forall₂ (fun i w => l[i]? = some w) is ws) : ws = is.map (fun i => l.getD i []) := by
  induction h with
  | nil => rfl
  | cons h _ ih => rw [List.map_cons, ← ih]; simp [List.getD, h]

/-- C72: the mnemonic of a number has the words of its digits; a negative number has none (the loop does not end). -/
theorem C72_encoding (l : List Str) (hn : 2 ≤ l.length) (e : Int) (m : Str) :
    from_entropy e l = some m ↔ 0 ≤ e ∧ ∃ indices, NewIndices l.length e.toNat indices ∧ Words l indices m := by
  rw [from_entropy]
  split
  · next h =>
    constructor
    · intro h; cases h
    · rintro ⟨h0, _⟩; omega
  · next h =>
    rw [entropyWords_eq l hn _ _ (le_refl _)]
    constructor
    · intro hm
      cases hm
      exact ⟨by omega, _, (newIndices_iff hn _ _).2 rfl, _,
        forall₂_getD l (fun i hi => Nat.digits_lt_base (by omega) hi), rfl⟩
    · rintro ⟨_, is, h1, ws, h2, rfl⟩
      rw [(newIndices_iff hn _ _).1 h1] at h2
      rw [forall₂_unique h2]

/-- C72: different numbers have different mnemonics. -/
theorem C72_injective (U : PyUni) (l : List Str) (hn : 2 ≤ l.length) (hl : Wordlist U l) (e e' : Int) (m : Str)
    (h : from_entropy e l = some m) (h' : from_entropy e' l = some m) : e = e' := by
  obtain ⟨h0, is, h1, ws, hf, rfl⟩ := (C72_encoding l hn e m).1 h
  obtain ⟨h0', is', h1', ws', hf', heq⟩ := (C72_encoding l hn e' _).1 h'
  have hword := word_of_index hl hf
  have hword' := word_of_index hl hf'
  have heq := congrArg U.text.split heq
  rw [split_join' U.text ws (fun w hw => ⟨(hword w hw).ne_nil, (hword w hw).no_space⟩),
    split_join' U.text ws' (fun w hw => ⟨(hword' w hw).ne_nil, (hword' w hw).no_space⟩)] at heq
  subst heq
  have hii : is = is' := by rw [← (indices_of_words hl.nodup hf).1, (indices_of_words hl.nodup hf').1]
  subst hii
  have : e.toNat = e'.toNat := by rw [← h1.2.2, ← h1'.2.2]
  omega

/-- C72: a number from `size ^ (count - 1)` up to `size ^ count` has exactly `count` words. -/
theorem C72_count (U : PyUni) (l : List Str) (hn : 2 ≤ l.length) (hl : Wordlist U l) (count : Nat) (e : Int) (m : Str)
    (h : from_entropy e l = some m) :
    (U.text.split m).length = count + 1 ↔ (l.length : Int) ^ count ≤ e ∧ e < (l.length : Int) ^ (count + 1) := by
  obtain ⟨h0, is, h1, ws, hf, rfl⟩ := (C72_encoding l hn e m).1 h
  have hword := word_of_index hl hf
  rw [split_join' U.text ws (fun w hw => ⟨(hword w hw).ne_nil, (hword w hw).no_space⟩), ← forall₂_len hf,
    (newIndices_iff hn _ _).1 h1]
  have e1 := Nat.lt_digits_length_iff (b := l.length) (by omega) (k := count) e.toNat
  have e2 := Nat.digits_length_le_iff (b := l.length) (by omega) (k := count + 1) e.toNat
  have c1 : ((l.length ^ count : Nat) : Int) = (l.length : Int) ^ count := by push_cast; rfl
  have c2 : ((l.length ^ (count + 1) : Nat) : Int) = (l.length : Int) ^ (count + 1) := by push_cast; rfl
  rw [← c1, ← c2]
  constructor
  · intro hlen
    have h3 := e1.1 (by omega)
    have h4 := e2.1 (by omega)
    omega
  · rintro ⟨h3, h4⟩
    have h3 := e1.2 (by omega)
    have h4 := e2.2 (by omega)
    omega

/-! ## The starting point -/

theorem random_integer_inv {count size : Nat} {draws : List Bytes} {v d : Int}
    (h : random_integer count size draws = some (v, d)) :
    ∃ value : Nat, v = value ∧ (∃ draw ∈ draws, value = beValue draw % size ^ count) ∧
      size ^ count / size + 1 < value ∧
      d = if value < (size ^ count / size + 1 + size ^ count) / 2 then 1 else -1 := by
  induction draws with
  | nil => cases h
  | cons draw draws ih =>
    rw [random_integer] at h
    split at h
    · obtain ⟨value, h1, ⟨x, hx, h2⟩, h3⟩ := ih h
      exact ⟨value, h1, ⟨x, by simp [hx], h2⟩, h3⟩
    · next hn =>
      cases h
      exact ⟨_, rfl, ⟨draw, by simp, by rw [be_bytes_to_int_eq]⟩, by omega, rfl⟩

/-- C72: the search starts at a number of exactly `count` words, and in the direction of the end of their range that is
further away: half of the range can be searched before it is left. -/
theorem C72_start (count size : Nat) (hs : 2 ≤ size) (draws : List Bytes) (v d : Int)
    (h : random_integer (count + 1) size draws = some (v, d)) (k : Nat)
    (hk : 2 * (k : Int) + 4 ≤ (size : Int) ^ (count + 1) - (size : Int) ^ count) :
    (size : Int) ^ count < v + k * d ∧ v + k * d < (size : Int) ^ (count + 1) ∧ (d = 1 ∨ d = -1) := by
  obtain ⟨value, rfl, ⟨draw, _, hv⟩, h3, rfl⟩ := random_integer_inv h
  have hlt : value < size ^ (count + 1) := by rw [hv]; exact Nat.mod_lt _ (by positivity)
  have hdiv : size ^ (count + 1) / size = size ^ count := by
    rw [pow_succ, Nat.mul_div_cancel _ (by omega)]
  rw [hdiv] at h3 ⊢
  have c1 : ((size ^ count : Nat) : Int) = (size : Int) ^ count := by push_cast; rfl
  have c2 : ((size ^ (count + 1) : Nat) : Int) = (size : Int) ^ (count + 1) := by push_cast; rfl
  rw [← c1, ← c2] at hk ⊢
  generalize size ^ (count + 1) = M at *
  generalize size ^ count = m at *
  split
  · refine ⟨?_, ?_, .inl rfl⟩ <;> rw [Int.mul_one] <;> omega
  · refine ⟨?_, ?_, .inr rfl⟩ <;> rw [Int.mul_neg, Int.mul_one] <;> omega

/-- C72: a draw whose remainder is above the least value is used at once. -/
theorem C72_draw (count size : Nat) (draw : Bytes) (draws : List Bytes) :
    (∃ vd, random_integer count size (draw :: draws) = some vd ∧ vd.1 = (beValue draw % size ^ count : Nat)) ∨
      (beValue draw % size ^ count ≤ size ^ count / size + 1 ∧
        random_integer count size (draw :: draws) = random_integer count size draws) := by
  rw [random_integer]
  simp only [be_bytes_to_int_eq]
  split
  · next h => exact .inr ⟨h, rfl⟩
  · exact .inl ⟨_, rfl, rfl⟩

/-! ## The search -/

theorem is_valid_old_false (U : PyUni) (m : Str) :
    is_valid_old U m = .ok false ↔ (∀ seed, old_to_hex_seed U m ≠ .ok seed) ∧
      ∀ raw, fromhex m = .ok raw → raw.length ≠ 16 ∧ raw.length ≠ 32 := by
  obtain ⟨b, h1, h2⟩ := C71_valid U m
  rw [h1]
  constructor
  · intro h
    cases h
    have hn := fun h => Bool.false_ne_true (h2.2 h)
    refine ⟨fun seed hs => hn (.inl ⟨seed, hs⟩), fun raw hr => ⟨fun hl => hn (.inr ⟨raw, hr, .inl hl⟩),
      fun hl => hn (.inr ⟨raw, hr, .inr hl⟩)⟩⟩
  · rintro ⟨h3, h4⟩
    cases b with
    | false => rfl
    | true =>
      rcases h2.1 rfl with ⟨seed, h⟩ | ⟨raw, h, hl⟩
      · exact absurd h (h3 seed)
      · obtain ⟨h5, h6⟩ := h4 raw h
        exact absurd hl (not_or.2 ⟨h5, h6⟩)

/-- One step of the search. -/
theorem search_succ (H : Hashes) (U : PyUni) (l : List Str) (pre : Str) (skip_old : Bool) (d : Int) (fuel : Nat)
    (e : Int) (m : Str) (hm : from_entropy e l = some m) :
    (NewAccepted H U pre skip_old m ∧ search H U l pre skip_old d (fuel + 1) e = .ok (some m)) ∨
      (¬ NewAccepted H U pre skip_old m ∧
        search H U l pre skip_old d (fuel + 1) e = search H U l pre skip_old d fuel (e + d)) := by
  have hv : is_valid_new H U m pre = true ↔
      pre <+: hex (H.hmac_sha512 (utf8 "Seed version".toList) (utf8 (U.case.lower (U.nfkd m)))) := by
    rw [is_valid_new]
    simp only [startsWith, normalize_text, List.isPrefixOf_iff_prefix]
  rw [search, hm]
  simp only
  by_cases h1 : is_valid_new H U m pre = true
  · rw [if_pos h1]
    cases skip_old with
    | false => exact .inl ⟨⟨hv.1 h1, fun h => by cases h⟩, rfl⟩
    | true =>
      obtain ⟨b, h2, _⟩ := C71_valid U m
      rw [if_pos rfl, h2, ok_bind']
      cases b with
      | false => exact .inl ⟨⟨hv.1 h1, fun _ => (is_valid_old_false U m).1 h2⟩, rfl⟩
      | true =>
        refine .inr ⟨fun h => ?_, rfl⟩
        have := (is_valid_old_false U m).2 (h.2 rfl)
        rw [h2] at this
        cases this
  · rw [if_neg h1]
    exact .inr ⟨fun h => h1 (hv.2 h.1), rfl⟩

theorem search_spec (H : Hashes) (U : PyUni) (l : List Str) (pre : Str) (skip_old : Bool) (d : Int) (fuel : Nat)
    (e : Int) :
    (∃ k < fuel, ∃ m, search H U l pre skip_old d fuel e = .ok (some m) ∧ from_entropy (e + k * d) l = some m ∧
      NewAccepted H U pre skip_old m ∧
      ∀ j < k, ∃ m', from_entropy (e + j * d) l = some m' ∧ ¬ NewAccepted H U pre skip_old m') ∨
    (search H U l pre skip_old d fuel e = .ok none ∧
      ((∀ k < fuel, ∃ m, from_entropy (e + k * d) l = some m ∧ ¬ NewAccepted H U pre skip_old m) ∨
        ∃ k < fuel, from_entropy (e + k * d) l = none)) := by
  induction fuel generalizing e with
  | zero => exact .inr ⟨rfl, .inl fun k hk => absurd hk (by omega)⟩
  | succ fuel ih =>
    have z : e + ((0 : Nat) : Int) * d = e := by simp
    have shift : ∀ j : Nat, e + d + (j : Int) * d = e + ((j + 1 : Nat) : Int) * d := by intro j; push_cast; ring
    cases hm : from_entropy e l with
    | none =>
      refine .inr ⟨?_, .inr ⟨0, by omega, by rw [z, hm]⟩⟩
      rw [search, hm]
    | some m =>
      rcases search_succ H U l pre skip_old d fuel e m hm with ⟨h1, h2⟩ | ⟨h1, h2⟩
      · exact .inl ⟨0, by omega, m, h2, by rw [z, hm], h1, fun j hj => absurd hj (by omega)⟩
      · rw [h2]
        rcases ih (e + d) with ⟨k, hk, m', h3, h4, h5, h6⟩ | ⟨h3, h4⟩
        · refine .inl ⟨k + 1, by omega, m', h3, by rw [← shift, h4], h5, fun j hj => ?_⟩
          cases j with
          | zero => exact ⟨m, by rw [z, hm], h1⟩
          | succ j =>
            obtain ⟨m'', h7, h8⟩ := h6 j (by omega)
            exact ⟨m'', by rw [← shift, h7], h8⟩
        · refine .inr ⟨h3, ?_⟩
          rcases h4 with h4 | ⟨k, hk, h4⟩
          · refine .inl fun k hk => ?_
            cases k with
            | zero => exact ⟨m, by rw [z, hm], h1⟩
            | succ k =>
              obtain ⟨m'', h7, h8⟩ := h4 k (by omega)
              exact ⟨m'', by rw [← shift, h7], h8⟩
          · exact .inr ⟨k + 1, by omega, by rw [← shift, h4]⟩

/-- C72: a mnemonic returned is acceptable: the first one that is when counting up or down from the starting number. -/
theorem C72_returned (H : Hashes) (U : PyUni) (draws : List Bytes) (word_count fuel : Nat) (l : List Str) (pre : Str)
    (bits : Int) (skip_old : Bool) (m : Str)
    (h : generate_new H U draws word_count fuel l pre bits skip_old = .ok (some m)) :
    132 ≤ bits ∧ 2048 ≤ l.length ∧ is_valid_new H U m pre = true ∧ (skip_old = true → is_valid_old U m = .ok false) ∧
      ∃ v d, random_integer word_count l.length draws = some (v, d) ∧ ∃ k < fuel,
        from_entropy (v + (k : Int) * d) l = some m ∧
        ∀ j < k, ∃ m', from_entropy (v + (j : Int) * d) l = some m' ∧ ¬ NewAccepted H U pre skip_old m' := by
  rw [generate_new] at h
  split at h
  · cases h
  · split at h
    · cases h
    · split at h
      · cases h
      · next h1 h2 v d hr =>
        rcases search_spec H U l pre skip_old d fuel v with ⟨k, hk, m', h3, h4, h5, h6⟩ | ⟨h3, _⟩
        · rw [h] at h3
          cases h3
          refine ⟨by omega, by omega, ?_, fun hs => (is_valid_old_false U m).2 (h5.2 hs), v, d, hr, k, hk, h4, h6⟩
          rw [is_valid_new]
          simp only [startsWith, normalize_text, List.isPrefixOf_iff_prefix]
          exact h5.1
        · rw [h] at h3
          cases h3

/-- C72: a mnemonic of normalized words found within half of the range has exactly the number of words requested, and is
unchanged by normalizing. -/
theorem C72_words (H : Hashes) (U : PyUni) (draws : List Bytes) (count fuel : Nat) (l : List Str)
    (hl : Wordlist U l) (pre : Str) (bits : Int) (skip_old : Bool) (m : Str)
    (h : generate_new H U draws (count + 1) fuel l pre bits skip_old = .ok (some m))
    (hf : 2 * (fuel : Int) + 2 ≤ (l.length : Int) ^ (count + 1) - (l.length : Int) ^ count) :
    (U.text.split m).length = count + 1 ∧ normalize_new U m = m ∧ BIP39Mnemonic.normalize U m = m := by
  obtain ⟨_, h2, _, _, v, d, h5, k, hk, h6, _⟩ := C72_returned H U draws (count + 1) fuel l pre bits skip_old m h
  obtain ⟨h7, h8, _⟩ := C72_start count l.length (by omega) draws v d h5 k (by omega)
  refine ⟨(C72_count U l (by omega) hl count _ m h6).2 ⟨by omega, h8⟩, ?_⟩
  obtain ⟨_, is, _, ws, hw, rfl⟩ := (C72_encoding l (by omega) _ m).1 h6
  have hword := word_of_index hl hw
  exact ⟨old_normal U ws hword, normalize_words U ws hword⟩

/-- C72: the search finds an acceptable mnemonic if there is one that far from the starting number. -/
theorem C72_found (H : Hashes) (U : PyUni) (draws : List Bytes) (word_count fuel : Nat) (l : List Str) (pre : Str)
    (bits : Int) (skip_old : Bool) (hb : 132 ≤ bits) (hs : 2048 ≤ l.length) (v d : Int)
    (hr : random_integer word_count l.length draws = some (v, d)) (k : Nat) (hk : k < fuel)
    (hpos : ∀ j ≤ k, 0 ≤ v + (j : Int) * d) (m : Str) (hm : from_entropy (v + (k : Int) * d) l = some m)
    (ha : NewAccepted H U pre skip_old m) :
    ∃ m', generate_new H U draws word_count fuel l pre bits skip_old = .ok (some m') := by
  rw [generate_new, if_neg (by omega), if_neg (by omega), hr]
  simp only
  rcases search_spec H U l pre skip_old d fuel v with ⟨j, _, m', h3, _⟩ | ⟨h3, h4 | ⟨j, hj, h4⟩⟩
  · exact ⟨m', h3⟩
  · obtain ⟨m', h5, h6⟩ := h4 k hk
    rw [hm] at h5
    cases h5
    exact absurd ha h6
  · -- the search with less fuel ends before a negative number is reached
    rcases search_spec H U l pre skip_old d (k + 1) v with ⟨i, hi, m', h5, h6, h7, h8⟩ | ⟨_, h6 | ⟨i, hi, h6⟩⟩
    · have mono : ∀ (n : Nat) (e : Int) (x : Str), search H U l pre skip_old d n e = .ok (some x) →
          ∀ n', n ≤ n' → search H U l pre skip_old d n' e = .ok (some x) := by
        intro n
        induction n with
        | zero => intro e x h; cases h
        | succ n ih =>
          intro e x h n' hn
          obtain ⟨n', rfl⟩ : ∃ n'', n' = n'' + 1 := ⟨n' - 1, by omega⟩
          cases hx : from_entropy e l with
          | none => rw [search, hx] at h; cases h
          | some y =>
            rcases search_succ H U l pre skip_old d n e y hx with ⟨a1, a2⟩ | ⟨a1, a2⟩
            · rcases search_succ H U l pre skip_old d n' e y hx with ⟨b1, b2⟩ | ⟨b1, _⟩
              · rw [b2, ← a2, h]
              · exact absurd a1 b1
            · rcases search_succ H U l pre skip_old d n' e y hx with ⟨b1, _⟩ | ⟨_, b2⟩
              · exact absurd b1 a1
              · rw [b2]
                exact ih _ x (by rw [← a2, h]) n' (by omega)
      exact ⟨m', mono _ _ _ h5 _ (by omega)⟩
    · obtain ⟨m', h7, h8⟩ := h6 k (by omega)
      rw [hm] at h7
      cases h7
      exact absurd ha h8
    · rw [from_entropy] at h6
      split at h6
      · have := hpos i (by omega)
        omega
      · cases h6

/-- C72: too few bits or words are a `ValueError`, and there are no other errors. -/
theorem C72_errors (H : Hashes) (U : PyUni) (draws : List Bytes) (word_count fuel : Nat) (l : List Str) (pre : Str)
    (bits : Int) (skip_old : Bool) (e : Err) :
    generate_new H U draws word_count fuel l pre bits skip_old = .error e ↔
      (bits < 132 ∨ l.length < 2048) ∧ e = .valueError := by
  rw [generate_new]
  split
  · next h =>
    constructor
    · intro he; cases he; exact ⟨.inl h, rfl⟩
    · rintro ⟨_, rfl⟩; rfl
  · next h1 =>
    split
    · next h =>
      constructor
      · intro he; cases he; exact ⟨.inr h, rfl⟩
      · rintro ⟨_, rfl⟩; rfl
    · next h2 =>
      constructor
      · intro he
        split at he
        · cases he
        · next v d hr =>
          rcases search_spec H U l pre skip_old d fuel v with ⟨_, _, _, h3, _⟩ | ⟨h3, _⟩
          · rw [h3] at he; cases he
          · rw [h3] at he; cases he
      · rintro ⟨h, _⟩
        omega

/-! ## Examples -/

/-- One draw, with the English list. -/
def draw1 : Bytes := beBytes 19 (2048 ^ 11 * 5 + 2048 ^ 3 * 2 + 7)

example : random_integer 12 2048 [zeros 19, draw1] = some (2048 ^ 11 * 5 + 2048 ^ 3 * 2 + 7, 1) := by
  decide +kernel

example : generate_new zeroHashes asciiUni [zeros 19, draw1] 12 367 english_wordlist "e1".toList 132 true = .ok
    (some "concert abandon abandon able abandon abandon abandon abandon abandon abandon abandon absent".toList) := by
  decide +kernel

end Bitcoinx
