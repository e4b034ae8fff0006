import Verif.Model.Signature
import Verif.Spec.Signature
import Verif.Spec.Text
import Verif.Lemmas.Packing
import Verif.Lemmas.Asm
import Verif.Lemmas.ToySecp
import Verif.Lemmas.Script
import Mathlib.Data.Nat.Bitwise

/-! # Properties of signature formats (C55, C56, C74, C75) -/

namespace Bitcoinx
open Spec

/-! ## C55: message signatures and recoverable signatures -/

theorem and3 (n : Nat) : n &&& 3 = n % 4 := Nat.and_two_pow_sub_one_eq_mod n 2

theorem msg_lead (r : UInt8) (hr : r.toNat ≤ 3) (c : Bool) :
    ∃ b : UInt8, pack_byte ((27 + (if c then 4 else 0) + r.toNat : Nat) : Int) = .ok [b] ∧
      b.toNat = 27 + (if c then 4 else 0) + r.toNat := by
  refine ⟨UInt8.ofNat (27 + (if c then 4 else 0) + r.toNat), ?_, ?_⟩
  · exact pack_byte_nat (by split <;> omega)
  · exact toNat_ofNat' (by split <;> omega)

/-- Converting a recoverable signature to a message signature and back gives it again, for both
values of the flag; the flag is visible in the first byte. -/
theorem C55_roundtrip (s : Bytes) (h : IsRecoverable s) (c : Bool) :
    ∃ m, to_message_signature s c = .ok m ∧ IsMessageSig m ∧ to_recoverable_signature m = .ok s ∧
      (c = true ↔ 31 ≤ (m.headD 0).toNat) := by
  obtain ⟨t, r, rfl, ht, hr⟩ := h
  obtain ⟨b, h1, h2⟩ := msg_lead r hr c
  have hb : 27 ≤ b.toNat ∧ b.toNat ≤ 34 := by rw [h2]; split <;> omega
  refine ⟨b :: t, ?_, ⟨b, t, rfl, ht, hb⟩, ?_, ?_⟩
  · simp only [to_message_signature, List.getLast?_append, List.getLast?_singleton, Option.or, h1, ok_bind',
      pure_ok']
    rw [List.take_append_of_le_length (by omega), List.take_of_length_le (by omega)]
    rfl
  · have e : ((b.toNat - 27) &&& 3) = r.toNat := by rw [and3, h2]; split <;> omega
    have p := pack_byte_nat (UInt8.toNat_lt r)
    rw [UInt8.ofNat_toNat] at p
    have c1 : ¬ (b :: t).length ≠ 65 := by simp [ht]
    have c2 : ¬¬ (27 ≤ b.toNat ∧ b.toNat < 35) := not_not.2 ⟨hb.1, by omega⟩
    simp only [to_recoverable_signature, c1, if_false, List.headD_cons, c2, e, p, ok_bind', pure_ok',
      List.drop_succ_cons, List.drop_zero]
  · simp only [List.headD_cons, h2]
    cases c <;> simp <;> omega

/-- A byte string is accepted as a message signature exactly if it is one, and then it is the message
signature of the result; otherwise `InvalidSignatureError` is raised. -/
theorem C55_accepts (m : Bytes) :
    (IsMessageSig m → ∃ s, to_recoverable_signature m = .ok s ∧ IsRecoverable s ∧
      to_message_signature s (decide (31 ≤ (m.headD 0).toNat)) = .ok m) ∧
    (¬ IsMessageSig m → to_recoverable_signature m = .error .invalidSignatureError) := by
  constructor
  · rintro ⟨b, c, rfl, hc, h1, h2⟩
    have hlt : (b.toNat - 27) % 4 < 256 := by omega
    have c1 : ¬ (b :: c).length ≠ 65 := by simp [hc]
    have c2 : ¬¬ (27 ≤ b.toNat ∧ b.toNat < 35) := not_not.2 ⟨h1, by omega⟩
    have e : to_recoverable_signature (b :: c) = .ok (c ++ [UInt8.ofNat ((b.toNat - 27) % 4)]) := by
      simp only [to_recoverable_signature, c1, if_false, List.headD_cons, c2, and3, pack_byte_nat hlt, ok_bind',
        pure_ok', List.drop_succ_cons, List.drop_zero]
    refine ⟨_, e, ⟨_, _, rfl, hc, by rw [toNat_ofNat' hlt]; omega⟩, ?_⟩
    have hb : 27 + (if decide (31 ≤ b.toNat) = true then 4 else 0) + (b.toNat - 27) % 4 = b.toNat := by
      simp only [decide_eq_true_eq]; split <;> omega
    have p := pack_byte_nat (UInt8.toNat_lt b)
    rw [UInt8.ofNat_toNat] at p
    have hr : (UInt8.ofNat ((b.toNat - 27) % 4)).toNat = (b.toNat - 27) % 4 := toNat_ofNat' hlt
    generalize UInt8.ofNat ((b.toNat - 27) % 4) = r at hr
    rw [← hr] at hb
    rw [← hb] at p
    rw [to_message_signature, List.getLast?_append, List.getLast?_singleton]
    show (do return (← pack_byte _) ++ _) = _
    rw [List.headD_cons, p, ok_bind']
    show Except.ok ([b] ++ _) = _
    rw [List.take_append_of_le_length (by omega), List.take_of_length_le (by omega)]
    rfl
  · intro h
    unfold to_recoverable_signature
    by_cases hl : m.length ≠ 65
    · rw [if_pos hl]
    · rw [if_neg hl]
      simp only
      rw [if_pos]
      intro hb
      cases m with
      | nil => simp at hl
      | cons b c =>
        simp only [List.headD_cons] at hb
        exact h ⟨b, c, rfl, by simp only [List.length_cons] at hl; omega, hb.1, by omega⟩

/-- Verification of a recoverable signature gives an answer exactly for 65 bytes with a recovery id of
0 to 3 and both numbers below the group order, and only such bytes have a public key recovered from
them; for anything else `InvalidSignatureError` is raised. -/
theorem C55_recoverable (L : Secp) (s msg : Bytes) (p : L.Point) :
    (IsRecoverable s ∧ IsCompact (s.take 64) →
      verify_recoverable_signature L s msg p = .ok (L.verify (s.take 64) msg p)) ∧
    (¬ (IsRecoverable s ∧ IsCompact (s.take 64)) →
      verify_recoverable_signature L s msg p = .error .invalidSignatureError) ∧
    (∀ q, public_key_from_recoverable_signature L s msg = .ok q → IsRecoverable s ∧ IsCompact (s.take 64)) ∧
    (∀ e, public_key_from_recoverable_signature L s msg = .error e → e = .invalidSignatureError) := by
  have key : (IsRecoverable s ∧ IsCompact (s.take 64) → ∃ r, cdata_recsig s = .ok (s.take 64, r)) ∧
      (¬ (IsRecoverable s ∧ IsCompact (s.take 64)) → cdata_recsig s = .error .invalidSignatureError) := by
    constructor
    · rintro ⟨⟨c, r, rfl, hc, hr⟩, h1, h2, h3⟩
      have c1 : ¬ (c ++ [r]).length ≠ 65 := by simp [hc]
      have c2 : ¬ ¬ r.toNat ≤ 3 := not_not.2 hr
      refine ⟨r.toNat, ?_⟩
      simp only [cdata_recsig, c1, if_false, List.getLastD_concat, c2, Secp.parse_compact, h2, h3, and_self, if_true]
    · intro hn
      unfold cdata_recsig
      by_cases hl : s.length ≠ 65
      · rw [if_pos hl]
      · rw [if_neg hl]
        simp only
        by_cases hr : (s.getLastD 0).toNat ≤ 3
        · rw [if_neg (not_not.2 hr), Secp.parse_compact]
          split
          · rfl
          · next hp =>
            split at hp
            · next hc =>
              exfalso
              refine hn ⟨?_, ?_, hc⟩
              · rcases List.eq_nil_or_concat s with rfl | ⟨c, r, rfl⟩
                · simp at hl
                · exact ⟨c, r, by simp, by simp at hl; omega, by simpa using hr⟩
              · rw [List.length_take]; omega
            · cases hp
        · rw [if_pos hr]
  refine ⟨fun h => ?_, fun h => ?_, fun q h => ?_, fun e h => ?_⟩
  · obtain ⟨r, hr⟩ := key.1 h
    simp only [verify_recoverable_signature, hr, ok_bind', pure_ok']
  · simp only [verify_recoverable_signature, key.2 h, error_bind']
  · by_contra hn
    simp only [public_key_from_recoverable_signature, key.2 hn, error_bind'] at h
    cases h
  · by_cases hn : IsRecoverable s ∧ IsCompact (s.take 64)
    · obtain ⟨r, hr⟩ := key.1 hn
      simp only [public_key_from_recoverable_signature, hr, ok_bind'] at h
      split at h
      · exact (Except.error.inj h).symm
      · cases h
    · simp only [public_key_from_recoverable_signature, key.2 hn, error_bind'] at h
      exact (Except.error.inj h).symm

example : IsRecoverable (List.replicate 64 7 ++ [2]) :=
  ⟨_, _, rfl, by simp, by decide⟩

/-! ## C56: sighash text -/

theorem joinStr_ne (sep x : Str) (xs : List Str) (h : x ≠ []) : joinStr sep (x :: xs) ≠ [] := by
  cases xs with
  | nil => exact h
  | cons y ys =>
    rw [joinStr]
    intro e
    simp only [List.append_eq_nil_iff] at e
    exact h e.1.1

/-- A list of words, not empty and without the separator, can be read off their join. -/
theorem joinStr_inj (sep : Char) (l1 l2 : List Str) (h1 : ∀ w ∈ l1, w ≠ [] ∧ sep ∉ w)
    (h2 : ∀ w ∈ l2, w ≠ [] ∧ sep ∉ w) (h : joinStr [sep] l1 = joinStr [sep] l2) : l1 = l2 := by
  have cut : ∀ (x y u v : Str), sep ∉ x → sep ∉ y → x ++ sep :: u = y ++ sep :: v → x = y ∧ u = v := by
    intro x
    induction x with
    | nil =>
      intro y u v _ hy e
      cases y with
      | nil => exact ⟨rfl, (List.cons.inj e).2⟩
      | cons c y => exact absurd (by rw [(List.cons.inj e).1]; simp) hy
    | cons c x ih =>
      intro y u v hx hy e
      cases y with
      | nil => exact absurd (by rw [(List.cons.inj e).1]; simp) hx
      | cons d y =>
        obtain ⟨e1, e2⟩ := List.cons.inj e
        obtain ⟨e3, e4⟩ := ih y u v (fun hm => hx (by simp [hm])) (fun hm => hy (by simp [hm])) e2
        exact ⟨by rw [e1, e3], e4⟩
  have nosep : ∀ (x y u : Str), sep ∉ x → x = y ++ sep :: u → False := by
    intro x y u hx e
    exact hx (by rw [e]; simp)
  induction l1 generalizing l2 with
  | nil =>
    cases l2 with
    | nil => rfl
    | cons y ys => exact absurd h.symm (joinStr_ne _ _ _ (h2 y (by simp)).1)
  | cons x xs ih =>
    cases l2 with
    | nil => exact absurd h (joinStr_ne _ _ _ (h1 x (by simp)).1)
    | cons y ys =>
      cases xs with
      | nil =>
        cases ys with
        | nil => rw [joinStr, joinStr] at h; rw [h]
        | cons y2 ys =>
          rw [joinStr, joinStr, List.append_assoc] at h
          exact (nosep _ _ _ (h1 x (by simp)).2 h).elim
      | cons x2 xs =>
        cases ys with
        | nil =>
          rw [joinStr, joinStr, List.append_assoc] at h
          exact (nosep _ _ _ (h2 y (by simp)).2 h.symm).elim
        | cons y2 ys =>
          rw [joinStr, joinStr, List.append_assoc, List.append_assoc] at h
          obtain ⟨e1, e2⟩ := cut _ _ _ _ (h1 x (by simp)).2 (h2 y (by simp)).2 h
          rw [e1, ih (y2 :: ys) (fun w hw => h1 w (by simp [hw])) (fun w hw => h2 w (by simp [hw])) e2]

theorem digitOf_hexChar : ∀ n : Fin 16, digitOf hexAlphabet (Nat.digitChar n.1) = some n.1 := by decide

theorem numeral_snoc (A w : Str) (c : Char) (n d : Nat) (h : numeral A w = some n)
    (hd : digitOf A c = some d) : numeral A (w ++ [c]) = some (n * A.length + d) := by
  induction w generalizing n with
  | nil =>
    simp only [numeral, Option.some.injEq] at h
    subst h
    simp [numeral, hd]
  | cons a as ih =>
    simp only [numeral, Option.bind_eq_bind, Option.bind_eq_some_iff] at h
    obtain ⟨da, hda, r, hr, h⟩ := h
    simp only [Option.pure_def, Option.some.injEq] at h
    simp only [List.cons_append, numeral, hda, ih r hr, Option.bind_eq_bind, Option.bind_some,
      Option.pure_def, Option.some.injEq, List.length_append, List.length_singleton]
    rw [← h, pow_succ]
    ring

/-- The hexadecimal text of a number denotes it. -/
theorem numeral_hexNat (n : Nat) : numeral hexAlphabet (SigHash.hexNat n) = some n := by
  induction n using Nat.strong_induction_on with
  | _ n ih =>
    rw [SigHash.hexNat, Nat.toDigits_eq_if (by omega)]
    split
    · next h =>
      have := digitOf_hexChar ⟨n, h⟩
      simp only at this
      simp [numeral, this]
    · next h =>
      have h1 := ih (n / 16) (by omega)
      have h2 := digitOf_hexChar ⟨n % 16, by omega⟩
      rw [SigHash.hexNat] at h1
      rw [numeral_snoc _ _ _ _ _ h1 h2]
      have hl : hexAlphabet.length = 16 := by decide
      simp only [Option.some.injEq, hl]
      omega

theorem numeral_zeros (k : Nat) (w : Str) (n : Nat) (h : numeral hexAlphabet w = some n) :
    numeral hexAlphabet (List.replicate k '0' ++ w) = some n := by
  have h0 : digitOf hexAlphabet '0' = some 0 := by decide
  induction k with
  | zero => simpa using h
  | succ k ih =>
    rw [List.replicate_succ, List.cons_append]
    simp [numeral, h0, ih]

theorem mem_of_digitOf (A : Str) (c : Char) (d : Nat) (h : digitOf A c = some d) : c ∈ A := by
  induction A generalizing d with
  | nil => cases h
  | cons a as ih =>
    rw [digitOf] at h
    split at h
    · next e => simp [e]
    · obtain ⟨k, hk, _⟩ := Option.map_eq_some_iff.1 h
      simp [ih k hk]

theorem over_of_numeral (A w : Str) (n : Nat) (h : numeral A w = some n) : Over A w := by
  induction w generalizing n with
  | nil => intro c hc; cases hc
  | cons a as ih =>
    simp only [numeral, Option.bind_eq_bind, Option.bind_eq_some_iff] at h
    obtain ⟨da, hda, r, hr, _⟩ := h
    intro c hc
    rcases List.mem_cons.1 hc with rfl | hc
    · exact mem_of_digitOf _ _ _ hda
    · exact ih r hr c hc

/-- The words of a sighash text. -/
def sigWords (t : Nat) : List Str :=
  (if t % 4 = 1 then ["ALL".toList] else if t % 4 = 2 then ["NONE".toList] else
    if t % 4 = 3 then ["SINGLE".toList] else []) ++
  (if t / 128 % 2 = 1 then ["ANYONE_CAN_PAY".toList] else []) ++
  (if t / 64 % 2 = 1 then ["FORKID".toList] else []) ++
  (if t - t % 4 - t / 64 % 4 * 64 = 0 then []
    else ["0x".toList ++ SigHash.hexNat02 (t - t % 4 - t / 64 % 4 * 64)])

theorem and_64 (t : Nat) : t &&& 64 = t / 64 % 2 * 64 := by
  have h := Nat.and_two_pow t 6
  rw [Nat.testBit_eq_decide_div_mod_eq] at h
  norm_num at h
  rw [h]
  rcases Nat.mod_two_eq_zero_or_one (t / 64) with h | h <;> simp [h]

theorem and_128' (t : Nat) : t &&& 128 = t / 128 % 2 * 128 := by
  have h := Nat.and_two_pow t 7
  rw [Nat.testBit_eq_decide_div_mod_eq] at h
  norm_num at h
  rw [h]
  rcases Nat.mod_two_eq_zero_or_one (t / 128) with h | h <;> simp [h]

theorem and_195 (t : Nat) : t &&& 195 = t % 4 + t / 64 % 4 * 64 := by
  have h1 : t &&& 195 = (t % 256) &&& 195 := by
    apply Nat.eq_of_testBit_eq
    intro i
    rw [Nat.testBit_and, Nat.testBit_and, show 256 = 2 ^ 8 from rfl, Nat.testBit_mod_two_pow]
    by_cases hi : i < 8
    · simp [hi]
    · have : Nat.testBit 195 i = false := Nat.testBit_lt_two_pow (by
        calc 195 < 2 ^ 8 := by norm_num
          _ ≤ 2 ^ i := Nat.pow_le_pow_right (by omega) (by omega))
      simp [this]
  have h2 : ∀ n : Fin 256, n.1 &&& 195 = n.1 % 4 + n.1 / 64 % 4 * 64 := by decide +kernel
  have h3 := h2 ⟨t % 256, by omega⟩
  simp only at h3
  rw [h1, h3]
  omega

theorem to_string_eq (t : Nat) : SigHash.to_string t = joinStr ['|'] (sigWords t) := by
  unfold SigHash.to_string sigWords
  have e : SigHash.ANYONE_CAN_PAY ||| SigHash.FORKID ||| 3 = 195 := by decide
  have e1 : SigHash.ANYONE_CAN_PAY = 128 := rfl
  have e2 : SigHash.FORKID = 64 := rfl
  simp only [e, and_195]
  simp only [e1, e2, and3, and_64, and_128']
  have hk : (if t % 4 ≠ 0 then
      [(["ALL".toList, "NONE".toList, "SINGLE".toList] : List Str).getD (t % 4 - 1) []] else []) =
      if t % 4 = 1 then ["ALL".toList] else if t % 4 = 2 then ["NONE".toList] else
    if t % 4 = 3 then ["SINGLE".toList] else [] := by
    have h : t % 4 = 0 ∨ t % 4 = 1 ∨ t % 4 = 2 ∨ t % 4 = 3 := by omega
    rcases h with h | h | h | h <;> rw [h] <;> rfl
  have ha : (if t / 128 % 2 * 128 ≠ 0 then ["ANYONE_CAN_PAY".toList] else []) =
      if t / 128 % 2 = 1 then ["ANYONE_CAN_PAY".toList] else [] := by
    rcases Nat.mod_two_eq_zero_or_one (t / 128) with h | h <;> simp [h]
  have hf : (if t / 64 % 2 * 64 ≠ 0 then ["FORKID".toList] else []) =
      if t / 64 % 2 = 1 then ["FORKID".toList] else [] := by
    rcases Nat.mod_two_eq_zero_or_one (t / 64) with h | h <;> simp [h]
  have hr : t - (t % 4 + t / 64 % 4 * 64) = t - t % 4 - t / 64 % 4 * 64 := by omega
  rw [hk, ha, hf, hr]
  congr 2
  by_cases h : t - t % 4 - t / 64 % 4 * 64 = 0 <;> simp [h]

theorem hexNat02_numeral (n : Nat) : numeral hexAlphabet (SigHash.hexNat02 n) = some n :=
  numeral_zeros _ _ _ (numeral_hexNat n)

theorem sigWords_words (t : Nat) : ∀ w ∈ sigWords t, w ≠ [] ∧ '|' ∉ w := by
  intro w hw
  simp only [sigWords, List.mem_append] at hw
  rcases hw with ((hw | hw) | hw) | hw
  · have : w ∈ ["ALL".toList, "NONE".toList, "SINGLE".toList] := by
      split at hw
      · simp at hw; simp [hw]
      · split at hw
        · simp at hw; simp [hw]
        · split at hw
          · simp at hw; simp [hw]
          · cases hw
    clear hw
    revert w
    decide
  · split at hw
    · have : w = "ANYONE_CAN_PAY".toList := by simpa using hw
      rw [this]; decide
    · cases hw
  · split at hw
    · have : w = "FORKID".toList := by simpa using hw
      rw [this]; decide
    · cases hw
  · split at hw
    · cases hw
    · simp only [List.mem_singleton] at hw
      rw [hw]
      refine ⟨by simp, ?_⟩
      intro hm
      rcases List.mem_append.1 hm with hm | hm
      · revert hm; decide
      · have := over_of_numeral _ _ _ (hexNat02_numeral _) _ hm
        revert this; decide

/-- A sighash text determines the number, for all numbers and not only bytes. -/
theorem C56_injective (t1 t2 : Nat) (h : SigHash.to_string t1 = SigHash.to_string t2) : t1 = t2 := by
  rw [to_string_eq, to_string_eq] at h
  have hw := joinStr_inj '|' _ _ (sigWords_words t1) (sigWords_words t2) h
  have hex : ∀ t (w : Str), w.head? ≠ some '0' → (w ∈ (if t - t % 4 - t / 64 % 4 * 64 = 0 then []
    else ["0x".toList ++ SigHash.hexNat02 (t - t % 4 - t / 64 % 4 * 64)]) ↔ False) := by
    intro t w hh
    split
    · simp
    · simp only [List.mem_singleton, iff_false]
      rintro rfl
      exact hh rfl
  have mem : ∀ t (w : Str), w ∈ ["ALL".toList, "NONE".toList, "SINGLE".toList, "ANYONE_CAN_PAY".toList,
      "FORKID".toList] → (w ∈ sigWords t ↔ (w = "ALL".toList ∧ t % 4 = 1) ∨ (w = "NONE".toList ∧ t % 4 = 2) ∨
        (w = "SINGLE".toList ∧ t % 4 = 3) ∨ (w = "ANYONE_CAN_PAY".toList ∧ t / 128 % 2 = 1) ∨
        (w = "FORKID".toList ∧ t / 64 % 2 = 1)) := by
    intro t w hm
    have hh : w.head? ≠ some '0' := by revert w; decide
    simp only [sigWords, List.mem_append, hex t w hh, or_false]
    have h4 : t % 4 = 0 ∨ t % 4 = 1 ∨ t % 4 = 2 ∨ t % 4 = 3 := by omega
    rcases h4 with h4 | h4 | h4 | h4 <;> by_cases h5 : t / 128 % 2 = 1 <;> by_cases h6 : t / 64 % 2 = 1 <;>
      simp [h4, h5, h6, or_assoc]
  have k1 : t1 % 4 = 1 ↔ t2 % 4 = 1 := by
    have := (mem t1 "ALL".toList (by decide)).symm.trans ((by rw [hw]) : _ ↔ _) |>.trans (mem t2 "ALL".toList (by decide))
    simpa using this
  have k2 : t1 % 4 = 2 ↔ t2 % 4 = 2 := by
    have := (mem t1 "NONE".toList (by decide)).symm.trans ((by rw [hw]) : _ ↔ _) |>.trans (mem t2 "NONE".toList (by decide))
    simpa using this
  have k3 : t1 % 4 = 3 ↔ t2 % 4 = 3 := by
    have := (mem t1 "SINGLE".toList (by decide)).symm.trans ((by rw [hw]) : _ ↔ _) |>.trans (mem t2 "SINGLE".toList (by decide))
    simpa using this
  have k4 : t1 / 128 % 2 = 1 ↔ t2 / 128 % 2 = 1 := by
    have := (mem t1 "ANYONE_CAN_PAY".toList (by decide)).symm.trans ((by rw [hw]) : _ ↔ _) |>.trans
      (mem t2 "ANYONE_CAN_PAY".toList (by decide))
    simpa using this
  have k5 : t1 / 64 % 2 = 1 ↔ t2 / 64 % 2 = 1 := by
    have := (mem t1 "FORKID".toList (by decide)).symm.trans ((by rw [hw]) : _ ↔ _) |>.trans
      (mem t2 "FORKID".toList (by decide))
    simpa using this
  have e4 : t1 % 4 = t2 % 4 := by omega
  have e5 : t1 / 128 % 2 = t2 / 128 % 2 := by omega
  have e6 : t1 / 64 % 2 = t2 / 64 % 2 := by omega
  have k6 : t1 - t1 % 4 - t1 / 64 % 4 * 64 = t2 - t2 % 4 - t2 / 64 % 4 * 64 := by
    unfold sigWords at hw
    rw [e4, e5, e6] at hw
    have hw := List.append_cancel_left hw
    by_cases z1 : t1 - t2 % 4 - t1 / 64 % 4 * 64 = 0 <;> by_cases z2 : t2 - t2 % 4 - t2 / 64 % 4 * 64 = 0
    · rw [e4, z1, z2]
    · rw [if_pos z1, if_neg z2] at hw; cases hw
    · rw [if_neg z1, if_pos z2] at hw; cases hw
    · rw [if_neg z1, if_neg z2] at hw
      have := (List.cons.inj hw).1
      have := congrArg (numeral hexAlphabet) (List.append_cancel_left this)
      rw [hexNat02_numeral, hexNat02_numeral] at this
      rw [e4]
      exact Option.some.inj this
  omega

/-- `base` and `anyone_can_pay` are the low five bits and bit 7. -/
theorem C56_parts (t : Nat) : SigHash.base t = t % 32 ∧ (SigHash.anyone_can_pay t = true ↔ t / 128 % 2 = 1) := by
  refine ⟨Nat.and_two_pow_sub_one_eq_mod t 5, ?_⟩
  unfold SigHash.anyone_can_pay
  rw [show SigHash.ANYONE_CAN_PAY = 128 from rfl, and_128']
  rcases Nat.mod_two_eq_zero_or_one (t / 128) with h | h <;> simp [h]

example : SigHash.to_string 0xc3 = "SINGLE|ANYONE_CAN_PAY|FORKID".toList ∧
    SigHash.to_string 0x45 = "ALL|FORKID|0x04".toList := by decide +kernel

/-! ## C74: DER and compact signatures -/

/-- Converting a compact signature to DER and back gives it again. -/
theorem C74_compact_der (L : Secp) (s : Bytes) (h : IsCompact s) :
    ∃ d, compact_signature_to_der L s = .ok d ∧ der_signature_to_compact L d = .ok s := by
  obtain ⟨h1, h2, h3⟩ := h
  refine ⟨L.serialize_der s, ?_, ?_⟩
  · simp [compact_signature_to_der, h1, Secp.parse_compact, h2, h3]
  · simp [der_signature_to_compact, der_signature_to_cdata, L.parse_serialize_der s h1 h2 h3]

/-- Every DER signature accepted is converted to a compact signature. -/
theorem C74_der_compact (L : Secp) (d s : Bytes) (h : der_signature_to_compact L d = .ok s) : IsCompact s := by
  unfold der_signature_to_compact der_signature_to_cdata at h
  cases hp : L.parse_der d with
  | none => rw [hp] at h; cases h
  | some t =>
    rw [hp] at h
    cases h
    exact L.parse_der_compact d _ hp

/-- 64 bytes that are not a signature are not refused: all of them give the DER form of `r = s = 0`. -/
theorem C74_out_of_range (L : Secp) (s : Bytes) (hl : s.length = 64) (h : ¬ IsCompact s) :
    compact_signature_to_der L s = .ok (L.serialize_der (zeros 64)) := by
  have : Secp.parse_compact s = none := by
    unfold Secp.parse_compact
    rw [if_neg]
    exact fun hc => h ⟨hl, hc⟩
  simp [compact_signature_to_der, hl, this]

/-- Bytes of another length are refused. -/
theorem C74_length (L : Secp) (s : Bytes) :
    (∃ d, compact_signature_to_der L s = .ok d) ↔ s.length = 64 := by
  unfold compact_signature_to_der
  by_cases h : s.length = 64
  · simp [h]
  · simp [h]

example : IsCompact (zeros 64) ∧ ¬ IsCompact (List.replicate 64 0xff) ∧ (List.replicate 64 (0xff : UInt8)).length = 64 := by
  unfold IsCompact
  decide +kernel

/-! ## C75: signatures with a sighash byte -/

theorem der_length (L : Secp) (der s : Bytes) (h : der_signature_to_compact L der = .ok s) : 8 ≤ der.length := by
  unfold der_signature_to_compact der_signature_to_cdata at h
  cases hp : L.parse_der der with
  | none => rw [hp] at h; cases h
  | some t => exact L.parse_der_length _ _ hp

/-- A signature made of a DER signature and a sighash byte returns both. -/
theorem C75_parts (L : Secp) (der : Bytes) (t : Nat) (ht : t < 256) (s : Bytes)
    (hd : der_signature_to_compact L der = .ok s) :
    ∃ raw, Signature.from_der_sig L der t = .ok raw ∧ raw ≠ MISSING_SIG_BYTES ∧
      Signature.der_signature raw = .ok der ∧ Signature.sighash raw = .ok t ∧
        Signature.to_compact L raw = .ok s := by
  have hp := pack_byte_nat ht
  have hdrop : dropEnd (der ++ [UInt8.ofNat t]) 1 = der := by simp [dropEnd]
  have hm : der ++ [UInt8.ofNat t] ≠ MISSING_SIG_BYTES := by
    intro e
    have h1 := congrArg List.length e
    have h2 := der_length L der s hd
    simp only [List.length_append, List.length_singleton, MISSING_SIG_BYTES] at h1
    omega
  refine ⟨der ++ [UInt8.ofNat t], ?_, hm, ?_⟩
  · simp only [Signature.from_der_sig, hp, ok_bind', Signature.new, hdrop, hd, pure_ok', ite_self]
  · simp only [Signature.der_signature, Signature.sighash, Signature.to_compact, hm, if_false, hdrop,
      List.getLast?_append, List.getLast?_singleton, Option.or, toNat_ofNat' ht, ok_bind', hd, and_self]

/-- Every signature accepted is made of a DER signature and a sighash byte, or is the one-byte
placeholder; anything else raises `InvalidSignatureError`. -/
theorem C75_accepts (L : Secp) (raw : Bytes) :
    (Signature.new L raw = .ok raw ∧ (raw = MISSING_SIG_BYTES ∨ ∃ der t, raw = der ++ [UInt8.ofNat t] ∧ t < 256 ∧
      (∃ s, der_signature_to_compact L der = .ok s ∧ IsCompact s) ∧
      Signature.from_der_sig L der t = .ok raw)) ∨
    Signature.new L raw = .error .invalidSignatureError := by
  by_cases hm : raw = MISSING_SIG_BYTES
  · exact .inl ⟨by simp [Signature.new, hm], .inl hm⟩
  · cases hs : der_signature_to_compact L (dropEnd raw 1) with
    | error e =>
      right
      have : e = .invalidSignatureError := by
        unfold der_signature_to_compact der_signature_to_cdata at hs
        split at hs <;> cases hs
        rfl
      simp only [Signature.new, hm, if_false, hs, error_bind', this]
    | ok s =>
      left
      have hn : Signature.new L raw = .ok raw := by
        simp only [Signature.new, hm, if_false, hs, ok_bind', pure_ok']
      refine ⟨hn, .inr ?_⟩
      rcases List.eq_nil_or_concat' raw with rfl | ⟨der, b, rfl⟩
      · have := der_length L _ _ hs
        simp [dropEnd] at this
      · have hdrop : dropEnd (der ++ [b]) 1 = der := by simp [dropEnd]
        have hb := pack_byte_nat (UInt8.toNat_lt b)
        rw [UInt8.ofNat_toNat] at hb
        rw [hdrop] at hs
        refine ⟨der, b.toNat, by simp, UInt8.toNat_lt b, ⟨s, hs, C74_der_compact L der s hs⟩, ?_⟩
        simp only [Signature.from_der_sig, hb, ok_bind', hn]

/-- A signature that is present has an `r` and an `s` below the group order, and its compact form is
their 32 bytes each; of the placeholder nothing can be had.  The hex form is read back. -/
theorem C75_values (L : Secp) (raw : Bytes) (h : Signature.new L raw = .ok raw) :
    (Signature.is_present raw = true → ∃ r s, Signature.r_value L raw = .ok r ∧ Signature.s_value L raw = .ok s ∧
      r < CURVE_ORDER ∧ s < CURVE_ORDER ∧ Signature.to_compact L raw = .ok (beBytes 32 r ++ beBytes 32 s)) ∧
    (Signature.is_present raw = false ↔ raw = [0xff]) ∧
    (Signature.is_present raw = false → Signature.r_value L raw = .error .invalidSignatureError ∧
      Signature.s_value L raw = .error .invalidSignatureError ∧
      Signature.to_compact L raw = .error .invalidSignatureError ∧
      Signature.der_signature raw = .error .invalidSignatureError ∧
      Signature.sighash raw = .error .invalidSignatureError) ∧
    Signature.from_hex L (Signature.to_hex raw) = .ok raw := by
  refine ⟨fun hp => ?_, by simp [Signature.is_present, MISSING_SIG_BYTES], fun hp => ?_, ?_⟩
  · have hm : raw ≠ MISSING_SIG_BYTES := by simpa [Signature.is_present] using hp
    simp only [Signature.new, hm, if_false, bind_eq_ok] at h
    obtain ⟨s, hs, _⟩ := h
    obtain ⟨h1, h2, h3⟩ := C74_der_compact L _ _ hs
    have hc : Signature.to_compact L raw = .ok s := by
      simp only [Signature.to_compact, Signature.der_signature, hm, if_false, ok_bind', hs]
    refine ⟨_, _, by simp only [Signature.r_value, hc, ok_bind', pure_ok'], by
      simp only [Signature.s_value, hc, ok_bind', pure_ok'], h2, h3, ?_⟩
    have e1 := beBytes_beValue (s.take 32)
    have e2 := beBytes_beValue (s.drop 32)
    rw [List.length_take, h1] at e1
    rw [List.length_drop, h1] at e2
    rw [hc, be_bytes_to_int_eq, be_bytes_to_int_eq]
    rw [show beBytes 32 (beValue (s.take 32)) = s.take 32 from e1,
      show beBytes 32 (beValue (s.drop 32)) = s.drop 32 from e2, List.take_append_drop]
  · have hm : raw = MISSING_SIG_BYTES := by simpa [Signature.is_present] using hp
    subst hm
    exact ⟨rfl, rfl, rfl, rfl, rfl⟩
  · rw [Signature.from_hex, Signature.to_hex, fromhex_hex, ok_bind', h]

example : ∃ der s, der_signature_to_compact toySecp der = .ok s ∧
    Signature.new toySecp (der ++ [0x41]) = .ok (der ++ [0x41]) := by
  obtain ⟨d, h1, h2⟩ := C74_compact_der toySecp (zeros 64) (by unfold IsCompact; decide +kernel)
  have hdrop : dropEnd (d ++ [0x41]) 1 = d := by simp [dropEnd]
  exact ⟨d, _, h2, by simp [Signature.new, hdrop, h2]⟩

end Bitcoinx
