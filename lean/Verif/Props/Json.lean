import Verif.Lemmas.Calendar
import Verif.Props.Classify
import Verif.Props.Tx

/-! # Properties of the JSON form of transactions: C90, and of lock time descriptions: C91 -/

namespace Bitcoinx

open Spec

theorem hasFlag_iff (flags k : Nat) : hasFlag flags (2 ^ k) = true ↔ FlagSet flags k := by
  rw [hasFlag, bne_iff_ne, Nat.and_two_pow, FlagSet]
  rw [Nat.testBit_eq_decide_div_mod_eq]
  by_cases h : flags / 2 ^ k % 2 = 1 <;> simp [h]

instance (flags k : Nat) : Decidable (FlagSet flags k) := inferInstanceAs (Decidable (_ = _))

/-! ## C91: lock time descriptions -/

theorem utcIso_eq {t : Nat} (h : t < 253402300800) : utcIso t = .ok (timeText t) := by
  have hd := dateOf_eq (t / 86400)
  have hy := year_lt h
  have hok := dateOf_ok (t / 86400)
  unfold utcIso
  rw [if_neg (by omega)]
  simp only at hd ⊢
  generalize yearLoop (t / 86400) 1970 (t / 86400) = yl at hd ⊢
  obtain ⟨y, yd⟩ := yl
  simp only at hd ⊢
  generalize monthLoop 1 (monthLengths (isLeap y)) yd = ml at hd ⊢
  obtain ⟨m, md⟩ := ml
  simp only at hd ⊢
  rw [hd] at hy hok
  obtain ⟨_, h2, _, h4⟩ := hok
  have hb := (lastDay_bounds y m).2
  simp only at hy h2 h4
  rw [timeText, hd, dateText]
  rw [zeroPad_fixed 3 y (by norm_num; omega), zeroPad_fixed 1 m (by norm_num; omega),
    zeroPad_fixed 1 (md + 1) (by norm_num; omega), zeroPad_fixed 1 (t % 86400 / 3600) (by norm_num; omega),
    zeroPad_fixed 1 (t % 86400 % 3600 / 60) (by norm_num; omega),
    zeroPad_fixed 1 (t % 86400 % 60) (by norm_num; omega)]
  rw [show t % 86400 / 3600 = t / 3600 % 24 by omega, show t % 86400 % 3600 / 60 = t / 60 % 60 by omega,
    show t % 86400 % 60 = t % 60 by omega]
  rfl

theorem timeText_length (t : Nat) : (timeText t).length = 19 := by
  simp [timeText, dateText, fixed_length]

theorem timeText_inj {a b : Nat} (ha : a < 253402300800) (hb : b < 253402300800) (h : timeText a = timeText b) :
    a = b := by
  have pa := year_lt ha
  have pb := year_lt hb
  obtain ⟨_, ma, _, da⟩ := dateOf_ok (a / 86400)
  obtain ⟨_, mb, _, db⟩ := dateOf_ok (b / 86400)
  have da' := da.trans (lastDay_bounds _ _).2
  have db' := db.trans (lastDay_bounds _ _).2
  simp only [timeText, dateText, List.append_assoc] at h
  obtain ⟨h1, h⟩ := List.append_inj h (by simp [fixed_length])
  obtain ⟨_, h⟩ := List.append_inj h rfl
  obtain ⟨h2, h⟩ := List.append_inj h (by simp [fixed_length])
  obtain ⟨_, h⟩ := List.append_inj h rfl
  obtain ⟨h3, h⟩ := List.append_inj h (by simp [fixed_length])
  obtain ⟨_, h⟩ := List.append_inj h rfl
  obtain ⟨h4, h⟩ := List.append_inj h (by simp [fixed_length])
  obtain ⟨_, h⟩ := List.append_inj h rfl
  obtain ⟨h5, h⟩ := List.append_inj h (by simp [fixed_length])
  obtain ⟨_, h6⟩ := List.append_inj h rfl
  have e1 := fixed_inj (by norm_num; omega) (by norm_num; omega) h1
  have e2 := fixed_inj (by norm_num; omega) (by norm_num; omega) h2
  have e3 := fixed_inj (by norm_num; omega) (by norm_num; omega) h3
  have e4 := fixed_inj (by norm_num; omega) (by norm_num; omega) h4
  have e5 := fixed_inj (by norm_num; omega) (by norm_num; omega) h5
  have e6 := fixed_inj (by norm_num; omega) (by norm_num; omega) h6
  have ed : dateOf (a / 86400) = dateOf (b / 86400) := by
    generalize dateOf (a / 86400) = x at *
    generalize dateOf (b / 86400) = y at *
    obtain ⟨x1, x2, x3⟩ := x
    obtain ⟨y1, y2, y3⟩ := y
    simp only at e1 e2 e3
    rw [e1, e2, e3]
  have := dateOf_inj ed
  omega

theorem withCommas_inj {a b : Nat} {t : Str} (ha : WithCommas a t) (hb : WithCommas b t) : a = b := by
  have h := numeral_strNat a
  rw [← ha.digits, hb.digits, numeral_strNat b] at h
  exact (Option.some.inj h).symm

/-- What the description of a lock time says about the blocks, given by height and median time, in
which the transaction is valid. -/
inductive Spec.Says : Str → (Int → Int → Prop) → Prop
  | always : Says "valid in any block".toList (fun _ _ => True)
  | height (n : Nat) (t : Str) : WithCommas n t →
      Says ("valid in blocks with height greater than ".toList ++ t) (fun height _ => n < height)
  | time (n : Nat) : n < 253402300800 →
      Says ("valid in blocks with MTP greater than ".toList ++ timeText n ++ " UTC".toList) (fun _ time => n < time)

/-- No description can be read in two ways. -/
theorem says_unique {d : Str} {P Q : Int → Int → Prop} (hp : Says d P) (hq : Says d Q) : P = Q := by
  generalize hd : d = d' at hq
  cases hp with
  | always =>
    cases hq with
    | always => rfl
    | height n t _ => exact absurd (congrArg (fun l : Str => l.take 10) hd) (by simp)
    | time n _ => exact absurd (congrArg (fun l : Str => l.take 10) hd) (by simp)
  | height n t ht =>
    cases hq with
    | always => exact absurd (congrArg (fun l : Str => l.take 10) hd) (by simp)
    | height n' t' ht' =>
      obtain rfl := List.append_cancel_left hd
      rw [withCommas_inj ht ht']
    | time n' _ =>
      exact absurd (congrArg (fun l : Str => l.take 23) hd) (by simp)
  | time n hn =>
    cases hq with
    | always => exact absurd (congrArg (fun l : Str => l.take 10) hd) (by simp)
    | height n' t' _ => exact absurd (congrArg (fun l : Str => l.take 23) hd) (by simp)
    | time n' hn' =>
      have := List.append_cancel_left (List.append_cancel_right hd)
      rw [timeText_inj hn hn' this]

/-- Every lock time that can be serialized has a description. -/
theorem description_says (n : Int) (h : Spec.UInt 4 n) :
    ∃ d P, locktime_description n = .ok d ∧ Says d P ∧
      ∀ height time, P height time ↔ (n = 0 ∨ (n < 500000000 ∧ n < height) ∨ (500000000 ≤ n ∧ n < time)) := by
  obtain ⟨h1, h2⟩ := h
  obtain ⟨k, rfl⟩ := Int.eq_ofNat_of_zero_le h1
  norm_num at h2
  unfold locktime_description
  by_cases hz : (k : Int) = 0
  · rw [if_pos hz]
    exact ⟨_, _, rfl, .always, fun a b => by simp [hz]⟩
  · rw [if_neg hz]
    by_cases hl : (k : Int) < 500000000
    · rw [if_pos hl]
      exact ⟨_, _, rfl, .height k _ (formatCommas_spec k), fun a b => by omega⟩
    · rw [if_neg hl, Int.toNat_natCast, utcIso_eq (by omega)]
      exact ⟨_, _, rfl, .time k (by omega), fun a b => by omega⟩

/-- **C91**.  Every lock time that can be serialized has a description, of the three kinds specified;
the description is unambiguous; whatever it says of a block, the transaction is final in that block if it
says so, and only then unless all inputs opt out. -/
theorem C91_meaning (tx : Tx) (h : Spec.UInt 4 tx.locktime) :
    ∃ d P, locktime_description tx.locktime = .ok d ∧ Says d P ∧ (∀ Q, Says d Q → Q = P) ∧
      (∀ height time, P height time → tx.is_final_for_block height time = true) ∧
      ((∃ i ∈ tx.inputs, i.sequence ≠ 2 ^ 32 - 1) →
        ∀ height time, tx.is_final_for_block height time = true → P height time) := by
  obtain ⟨d, P, h1, h2, h3⟩ := description_says _ h
  refine ⟨d, P, h1, h2, fun Q hQ => says_unique hQ h2, fun a b hp => ?_, fun ⟨i, hi, hs⟩ a b hf => ?_⟩
  · rw [C48_final, Final]
    rcases (h3 a b).1 hp with h | h | h
    · exact .inl h
    · exact .inr (.inl h)
    · exact .inr (.inr (.inl h))
  · rw [C48_final, Final] at hf
    rw [h3]
    rcases hf with h | h | h | h
    · exact .inl h
    · exact .inr (.inl h)
    · exact .inr (.inr h)
    · exact absurd (h i hi) hs

/-- **C91**.  Different lock times have different descriptions. -/
theorem C91_injective (a b : Int) (ha : Spec.UInt 4 a) (hb : Spec.UInt 4 b)
    (h : locktime_description a = locktime_description b) : a = b := by
  obtain ⟨d, P, h1, h2, h3⟩ := description_says a ha
  obtain ⟨d', Q, k1, k2, k3⟩ := description_says b hb
  rw [h1, k1] at h
  obtain rfl := Except.ok.inj h
  have hPQ := says_unique h2 k2
  have key : ∀ x y, (a = 0 ∨ (a < 500000000 ∧ a < x) ∨ (500000000 ≤ a ∧ a < y)) ↔
      (b = 0 ∨ (b < 500000000 ∧ b < x) ∨ (500000000 ≤ b ∧ b < y)) := fun x y => by
    rw [← h3, ← k3, hPQ]
  have e1 := key a a
  have e2 := key b b
  have e3 := key (a + 1) 0
  have e4 := key 0 (a + 1)
  have e5 := key (b + 1) 0
  have e6 := key 0 (b + 1)
  have := ha.1
  have := hb.1
  omega

/-- The dates of the calendar exist, and go through all days in order. -/
theorem C91_dates (a b : Nat) :
    (1 ≤ (dateOf a).month ∧ (dateOf a).month ≤ 12 ∧ 1 ≤ (dateOf a).day ∧
      (dateOf a).day ≤ lastDay (dateOf a).year (dateOf a).month) ∧ (dateOf a = dateOf b → a = b) :=
  ⟨dateOf_ok a, dateOf_inj⟩

/-- Lock times up to 499,999,999 are heights; from 500,000,000 they are times. -/
example : locktime_description 499999999 = .ok "valid in blocks with height greater than 499,999,999".toList ∧
    locktime_description 500000000 = .ok "valid in blocks with MTP greater than 1985-11-05 00:53:20 UTC".toList ∧
    locktime_description 0 = .ok "valid in any block".toList ∧
    locktime_description 1000 = .ok "valid in blocks with height greater than 1,000".toList ∧
    locktime_description 4294967295 = .ok "valid in blocks with MTP greater than 2106-02-07 06:28:15 UTC".toList ∧
    locktime_description 951827696 = .ok "valid in blocks with MTP greater than 2000-02-29 12:34:56 UTC".toList := by
  decide +kernel

example : Spec.UInt 4 exampleTx.locktime ∧ ∃ i ∈ exampleTx.inputs, i.sequence ≠ 2 ^ 32 - 1 := by
  unfold Spec.UInt exampleTx
  simp

/-! ## C90: JSON -/

theorem script_sig_json (H : Hashes) (L : Secp) (s : Bytes) (c : Bool) (coin : Coin) :
    Script.to_json H L s c true coin = .ok { asm := Script.to_asm L s true, hex := hex s } := by
  unfold Script.to_json
  simp only [not_true_eq_false, false_and, if_false, pure_ok']

theorem script_plain_json (H : Hashes) (L : Secp) (s : Bytes) (coin : Coin) :
    Script.to_json H L s false false coin = .ok { asm := Script.to_asm L s false, hex := hex s } := by
  unfold Script.to_json
  simp only [Bool.false_eq_true, and_false, if_false, pure_ok']

theorem unhex_hex (b : Bytes) : unhex (hex b) = some b := by
  rw [unhex, fromhex_hex]; rfl

theorem is_coinbase_iff (i : TxInput) : i.is_coinbase = true ↔ i.prev_idx = 2 ^ 32 - 1 ∧ i.prev_hash = zeros 32 := by
  simp only [TxInput.is_coinbase, Bool.and_eq_true, decide_eq_true_eq]
  exact Iff.rfl

/-- The JSON of an input. -/
theorem input_json (H : Hashes) (L : Secp) (decode : Bytes → Str) (i : TxInput) (flags : Nat) (n : Option Nat) :
    ∃ j, i.to_json H L decode flags n = .ok j ∧ readInput j = some i ∧
      inputNumber j = (if FlagSet flags 0 then n else none) ∧
      ((∃ h t s n, j = .coinbase h t s n) ↔ i.prev_idx = 2 ^ 32 - 1 ∧ i.prev_hash = zeros 32) := by
  have hf : (if hasFlag flags JSONFlags.ENUMERATE_INPUTS = true then n else none) = if FlagSet flags 0 then n else none := by
    have : hasFlag flags JSONFlags.ENUMERATE_INPUTS = true ↔ _ := hasFlag_iff flags 0
    by_cases h : FlagSet flags 0
    · rw [if_pos h, if_pos (this.2 h)]
    · rw [if_neg h, if_neg (fun a => h (this.1 a))]
  unfold TxInput.to_json
  simp only [hf]
  by_cases hc : i.is_coinbase = true
  · rw [if_pos hc, pure_ok']
    obtain ⟨h1, h2⟩ := (is_coinbase_iff i).1 hc
    refine ⟨_, rfl, ?_, rfl, fun _ => ⟨h1, h2⟩, fun _ => ⟨_, _, _, _, rfl⟩⟩
    simp only [readInput, unhex_hex, Option.pure_def, Option.bind_eq_bind, Option.bind_some, ← h1, ← h2]
  · rw [if_neg hc, script_sig_json, ok_bind', pure_ok']
    refine ⟨_, rfl, ?_, rfl, fun ⟨_, _, _, _, h⟩ => (by cases h), fun h => absurd ((is_coinbase_iff i).2 h) hc⟩
    simp only [readInput, unhex_hex, Option.pure_def, Option.bind_eq_bind, Option.bind_some]

/-- The JSON of an output. -/
theorem output_json (H : Hashes) (L : Secp) (o : TxOutput) (flags : Nat) (coin : Coin) (hc : coin ∈ all_coins)
    (n : Option Nat) :
    (FlagSet flags 4 ∧ PaysToScriptHash L coin o → o.to_json H L flags coin n = .error .attributeError) ∧
    (¬ (FlagSet flags 4 ∧ PaysToScriptHash L coin o) → ∃ j, o.to_json H L flags coin n = .ok j ∧ readOutput j = some o ∧
      j.nOutput = (if FlagSet flags 1 then n else none) ∧ j.script.asm = Script.to_asm L o.script_pubkey false ∧
      (j.script.type.isSome = true ↔ FlagSet flags 4)) := by
  have hf : (if hasFlag flags JSONFlags.ENUMERATE_OUTPUTS = true then n else none) = if FlagSet flags 1 then n else none := by
    have : hasFlag flags JSONFlags.ENUMERATE_OUTPUTS = true ↔ _ := hasFlag_iff flags 1
    by_cases h : FlagSet flags 1
    · rw [if_pos h, if_pos (this.2 h)]
    · rw [if_neg h, if_neg (fun a => h (this.1 a))]
  have h16 := hasFlag_iff flags 4
  have e16 : JSONFlags.CLASSIFY_OUTPUT_SCRIPT = 2 ^ 4 := rfl
  unfold TxOutput.to_json
  rw [hf, e16]
  constructor
  · rintro ⟨h1, h, h2⟩
    rw [h16.2 h1, C82_scripthash H L _ coin h h2, error_bind']
  · intro hn
    by_cases h1 : FlagSet flags 4
    · obtain ⟨out, ho⟩ : ∃ out, classify_output_script L o.script_pubkey coin = .ok out := by
        by_cases hs : ∃ o', Standard L coin (Script.stripped_ops o.script_pubkey) o'
        · obtain ⟨o', hs⟩ := hs
          exact ⟨o', (C42_classify L _ coin o').2 (.inl hs)⟩
        · exact ⟨.Unknown, (C42_classify L _ coin _).2 (.inr ⟨rfl, hs⟩)⟩
      obtain ⟨j, k1, k2, k3, k4, _⟩ := C82_others asciiCase H L o.script_pubkey coin hc out ho (by
        rintro h c rfl
        have hs : Standard L coin (Script.stripped_ops o.script_pubkey) (.address (.P2SH h c)) := by
          rcases (C42_classify L _ coin _).1 ho with hs | ⟨hu, _⟩
          · exact hs
          · cases hu
        have hcc : c = coin := ((C42_hash_forms L o.script_pubkey coin c h).2.1 ho).1
        rw [hcc] at hs
        exact hn ⟨h1, h, hs⟩)
      rw [h16.2 h1, k1, ok_bind', pure_ok']
      refine ⟨_, rfl, ?_, rfl, k3, by simp [k4, h1]⟩
      simp only [readOutput, k2, unhex_hex, Option.pure_def, Option.bind_eq_bind, Option.bind_some]
    · have : hasFlag flags (2 ^ 4) = false := Bool.eq_false_iff.2 (fun a => h1 (h16.1 a))
      rw [this, script_plain_json, ok_bind', pure_ok']
      refine ⟨_, rfl, ?_, rfl, rfl, by simp [h1]⟩
      simp only [readOutput, unhex_hex, Option.pure_def, Option.bind_eq_bind, Option.bind_some]

theorem enumMap_ok {α β : Type} (f : α → Nat → Res β) (g : β → Option α) (R : β → Nat → α → Prop) (xs : List α)
    (n : Nat) (h : ∀ x ∈ xs, ∀ k, ∃ y, f x k = .ok y ∧ g y = some x ∧ R y k x) :
    ∃ ys, enumMap f n xs = .ok ys ∧ ys.mapM g = some xs ∧ ys.length = xs.length ∧
      ∀ k x y, xs[k]? = some x → ys[k]? = some y → R y (n + k) x := by
  induction xs generalizing n with
  | nil => exact ⟨[], rfl, rfl, rfl, by simp⟩
  | cons x xs ih =>
    obtain ⟨y, h1, h2, h3⟩ := h x (by simp) n
    obtain ⟨ys, k1, k2, k3, k4⟩ := ih (n + 1) (fun x' hx' => h x' (by simp [hx']))
    refine ⟨y :: ys, ?_, ?_, by simp [k3], ?_⟩
    · simp only [enumMap, h1, ok_bind', k1, pure_ok']
    · simp [h2, k2]
    · intro k x' y' hx hy
      cases k with
      | zero =>
        simp only [List.getElem?_cons_zero, Option.some.injEq] at hx hy
        subst hx hy
        exact h3
      | succ k =>
        simp only [List.getElem?_cons_succ] at hx hy
        have := k4 k x' y' hx hy
        rwa [show n + (k + 1) = n + 1 + k by omega]

theorem enumMap_error {α β : Type} (f : α → Nat → Res β) (e : Err) (xs : List α) (n : Nat)
    (h : ∀ x ∈ xs, ∀ k, (∃ y, f x k = .ok y) ∨ f x k = .error e) (hx : ∃ x ∈ xs, ∀ k, f x k = .error e) :
    enumMap f n xs = .error e := by
  induction xs generalizing n with
  | nil => simp at hx
  | cons x xs ih =>
    rcases h x (by simp) n with ⟨y, hy⟩ | hy
    · obtain ⟨x', hm, he⟩ := hx
      rcases List.mem_cons.1 hm with rfl | hm
      · rw [he n] at hy; cases hy
      · simp only [enumMap, hy, ok_bind', ih (n + 1) (fun z hz => h z (by simp [hz])) ⟨x', hm, he⟩, error_bind']
    · simp only [enumMap, hy, error_bind']

theorem size_ok (tx : Tx) (h : InRangeTx tx) : ∃ n, tx.size = .ok n := by
  obtain ⟨_, h2, h3, h4, h5, _⟩ := h
  have key : ∀ {α : Type} (size : α → Res Nat) (xs : List α), (∀ x ∈ xs, ∃ n, size x = .ok n) →
      ∃ n, Tx.sumSizes size xs = .ok n := by
    intro α size xs hs
    induction xs with
    | nil => exact ⟨0, rfl⟩
    | cons x xs ih =>
      obtain ⟨n, hn⟩ := hs x (by simp)
      obtain ⟨m, hm⟩ := ih (fun y hy => hs y (by simp [hy]))
      exact ⟨n + m, by simp only [Tx.sumSizes, hn, hm, ok_bind', pure_ok']⟩
  obtain ⟨a, ha⟩ := key TxInput.size tx.inputs (fun i hi => ⟨_, by
    simp only [TxInput.size, varint_len_eq _ (h3 i hi).2.1, ok_bind', pure_ok']; rfl⟩)
  obtain ⟨b, hb⟩ := key TxOutput.size tx.outputs (fun o ho => ⟨_, (output_size o (h5 o ho).2)⟩)
  exact ⟨_, by simp only [Tx.size, Tx.size_io, varint_len_eq _ h2, varint_len_eq _ h4, ha, hb, ok_bind', pure_ok']; rfl⟩

/-- **C90** (failures).  With classification, a transaction with an output that pays to a script hash
has no JSON: `AttributeError`.  Any other transaction has none only if it cannot be serialized:
`struct.error`. -/
theorem C90_failures (H : Hashes) (L : Secp) (decode : Bytes → Str) (tx : Tx) (flags : Nat) (coin : Coin)
    (hc : coin ∈ all_coins) :
    (FlagSet flags 4 ∧ (∃ o ∈ tx.outputs, PaysToScriptHash L coin o) →
      tx.to_json H L decode flags coin = .error .attributeError) ∧
    (¬ (FlagSet flags 4 ∧ ∃ o ∈ tx.outputs, PaysToScriptHash L coin o) → ¬ InRangeTx tx →
      tx.to_json H L decode flags coin = .error .structError) := by
  obtain ⟨vin, hv, _⟩ := enumMap_ok (fun i n => TxInput.to_json H L decode i flags (some n)) readInput
    (fun _ _ _ => True) tx.inputs 0 (fun i _ k => by
      obtain ⟨j, h1, h2, _⟩ := input_json H L decode i flags (some k)
      exact ⟨j, h1, h2, trivial⟩)
  constructor
  · rintro ⟨hf, o, ho, hs⟩
    have := enumMap_error (fun o n => TxOutput.to_json H L o flags coin (some n)) .attributeError tx.outputs 0
      (fun x _ k => by
        obtain ⟨h1, h2⟩ := output_json H L x flags coin hc (some k)
        by_cases h : FlagSet flags 4 ∧ PaysToScriptHash L coin x
        · exact .inr (h1 h)
        · obtain ⟨j, hj, _⟩ := h2 h
          exact .inl ⟨j, hj⟩)
      ⟨o, ho, fun k => (output_json H L o flags coin hc (some k)).1 ⟨hf, hs⟩⟩
    unfold Tx.to_json
    rw [hv, ok_bind', this, error_bind']
  · intro hn hr
    obtain ⟨vout, hw, _⟩ := enumMap_ok (fun o n => TxOutput.to_json H L o flags coin (some n)) readOutput
      (fun _ _ _ => True) tx.outputs 0 (fun o ho k => by
        obtain ⟨j, h1, h2, _⟩ := (output_json H L o flags coin hc (some k)).2 (fun h => hn ⟨h.1, o, ho, h.2⟩)
        exact ⟨j, h1, h2, trivial⟩)
    unfold Tx.to_json
    rw [hv, ok_bind', hw, ok_bind']
    simp only [Tx.hex_hash, Tx.hash, C43_out_of_range tx hr, error_bind']

/-- What the JSON of a transaction contains. -/
structure Spec.JsonOf (hash : Bytes → Bytes) (flags : Nat) (tx : Tx) (j : TxJson) : Prop where
  /-- the transaction can be read from it -/
  read : readTx j = some tx
  nInputs : j.nInputs = tx.inputs.length
  nOutputs : j.nOutputs = tx.outputs.length
  /-- the hash of the serialization, backwards in hexadecimal -/
  hash : j.hash = hex (hash (hash (txBytes tx))).reverse
  /-- inputs and outputs are numbered from 0 if the flag is set -/
  inputs : ∀ k x, j.vin[k]? = some x → inputNumber x = if FlagSet flags 0 then some k else none
  /-- the inputs shown as those of a coinbase transaction are those with a hash of zeros and the index `2^32 - 1` -/
  coinbase : ∀ (k : Nat) (x : InputJson) (i : TxInput), j.vin[k]? = some x → tx.inputs[k]? = some i →
    ((∃ h t s n, x = .coinbase h t s n) ↔ i.prev_idx = 2 ^ 32 - 1 ∧ i.prev_hash = zeros 32)
  outputs : ∀ k (x : OutputJson), j.vout[k]? = some x → x.nOutput = if FlagSet flags 1 then some k else none
  /-- output scripts have a type exactly if the flag is set -/
  types : ∀ x ∈ j.vout, x.script.type.isSome = true ↔ FlagSet flags 4
  size : HashSized tx → j.size = if FlagSet flags 2 then some (txBytes tx).length else none
  meaning : j.locktimeMeaning = if FlagSet flags 3 then (locktime_description tx.locktime).toOption else none
  described : FlagSet flags 3 → ∃ d P, j.locktimeMeaning = some d ∧ Says d P

/-- **C90**.  Every other transaction has a JSON form, from which it can be read back; the counts, hash
and size are those of the transaction and its serialization. -/
theorem C90_content (H : Hashes) (L : Secp) (decode : Bytes → Str) (tx : Tx) (flags : Nat) (coin : Coin)
    (hc : coin ∈ all_coins) (hn : ¬ (FlagSet flags 4 ∧ ∃ o ∈ tx.outputs, PaysToScriptHash L coin o))
    (hr : InRangeTx tx) :
    ∃ j, tx.to_json H L decode flags coin = .ok j ∧ JsonOf H.sha256 flags tx j := by
  obtain ⟨vin, hv, hv1, hv2, hv3⟩ := enumMap_ok (fun i n => TxInput.to_json H L decode i flags (some n)) readInput
    (fun y k i => (inputNumber y = if FlagSet flags 0 then some k else none) ∧
      ((∃ h t s n, y = .coinbase h t s n) ↔ i.prev_idx = 2 ^ 32 - 1 ∧ i.prev_hash = zeros 32)) tx.inputs 0 (fun i _ k => by
      obtain ⟨j, h1, h2, h3⟩ := input_json H L decode i flags (some k)
      exact ⟨j, h1, h2, h3⟩)
  obtain ⟨vout, hw, hw1, hw2, hw3⟩ := enumMap_ok (fun o n => TxOutput.to_json H L o flags coin (some n)) readOutput
    (fun (y : OutputJson) k _ => (y.nOutput = if FlagSet flags 1 then some k else none) ∧ (y.script.type.isSome = true ↔ FlagSet flags 4))
    tx.outputs 0 (fun o ho k => by
      obtain ⟨j, h1, h2, h3, _, h5⟩ := (output_json H L o flags coin hc (some k)).2 (fun h => hn ⟨h.1, o, ho, h.2⟩)
      exact ⟨j, h1, h2, h3, h5⟩)
  have hb : tx.to_bytes = .ok (txBytes tx) := (tx_to_bytes_iff tx _).2 ⟨hr, rfl⟩
  obtain ⟨sz, hsz⟩ := size_ok tx hr
  obtain ⟨d, P, hd, hP, _⟩ := description_says tx.locktime hr.2.2.2.2.2
  have hs2 : HashSized tx → sz = (txBytes tx).length := fun hh => by
    obtain ⟨b, h1, h2⟩ := C45_size tx hr hh
    rw [hb] at h1
    rw [hsz] at h2
    rw [Except.ok.inj h2, ← Except.ok.inj h1]
  have f2 : hasFlag flags JSONFlags.SIZE = true ↔ _ := hasFlag_iff flags 2
  have f3 : hasFlag flags JSONFlags.LOCKTIME_MEANING = true ↔ _ := hasFlag_iff flags 3
  have hsize : whenFlag flags JSONFlags.SIZE tx.size = .ok (if FlagSet flags 2 then some sz else none) := by
    unfold whenFlag
    by_cases h : FlagSet flags 2
    · rw [if_pos h, if_pos (f2.2 h), hsz]; rfl
    · rw [if_neg h, if_neg (fun a => h (f2.1 a))]; rfl
  have hmean : whenFlag flags JSONFlags.LOCKTIME_MEANING (locktime_description tx.locktime) =
      .ok (if FlagSet flags 3 then some d else none) := by
    unfold whenFlag
    by_cases h : FlagSet flags 3
    · rw [if_pos h, if_pos (f3.2 h), hd]; rfl
    · rw [if_neg h, if_neg (fun a => h (f3.1 a))]; rfl
  refine ⟨_, by
    unfold Tx.to_json
    rw [hv, ok_bind', hw, ok_bind', Tx.hex_hash, Tx.hash, hb, ok_bind', pure_ok', ok_bind', pure_ok', ok_bind',
      hsize, ok_bind', hmean, ok_bind', pure_ok'], ?_⟩
  constructor
  · simp [readTx, hv1, hw1]
  · rfl
  · rfl
  · rfl
  · intro k x hx
    have hk : k < tx.inputs.length := by rw [← hv2]; exact (List.getElem?_eq_some_iff.1 hx).1
    have := (hv3 k _ x (List.getElem?_eq_getElem hk) hx).1
    rwa [Nat.zero_add] at this
  · intro k x i hx hi
    exact (hv3 k _ x hi hx).2
  · intro k x hx
    have hk : k < tx.outputs.length := by rw [← hw2]; exact (List.getElem?_eq_some_iff.1 hx).1
    have := (hw3 k _ x (List.getElem?_eq_getElem hk) hx).1
    rwa [Nat.zero_add] at this
  · intro x hx
    obtain ⟨k, hk⟩ := List.mem_iff_getElem?.1 hx
    have hl : k < tx.outputs.length := by rw [← hw2]; exact (List.getElem?_eq_some_iff.1 hk).1
    exact (hw3 k _ x (List.getElem?_eq_getElem hl) hk).2
  · intro hh
    rw [← hs2 hh]
  · rw [hd]; rfl
  · intro h
    exact ⟨d, P, if_pos h, hP⟩

/-- **C90**.  A transaction is a coinbase one if its first input is; there is no answer without inputs.  The JSON shows
the first input as such exactly then. -/
theorem C90_coinbase (H : Hashes) (L : Secp) (decode : Bytes → Str) (tx : Tx) (flags : Nat) (coin : Coin)
    (hc : coin ∈ all_coins) :
    (tx.inputs = [] → tx.is_coinbase = .error .indexError) ∧
    ∀ i rest, tx.inputs = i :: rest →
      tx.is_coinbase = .ok (decide (i.prev_idx = 2 ^ 32 - 1 ∧ i.prev_hash = zeros 32)) ∧
      ∀ j, tx.to_json H L decode flags coin = .ok j →
        (tx.is_coinbase = .ok true ↔ ∃ h t s n, j.vin.head? = some (.coinbase h t s n)) := by
  refine ⟨fun h => by rw [Tx.is_coinbase, h], fun i rest h => ?_⟩
  have e : tx.is_coinbase = .ok (decide (i.prev_idx = 2 ^ 32 - 1 ∧ i.prev_hash = zeros 32)) := by
    have : i.is_coinbase = decide (i.prev_idx = 2 ^ 32 - 1 ∧ i.prev_hash = zeros 32) := by
      rw [← Bool.coe_iff_coe, is_coinbase_iff, decide_eq_true_iff]
    rw [Tx.is_coinbase, h, ← this]
  refine ⟨e, fun j hj => ?_⟩
  obtain ⟨f1, f2⟩ := C90_failures H L decode tx flags coin hc
  have hs : ¬ (FlagSet flags 4 ∧ ∃ o ∈ tx.outputs, PaysToScriptHash L coin o) := by
    intro hs; rw [f1 hs] at hj; cases hj
  have hr : InRangeTx tx := by
    by_contra hr; rw [f2 hs hr] at hj; cases hj
  obtain ⟨j', h1, h2⟩ := C90_content H L decode tx flags coin hc hs hr
  rw [hj] at h1
  obtain rfl := Except.ok.inj h1
  have hread := h2.read
  rw [e, Except.ok.injEq, decide_eq_true_iff]
  cases hv : j.vin with
  | nil =>
    rw [readTx, hv] at hread
    simp only [List.mapM_nil, Option.pure_def, Option.bind_eq_bind, Option.bind_some, Option.bind_eq_some_iff,
      Option.some.injEq] at hread
    obtain ⟨_, -, htx⟩ := hread
    rw [← htx] at h
    cases h
  | cons x xs =>
    rw [← h2.coinbase 0 x i (by rw [hv]; rfl) (by rw [h]; rfl)]
    simp

/-- **C90**.  The total of the outputs is the sum of the values that the JSON shows. -/
theorem C90_total (H : Hashes) (L : Secp) (decode : Bytes → Str) (tx : Tx) (flags : Nat) (coin : Coin)
    (hc : coin ∈ all_coins) (j : TxJson) (hj : tx.to_json H L decode flags coin = .ok j) :
    tx.total_output_value = (j.vout.map (·.value)).sum := by
  obtain ⟨f1, f2⟩ := C90_failures H L decode tx flags coin hc
  have hs : ¬ (FlagSet flags 4 ∧ ∃ o ∈ tx.outputs, PaysToScriptHash L coin o) := by
    intro hs; rw [f1 hs] at hj; cases hj
  have hr : InRangeTx tx := by
    by_contra hr; rw [f2 hs hr] at hj; cases hj
  obtain ⟨j', h1, h2⟩ := C90_content H L decode tx flags coin hc hs hr
  rw [hj] at h1
  obtain rfl := Except.ok.inj h1
  have hread := h2.read
  simp only [readTx, Option.bind_eq_bind, Option.bind_eq_some_iff] at hread
  obtain ⟨ins, -, outs, ho, htx⟩ := hread
  have : tx.outputs = outs := by rw [← Option.some.inj htx]
  rw [Tx.total_output_value, this]
  congr 1
  clear h2 hj htx this
  generalize j.vout = vs at ho
  induction vs generalizing outs with
  | nil => simp at ho; subst ho; rfl
  | cons v vs ih =>
    simp only [List.mapM_cons, Option.bind_eq_bind, Option.bind_eq_some_iff, Option.pure_def, Option.some.injEq] at ho
    obtain ⟨o, h1, os, h2, rfl⟩ := ho
    rw [List.map_cons, List.map_cons, ih os h2]
    congr 1
    simp only [readOutput, Option.bind_eq_bind, Option.bind_eq_some_iff, Option.pure_def, Option.some.injEq] at h1
    obtain ⟨_, _, rfl⟩ := h1
    rfl

/-- **C90**.  The JSON determines the transaction, whatever the flags and coins. -/
theorem C90_lossless (H : Hashes) (L : Secp) (decode : Bytes → Str) (tx tx' : Tx) (flags flags' : Nat)
    (coin coin' : Coin) (hc : coin ∈ all_coins) (hc' : coin' ∈ all_coins) (j : TxJson)
    (h : tx.to_json H L decode flags coin = .ok j) (h' : tx'.to_json H L decode flags' coin' = .ok j) : tx = tx' := by
  have key : ∀ (tx : Tx) flags coin, coin ∈ all_coins → tx.to_json H L decode flags coin = .ok j → readTx j = some tx := by
    intro tx flags coin hc h
    obtain ⟨f1, f2⟩ := C90_failures H L decode tx flags coin hc
    by_cases hs : FlagSet flags 4 ∧ ∃ o ∈ tx.outputs, PaysToScriptHash L coin o
    · rw [f1 hs] at h; cases h
    · by_cases hr : InRangeTx tx
      · obtain ⟨j', h1, h2⟩ := C90_content H L decode tx flags coin hc hs hr
        rw [h] at h1
        rw [Except.ok.inj h1]
        exact h2.read
      · rw [f2 hs hr] at h; cases h
  have e1 := key tx flags coin hc h
  rw [key tx' flags' coin' hc' h'] at e1
  exact (Option.some.inj e1).symm

/-- **C90** (byte order).  The hash by which an input names the transaction it spends is not written as
that transaction's own JSON writes it: the two are the reverse of each other, and the same only for
a hash that reads the same backwards. -/
theorem C90_byte_order (H : Hashes) (L : Secp) (decode : Bytes → Str) (spent : Tx) (i : TxInput) (flags : Nat)
    (coin : Coin) (j : TxJson) (n : Option Nat) (hj : spent.to_json H L decode flags coin = .ok j)
    (hi : spent.hash H = .ok i.prev_hash) (hz : i.prev_idx ≠ 2 ^ 32 - 1) :
    ∃ script, i.to_json H L decode flags n = .ok (.spend (hex i.prev_hash) i.prev_idx script i.sequence
        (if FlagSet flags 0 then n else none)) ∧
      j.hash = hex i.prev_hash.reverse ∧ (j.hash = hex i.prev_hash ↔ i.prev_hash.reverse = i.prev_hash) := by
  have hnc : ¬ i.is_coinbase = true := fun h => hz ((is_coinbase_iff i).1 h).1
  have hf : (if hasFlag flags JSONFlags.ENUMERATE_INPUTS = true then n else none) = if FlagSet flags 0 then n else none := by
    have : hasFlag flags JSONFlags.ENUMERATE_INPUTS = true ↔ _ := hasFlag_iff flags 0
    by_cases h : FlagSet flags 0
    · rw [if_pos h, if_pos (this.2 h)]
    · rw [if_neg h, if_neg (fun a => h (this.1 a))]
  have hh : j.hash = hex i.prev_hash.reverse := by
    unfold Tx.to_json at hj
    simp only [bind_eq_ok, pure_ok', Except.ok.injEq] at hj
    obtain ⟨_, _, _, _, h, hh, _, _, _, _, rfl⟩ := hj
    simp only [Tx.hex_hash, hi, ok_bind', pure_ok', Except.ok.injEq] at hh
    rw [← hh]; rfl
  refine ⟨{ asm := Script.to_asm L i.script_sig true, hex := hex i.script_sig }, ?_, hh, ?_⟩
  · unfold TxInput.to_json
    rw [if_neg hnc, script_sig_json, ok_bind', pure_ok', hf]
  · rw [hh]
    constructor
    · intro h
      have := congrArg unhex h
      rw [unhex_hex, unhex_hex] at this
      exact Option.some.inj this
    · intro h; rw [h]

/-- The JSON of a transaction with everything but classification. -/
example : ∃ j, exampleTx.to_json toyHashes toySecp (fun _ => []) 15 Bitcoin = .ok j ∧ readTx j = some exampleTx ∧
    j.size = some 62 ∧ j.locktimeMeaning = some "valid in blocks with height greater than 400,000".toList := by
  obtain ⟨j, h1, h2⟩ := C90_content toyHashes toySecp (fun _ => []) exampleTx 15 Bitcoin (by simp [all_coins])
    (fun h => absurd h.1 (by decide)) exampleTx_ok.1
  refine ⟨j, h1, h2.read, ?_, ?_⟩
  · rw [h2.size exampleTx_ok.2.1]; decide +kernel
  · rw [h2.meaning]; decide +kernel

/-- Paying to any script hash is enough for the JSON with classification to fail. -/
example (h : Bytes) (hl : h.length = 20) (coin : Coin) (hc : coin ∈ all_coins) : ∃ s, (Address.P2SH h coin).to_script_bytes = .ok s ∧
    ({ exampleTx with outputs := [⟨1, s⟩] } : Tx).to_json toyHashes toySecp (fun _ => []) 16 coin =
      .error .attributeError := by
  obtain ⟨s, o', h1, h2, _, h4⟩ := C42_roundtrip toySecp (.address (.P2SH h coin)) hl coin
  rw [h4 _ rfl rfl] at h2
  refine ⟨s, h1, (C90_failures _ _ _ _ 16 coin hc).1 ⟨by decide, ⟨1, s⟩, by simp, h, ?_⟩⟩
  rcases (C42_classify toySecp s coin _).mp h2 with h | ⟨h, _⟩
  · exact h
  · cases h

end Bitcoinx
