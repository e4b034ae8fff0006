import Verif.Model.Base64
import Verif.Spec.Base64
import Verif.Lemmas.Cashaddr
import Verif.Lemmas.CashDecode
import Verif.Lemmas.Script

/-! # Digits of base64 -/

namespace Bitcoinx

open Spec

theorem b64char_eq : ∀ d < 64, b64char d = char64 d := by decide +kernel

theorem b64char_mem : ∀ d < 64, b64char d ∈ BASE64 := by decide +kernel

theorem idxOf_b64char : ∀ d < 64, BASE64.idxOf (b64char d) = d := by decide +kernel

theorem b64char_idxOf : ∀ c ∈ BASE64, BASE64.idxOf c < 64 ∧ b64char (BASE64.idxOf c) = c := by
  decide +kernel

theorem base64_ascii : ∀ c ∈ BASE64, c.toNat < 128 := by decide +kernel

theorem pad_not_mem : '=' ∉ BASE64 := by decide +kernel

/-- The number of padding characters needed. -/
theorem digits_k {digits data : Bytes} {k slack : Nat} (h : IsDigits64 digits data k slack) :
    k = (4 - digits.length % 4) % 4 ∧ digits.length % 4 ≠ 1 := by
  obtain ⟨_, h2, _, h4, _⟩ := h
  omega

theorem radix_cons (k : Nat) (b : UInt8) (bs : Bytes) :
    radix k (b :: bs) = b.toNat * (2 ^ k) ^ bs.length + radix k bs := rfl

/-- What the decoder makes of digits. -/
theorem a2bDigits_spec (digits : Bytes) (h : ∀ d ∈ digits, d.toNat < 64) (h1 : digits.length % 4 ≠ 1) :
    ∃ k slack, IsDigits64 digits (a2bDigits digits) k slack := by
  induction digits using a2bDigits.induct with
  | case1 a b c d rest ih =>
    obtain ⟨k, slack, g1, g2, g3, g4, g5⟩ := ih (fun x hx => h x (by simp [hx]))
      (by simp only [List.length_cons] at h1; omega)
    refine ⟨k, slack, h, g2, g3, ?_, ?_⟩
    · simp only [a2bDigits, List.length_cons]; omega
    · have ha := h a (by simp)
      have hb := h b (by simp)
      have hc := h c (by simp)
      have hd := h d (by simp)
      simp only [a2bDigits, radix_cons, List.length_cons]
      rw [toNat_ofNat' (by omega), toNat_ofNat' (by omega), toNat_ofNat' (by omega), g5]
      have e6 : (2 ^ 6) ^ rest.length = (2 ^ 8) ^ (a2bDigits rest).length * 4 ^ k := by
        rw [← pow_mul, ← pow_mul, show (4 : Nat) = 2 ^ 2 from rfl, ← pow_mul, ← pow_add, g4]
      have key : a.toNat * 64 ^ 3 + b.toNat * 64 ^ 2 + c.toNat * 64 + d.toNat =
          (a.toNat * 4 + b.toNat / 16) * 256 ^ 2 + (b.toNat % 16 * 16 + c.toNat / 4) * 256 +
            (c.toNat % 4 * 64 + d.toNat) := by omega
      have el : ∀ A B C D R : Nat, A * (2 ^ 6) ^ (rest.length + 1 + 1 + 1) + (B * (2 ^ 6) ^ (rest.length + 1 + 1) +
          (C * (2 ^ 6) ^ (rest.length + 1) + (D * (2 ^ 6) ^ rest.length + R))) =
          (A * 64 ^ 3 + B * 64 ^ 2 + C * 64 + D) * (2 ^ 6) ^ rest.length + R := by
        intros; ring
      rw [el, key, e6]
      ring
  | case2 a b c =>
    have ha := h a (by simp)
    have hb := h b (by simp)
    have hc := h c (by simp)
    refine ⟨1, c.toNat % 4, h, by omega, by omega, by simp [a2bDigits], ?_⟩
    simp only [a2bDigits, radix, List.length_cons, List.length_nil]
    rw [toNat_ofNat' (by omega), toNat_ofNat' (by omega)]
    omega
  | case3 a b =>
    have ha := h a (by simp)
    have hb := h b (by simp)
    refine ⟨2, b.toNat % 16, h, by omega, by omega, by simp [a2bDigits], ?_⟩
    simp only [a2bDigits, radix, List.length_cons, List.length_nil]
    rw [toNat_ofNat' (by omega)]
    omega
  | case4 l hl1 hl2 hl3 =>
    match l with
    | [] => exact ⟨0, 0, by simp [a2bDigits, IsDigits64, radix]⟩
    | [a] => simp at h1
    | [a, b] => exact absurd rfl (hl3 a b)
    | [a, b, c] => exact absurd rfl (hl2 a b c)
    | a :: b :: c :: d :: rest => exact absurd rfl (hl1 a b c d rest)

/-- What the encoder writes. -/
theorem b64encode_spec (data : Bytes) :
    ∃ digits k, IsDigits64 digits data k 0 ∧ b64encode data = text64 digits k := by
  have hc : ∀ n < 64, b64char n = char64 (UInt8.ofNat n).toNat := by
    intro n hn
    rw [b64char_eq n hn, toNat_ofNat' (by omega)]
  induction data using b64encode.induct with
  | case1 a b c rest ih =>
    obtain ⟨digits, k, ⟨g1, g2, g3, g4, g5⟩, g6⟩ := ih
    have ha := a.toNat_lt
    have hb := b.toNat_lt
    have hcc := c.toNat_lt
    refine ⟨UInt8.ofNat (a.toNat / 4) :: UInt8.ofNat (a.toNat % 4 * 16 + b.toNat / 16) ::
      UInt8.ofNat (b.toNat % 16 * 4 + c.toNat / 64) :: UInt8.ofNat (c.toNat % 64) :: digits, k,
      ⟨?_, g2, g3, ?_, ?_⟩, ?_⟩
    · intro d hd
      simp only [List.mem_cons] at hd
      rcases hd with rfl | rfl | rfl | rfl | hd
      · rw [toNat_ofNat' (by omega)]; omega
      · rw [toNat_ofNat' (by omega)]; omega
      · rw [toNat_ofNat' (by omega)]; omega
      · rw [toNat_ofNat' (by omega)]; omega
      · exact g1 d hd
    · simp only [List.length_cons]; omega
    · simp only [radix_cons, List.length_cons]
      rw [toNat_ofNat' (by omega), toNat_ofNat' (by omega), toNat_ofNat' (by omega),
        toNat_ofNat' (by omega), g5]
      have e6 : (2 ^ 6) ^ digits.length = (2 ^ 8) ^ rest.length * 4 ^ k := by
        rw [← pow_mul, ← pow_mul, show (4 : Nat) = 2 ^ 2 from rfl, ← pow_mul, ← pow_add, g4]
      have key : a.toNat / 4 * 64 ^ 3 + (a.toNat % 4 * 16 + b.toNat / 16) * 64 ^ 2 +
          (b.toNat % 16 * 4 + c.toNat / 64) * 64 + c.toNat % 64 =
          a.toNat * 256 ^ 2 + b.toNat * 256 + c.toNat := by omega
      have el : ∀ A B C D R : Nat, A * (2 ^ 6) ^ (digits.length + 1 + 1 + 1) +
          (B * (2 ^ 6) ^ (digits.length + 1 + 1) +
          (C * (2 ^ 6) ^ (digits.length + 1) + (D * (2 ^ 6) ^ digits.length + R))) =
          (A * 64 ^ 3 + B * 64 ^ 2 + C * 64 + D) * (2 ^ 6) ^ digits.length + R := by
        intros; ring
      rw [el, key, e6]
      ring
    · rw [b64encode, g6, hc _ (by omega), hc _ (by omega), hc _ (by omega), hc _ (by omega)]
      rfl
  | case2 a b =>
    have ha := a.toNat_lt
    have hb := b.toNat_lt
    refine ⟨[UInt8.ofNat (a.toNat / 4), UInt8.ofNat (a.toNat % 4 * 16 + b.toNat / 16),
      UInt8.ofNat (b.toNat % 16 * 4)], 1, ⟨?_, by omega, by omega, by simp, ?_⟩, ?_⟩
    · intro d hd
      simp only [List.mem_cons, List.not_mem_nil, or_false] at hd
      rcases hd with rfl | rfl | rfl <;> rw [toNat_ofNat' (by omega)] <;> omega
    · simp only [radix, List.length_cons, List.length_nil]
      rw [toNat_ofNat' (by omega), toNat_ofNat' (by omega), toNat_ofNat' (by omega)]
      omega
    · rw [b64encode, hc _ (by omega), hc _ (by omega), hc _ (by omega)]
      rfl
  | case3 a =>
    have ha := a.toNat_lt
    refine ⟨[UInt8.ofNat (a.toNat / 4), UInt8.ofNat (a.toNat % 4 * 16)], 2,
      ⟨?_, by omega, by omega, by simp, ?_⟩, ?_⟩
    · intro d hd
      simp only [List.mem_cons, List.not_mem_nil, or_false] at hd
      rcases hd with rfl | rfl <;> rw [toNat_ofNat' (by omega)] <;> omega
    · simp only [radix, List.length_cons, List.length_nil]
      rw [toNat_ofNat' (by omega), toNat_ofNat' (by omega)]
      omega
    · rw [b64encode, hc _ (by omega), hc _ (by omega)]
      rfl
  | case4 => exact ⟨[], 0, by simp [IsDigits64, radix], rfl⟩

/-- The digits determine the bytes. -/
theorem digits_data {digits data data' : Bytes} {k k' slack slack' : Nat}
    (h : IsDigits64 digits data k slack) (h' : IsDigits64 digits data' k' slack') :
    data = data' ∧ k = k' ∧ slack = slack' := by
  have hk : k = k' := (digits_k h).1.trans (digits_k h').1.symm
  subst hk
  obtain ⟨_, _, h3, h4, h5⟩ := h
  obtain ⟨_, _, h3', h4', h5'⟩ := h'
  have e : radix 8 data * 4 ^ k + slack = radix 8 data' * 4 ^ k + slack' := h5.symm.trans h5'
  have hp : 0 < 4 ^ k := by positivity
  have e1 : radix 8 data = radix 8 data' := by
    have d1 : (radix 8 data * 4 ^ k + slack) / 4 ^ k = radix 8 data := by
      rw [mul_comm, Nat.mul_add_div hp, Nat.div_eq_of_lt h3, add_zero]
    have d2 : (radix 8 data' * 4 ^ k + slack') / 4 ^ k = radix 8 data' := by
      rw [mul_comm, Nat.mul_add_div hp, Nat.div_eq_of_lt h3', add_zero]
    rw [← d1, ← d2, e]
  refine ⟨radix_inj 8 _ _ (fun x _ => x.toNat_lt) (fun x _ => x.toNat_lt) (by omega) e1, rfl, ?_⟩
  rw [e1] at e
  omega

/-- The bytes and the slack determine the digits. -/
theorem data_digits {digits digits' data : Bytes} {k k' slack : Nat}
    (h : IsDigits64 digits data k slack) (h' : IsDigits64 digits' data k' slack) :
    digits = digits' ∧ k = k' := by
  obtain ⟨h1, h2, h3, h4, h5⟩ := h
  obtain ⟨h1', h2', h3', h4', h5'⟩ := h'
  have hl : digits.length = digits'.length := by omega
  have hk : k = k' := by omega
  subst hk
  exact ⟨radix_inj 6 _ _ h1 h1' hl (h5.trans h5'.symm), rfl⟩

theorem char64_mem {d : UInt8} (h : d.toNat < 64) :
    char64 d.toNat ∈ BASE64 ∧ UInt8.ofNat (BASE64.idxOf (char64 d.toNat)) = d := by
  rw [← b64char_eq _ h]
  refine ⟨b64char_mem _ h, ?_⟩
  rw [idxOf_b64char _ h]
  exact UInt8.toNat_inj.mp (toNat_ofNat' (by omega))

theorem text64_ascii {digits : Bytes} (h : ∀ d ∈ digits, d.toNat < 64) (pads : Nat) :
    ∀ c ∈ text64 digits pads, c.toNat < 128 := by
  intro c hc
  rcases List.mem_append.mp hc with hc | hc
  · obtain ⟨d, hd, rfl⟩ := List.mem_map.mp hc
    exact base64_ascii _ (char64_mem (h d hd)).1
  · rw [(List.mem_replicate.mp hc).2]; decide

theorem text64_split {digits : Bytes} (h : ∀ d ∈ digits, d.toNat < 64) (pads : Nat) :
    (text64 digits pads).takeWhile (fun c => decide (c ∈ BASE64)) = digits.map (fun d => char64 d.toNat) ∧
    (text64 digits pads).dropWhile (fun c => decide (c ∈ BASE64)) = List.replicate pads '=' := by
  have h1 : ∀ c ∈ digits.map (fun d => char64 d.toNat), decide (c ∈ BASE64) = true := by
    intro c hc
    obtain ⟨d, hd, rfl⟩ := List.mem_map.mp hc
    exact decide_eq_true (char64_mem (h d hd)).1
  have h2 : (List.replicate pads '=').takeWhile (fun c => decide (c ∈ BASE64)) = [] ∧
      (List.replicate pads '=').dropWhile (fun c => decide (c ∈ BASE64)) = List.replicate pads '=' := by
    cases pads with
    | zero => exact ⟨rfl, rfl⟩
    | succ n =>
      rw [List.replicate_succ, List.takeWhile_cons, List.dropWhile_cons, decide_eq_false pad_not_mem]
      exact ⟨rfl, rfl⟩
  rw [text64, List.takeWhile_append_of_pos h1, List.dropWhile_append_of_pos h1, h2.1, h2.2, List.append_nil]
  exact ⟨rfl, rfl⟩

/-- The decoder on digits and padding. -/
theorem b64decode_text64 (P : PyBase64) {digits : Bytes} (h : ∀ d ∈ digits, d.toNat < 64) (pads : Nat) :
    b64decode P (text64 digits pads) =
      if digits.length % 4 = 1 then .error .binasciiError
      else if pads < (4 - digits.length % 4) % 4 then .error .binasciiError
      else if (4 - digits.length % 4) % 4 < pads ∧
        ¬ P.excess digits.length (pads - (4 - digits.length % 4) % 4) then .error .binasciiError
      else .ok (a2bDigits digits) := by
  have h0 : ¬ (text64 digits pads).any (fun c => decide (128 ≤ c.toNat)) = true := by
    rw [List.any_eq_true]
    rintro ⟨c, hc, hd⟩
    have := text64_ascii h pads c hc
    have := of_decide_eq_true hd
    omega
  have hp : ¬ ¬ (List.replicate pads '=').all (fun c => decide (c = '=')) = true := by
    rw [not_not, List.all_eq_true]
    intro c hc
    exact decide_eq_true (List.mem_replicate.mp hc).2
  have hm : (digits.map (fun d => char64 d.toNat)).map (fun c => UInt8.ofNat (BASE64.idxOf c)) = digits := by
    rw [List.map_map]
    conv_rhs => rw [← List.map_id digits]
    exact List.map_congr_left (fun d hd => (char64_mem (h d hd)).2)
  unfold b64decode
  rw [if_neg h0]
  dsimp only
  rw [(text64_split h pads).1, (text64_split h pads).2, if_neg hp, hm, List.length_map,
    List.length_replicate]

/-- Every text which is ASCII and not refused outright is made of digits and padding. -/
theorem text64_of {text : Str} (h : (text.dropWhile (fun c => decide (c ∈ BASE64))).all (fun c => decide (c = '='))) :
    ∃ digits pads, (∀ d ∈ digits, UInt8.toNat d < 64) ∧ text = text64 digits pads := by
  refine ⟨(text.takeWhile (fun c => decide (c ∈ BASE64))).map (fun c => UInt8.ofNat (BASE64.idxOf c)),
    (text.dropWhile (fun c => decide (c ∈ BASE64))).length, ?_, ?_⟩
  · intro d hd
    obtain ⟨c, hc, rfl⟩ := List.mem_map.mp hd
    have := (b64char_idxOf c (of_decide_eq_true (List.all_eq_true.mp List.all_takeWhile c hc))).1
    rw [toNat_ofNat' (by omega)]
    exact this
  · rw [text64]
    conv_lhs => rw [← List.takeWhile_append_dropWhile (p := fun c => decide (c ∈ BASE64)) (l := text)]
    congr 1
    · rw [List.map_map]
      conv_lhs => rw [← List.map_id (text.takeWhile _)]
      refine List.map_congr_left (fun c hc => ?_)
      obtain ⟨g1, g2⟩ := b64char_idxOf c (of_decide_eq_true (List.all_eq_true.mp List.all_takeWhile c hc))
      show c = char64 (UInt8.ofNat (BASE64.idxOf c)).toNat
      rw [toNat_ofNat' (by omega), ← b64char_eq _ g1, g2]
    · refine List.eq_replicate_of_mem (fun c hc => ?_)
      exact of_decide_eq_true (List.all_eq_true.mp h c hc)

end Bitcoinx
