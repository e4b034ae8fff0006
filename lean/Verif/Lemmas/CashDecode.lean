import Verif.Lemmas.Cashaddr

/-! # What the two halves of `cashaddr.decode` accept -/

namespace Bitcoinx

open Spec cashaddr

/-! ## Characters -/

theorem charset_idx : ∀ d < 32, cashAlphabet.getD d '?' ∈ CHARSET ∧
    CHARSET.idxOf (cashAlphabet.getD d '?') = d := by decide

theorem charset_char : ∀ c ∈ CHARSET, CHARSET.idxOf c < 32 ∧
    cashAlphabet.getD (CHARSET.idxOf c) '?' = c := by decide

theorem charsetFind_map (syms : Bytes) (h : ∀ d ∈ syms, d.toNat < 32) :
    charsetFind (syms.map cashChar) = .ok syms := by
  induction syms with
  | nil => rfl
  | cons d syms ih =>
    obtain ⟨h1, h2⟩ := charset_idx d.toNat (h d (by simp))
    have h3 : cashChar d ∈ CHARSET := h1
    have h4 : UInt8.ofNat (CHARSET.idxOf (cashChar d)) = d := by
      unfold cashChar
      rw [h2]
      exact UInt8.ofNat_toNat
    simp only [List.map_cons, charsetFind, h3, if_true, h4, ih (fun x hx => h x (by simp [hx])),
      ok_bind', pure_ok']

theorem charsetFind_ok {s : Str} {d : Bytes} (h : charsetFind s = .ok d) :
    s = d.map cashChar ∧ ∀ x ∈ d, x.toNat < 32 := by
  induction s generalizing d with
  | nil => cases h; simp
  | cons c s ih =>
    by_cases hc : c ∈ CHARSET
    · simp only [charsetFind, hc, if_true] at h
      obtain ⟨r, hr, h⟩ := bind_eq_ok.mp h
      cases h
      obtain ⟨h1, h2⟩ := charset_char c hc
      obtain ⟨g1, g2⟩ := ih hr
      have e : (UInt8.ofNat (CHARSET.idxOf c)).toNat = CHARSET.idxOf c := by
        rw [UInt8.toNat_ofNat']; omega
      refine ⟨?_, ?_⟩
      · rw [List.map_cons, ← g1]
        unfold cashChar
        rw [e, h2]
      · intro x hx
        rcases List.mem_cons.mp hx with rfl | hx
        · omega
        · exact g2 x hx
    · simp [charsetFind, hc] at h

theorem charsetFind_error {s : Str} {e : Err} (h : charsetFind s = .error e) : e = .valueError := by
  induction s with
  | nil => cases h
  | cons c s ih =>
    by_cases hc : c ∈ CHARSET
    · simp only [charsetFind, hc, if_true] at h
      rcases bind_eq_error.mp h with h | ⟨r, _, h⟩
      · exact ih h
      · cases h
    · simp only [charsetFind, hc, if_false] at h
      cases h; rfl

theorem cashChar_inj {d e : UInt8} (hd : d.toNat < 32) (he : e.toNat < 32)
    (h : cashChar d = cashChar e) : d = e := by
  have h1 := (charset_idx d.toNat hd).2
  have h2 := (charset_idx e.toNat he).2
  unfold cashChar at h
  rw [h] at h1
  exact UInt8.toNat_inj.mp (h1.symm.trans h2)

theorem map_cashChar_inj (a b : Bytes) (ha : ∀ d ∈ a, d.toNat < 32) (hb : ∀ d ∈ b, d.toNat < 32)
    (h : a.map cashChar = b.map cashChar) : a = b := by
  have h1 := charsetFind_map a ha
  rw [h, charsetFind_map b hb] at h1
  exact (Except.ok.inj h1).symm

theorem splitColon_append (pre rest : Str) (h : ':' ∉ pre) :
    splitColon (pre ++ ':' :: rest) = some (pre, rest) := by
  induction pre with
  | nil => simp [splitColon]
  | cons c pre ih =>
    simp only [List.mem_cons, not_or] at h
    simp [splitColon, Ne.symm h.1, ih h.2]

theorem splitColon_some {s p r : Str} (h : splitColon s = some (p, r)) :
    s = p ++ ':' :: r ∧ ':' ∉ p := by
  induction s generalizing p r with
  | nil => cases h
  | cons c s ih =>
    by_cases hc : c = ':'
    · simp only [splitColon, hc, if_true] at h
      cases h
      simp [hc]
    · simp only [splitColon, hc, if_false] at h
      obtain ⟨⟨p', r'⟩, h1, h2⟩ := Option.map_eq_some_iff.mp h
      cases h2
      obtain ⟨g1, g2⟩ := ih h1
      simp [g1, g2, Ne.symm hc]

/-! ## The two stages of `decode` -/

/-- The second half of `decode`. -/
def decodeTail (payload : Bytes) : Res (Nat × Bytes) :=
  let extrabits := payload.length * 5 % 8
  if extrabits ≥ 5 then .error .valueError
  else match payload.getLast? with
    | none => .error .indexError
    | some last =>
      if last.toNat &&& ((1 <<< extrabits) - 1) ≠ 0 then .error .valueError
      else match convertbits payload 5 8 false with
        | [] => .error .indexError
        | version :: addr_hash =>
          let size := (version.toNat &&& 0x03) * 4 + 20
          let size := if version.toNat &&& 0x04 ≠ 0 then size <<< 1 else size
          if size ≠ addr_hash.length then .error .valueError
          else
            let kind := version.toNat >>> 3
            if kind ≠ SCRIPT_TYPE ∧ kind ≠ PUBKEY_TYPE then .error .valueError
            else return (kind, addr_hash)

theorem decode_eq (C : PyCase) (address : Str) : decode C address =
    (do let (pre, payload) ← decode_payload C address
        let (kind, hash) ← decodeTail payload
        return (pre, kind, hash)) := by
  unfold decode decodeTail
  cases decode_payload C address with
  | error e => rfl
  | ok x =>
    obtain ⟨pre, payload⟩ := x
    simp only [ok_bind']
    split_ifs
    · rfl
    · cases payload.getLast? with
      | none => rfl
      | some last =>
        dsimp only
        split_ifs
        · rfl
        · cases convertbits payload 5 8 false with
          | nil => rfl
          | cons v hash =>
            dsimp only
            split_ifs <;> rfl

theorem size_code : ∀ v : UInt8,
    (if v.toNat &&& 0x04 ≠ 0 then ((v.toNat &&& 0x03) * 4 + 20) <<< 1 else (v.toNat &&& 0x03) * 4 + 20)
      = cashSizes.getD (v.toNat % 8) 0 := by
  have h : ∀ n < 256, (if n &&& 0x04 ≠ 0 then ((n &&& 0x03) * 4 + 20) <<< 1 else (n &&& 0x03) * 4 + 20)
      = cashSizes.getD (n % 8) 0 := by decide +kernel
  exact fun v => h v.toNat v.toNat_lt

theorem cashSizes_get (code n : Nat) : cashSizes[code]? = some n ↔ code < 8 ∧ cashSizes.getD code 0 = n := by
  have hl : cashSizes.length = 8 := rfl
  constructor
  · intro h
    have := (List.getElem?_eq_some_iff.mp h).1
    exact ⟨by omega, by rw [List.getD_eq_getElem?_getD, h]; rfl⟩
  · rintro ⟨h1, h2⟩
    have h3 : code < cashSizes.length := by omega
    rw [List.getElem?_eq_getElem h3]
    rw [List.getD_eq_getElem?_getD, List.getElem?_eq_getElem h3] at h2
    exact congrArg some h2

/-- The second half of `decode` accepts exactly the payloads of the format. -/
theorem decodeTail_iff (p : Bytes) (hp : ∀ d ∈ p, d.toNat < 32) (kind : Nat) (hash : Bytes) :
    decodeTail p = .ok (kind, hash) ↔ IsCashPayload kind hash p ∧ kind ≤ 1 := by
  obtain ⟨b, r, hb, hr, hlen, hlt, hrad⟩ := convertbits_nopad 5 8 (by omega) (by omega) p hp
  have hex : p.length * 5 % 8 = b := by omega
  unfold decodeTail
  rw [hex]
  generalize convertbits p 5 8 false = out at hlen hlt hrad
  rcases List.eq_nil_or_concat p with rfl | ⟨q, last, rfl⟩
  · have : b = 0 := by simp at hex; omega
    subst this
    constructor
    · intro h; simp at h
    · rintro ⟨⟨code, pad, h1, h2, h3, h4, h5⟩, _⟩
      simp at h4
      omega
  · rw [List.concat_eq_append] at *
    have hlast : last.toNat < 32 := hp last (by simp)
    have hmask : last.toNat &&& ((1 <<< b) - 1) = last.toNat % 2 ^ b := by
      rw [Nat.one_shiftLeft, Nat.and_two_pow_sub_one_eq_mod]
    by_cases hb5 : b ≥ 5
    · simp only [hb5, if_true]
      constructor
      · intro h; cases h
      · rintro ⟨⟨code, pad, h1, h2, h3, h4, h5⟩, _⟩
        have hpad : (q ++ [last]).length * 5 % 8 = pad := by omega
        omega
    · simp only [hb5, if_false, List.getLast?_append, List.getLast?_singleton, Option.some_or, hmask]
      have hrl : r = last.toNat % 2 ^ b := by
        have e := congrArg (· % 2 ^ b) hrad
        have e5 : (2 : Nat) ^ 5 = 2 ^ b * 2 ^ (5 - b) := by rw [← pow_add]; congr 1; omega
        rw [radix_snoc, e5, ← Nat.mul_assoc, Nat.mul_comm (_ * _) (2 ^ (5 - b)), ← Nat.mul_assoc,
          Nat.mul_add_mod_self_right, Nat.mul_add_mod_self_right, Nat.mod_eq_of_lt hr] at e
        exact e
      rw [← hrl]
      constructor
      · intro h
        by_cases hr0 : r = 0
        · simp only [hr0, ne_eq, not_true_eq_false, if_false] at h
          cases out with
          | nil => cases h
          | cons v hs =>
            dsimp only at h
            rw [size_code v] at h
            by_cases hsz : cashSizes.getD (v.toNat % 8) 0 = hs.length
            · simp only [hsz, ne_eq, not_true_eq_false, if_false] at h
              split_ifs at h with hk
              cases h
              have hk' : v.toNat >>> 3 = v.toNat / 8 := Nat.shiftRight_eq_div_pow _ 3
              refine ⟨⟨v.toNat % 8, b, (cashSizes_get _ _).mpr ⟨by omega, hsz⟩, by omega, hp, ?_, ?_⟩, ?_⟩
              · rw [List.length_cons] at hlen; omega
              · rw [← hrad, hr0, hk', radix]
                have : 8 * (v.toNat / 8) + v.toNat % 8 = v.toNat := by omega
                rw [this]
                rfl
              · simp only [SCRIPT_TYPE, PUBKEY_TYPE] at hk
                omega
            · simp only [hsz, ne_eq, not_false_eq_true, if_true] at h
              cases h
        · simp only [hr0, ne_eq, not_false_eq_true, if_true] at h
          cases h
      · rintro ⟨⟨code, pad, h1, h2, h3, h4, h5⟩, hk⟩
        obtain ⟨h6, h7⟩ := (cashSizes_get _ _).mp h1
        have hbp : b = pad := by omega
        subst hbp
        have hol : out.length = 1 + hash.length := by omega
        rw [h5] at hrad
        have hr0 : r = 0 := by
          have e := congrArg (· % 2 ^ b) hrad
          rw [Nat.mul_add_mod_self_right, Nat.mod_eq_of_lt hr, Nat.mul_mod_left] at e
          exact e
        rw [hr0, Nat.add_zero] at hrad
        have hrad' := Nat.eq_of_mul_eq_mul_right (show 0 < 2 ^ b by positivity) hrad
        have hv : (UInt8.ofNat (8 * kind + code)).toNat = 8 * kind + code := by
          rw [UInt8.toNat_ofNat']; omega
        have hout : out = UInt8.ofNat (8 * kind + code) :: hash := by
          refine radix_inj 8 _ _ hlt (fun x _ => x.toNat_lt) (by simp only [hol, List.length_cons]; omega) ?_
          rw [hrad', radix, hv]
        rw [hout]
        simp only [hr0, ne_eq, not_true_eq_false, if_false]
        rw [size_code, hv]
        have e1 : (8 * kind + code) % 8 = code := by omega
        have e2 : (8 * kind + code) >>> 3 = kind := by
          rw [Nat.shiftRight_eq_div_pow]; omega
        simp only [e1, h7, e2, not_true_eq_false, if_false, SCRIPT_TYPE, PUBKEY_TYPE]
        have c : ¬ (¬ kind = 1 ∧ ¬ kind = 0) := by omega
        simp only [c, if_false, pure_ok']

theorem decodeTail_error (p : Bytes) (hp : ∀ d ∈ p, d.toNat < 32) (e : Err)
    (h : decodeTail p = .error e) : e = .valueError ∨ (e = .indexError ∧ p = []) := by
  obtain ⟨b, r, hb, hr, hlen, hlt, hrad⟩ := convertbits_nopad 5 8 (by omega) (by omega) p hp
  unfold decodeTail at h
  dsimp only at h
  split_ifs at h with h5
  · cases h; exact .inl rfl
  · cases hl : p.getLast? with
    | none =>
      rw [hl] at h
      cases h
      exact .inr ⟨rfl, by simpa using hl⟩
    | some last =>
      rw [hl] at h
      dsimp only at h
      split_ifs at h
      · cases h; exact .inl rfl
      · cases hc : convertbits p 5 8 false with
        | nil =>
          exfalso
          rw [hc] at hlen
          simp only [List.length_nil] at hlen
          have : p ≠ [] := by rintro rfl; simp at hl
          have : 0 < p.length := List.length_pos_iff.mpr this
          omega
        | cons v hs =>
          rw [hc] at h
          dsimp only at h
          split_ifs at h <;> cases h <;> exact .inl rfl

/-- What the first half of `decode` accepts. -/
theorem decode_payload_iff (C : PyCase) (addr pre : Str) (data : Bytes) :
    decode_payload C addr = .ok (pre, data) ↔
      (C.lower addr = addr ∨ C.upper addr = addr) ∧
      ∃ p0, C.lower addr = cashText p0 (data ++ create_checksum p0 data) ∧
        p0 ≠ [] ∧ ':' ∉ p0 ∧ (∀ c ∈ p0, 33 ≤ c.toNat ∧ c.toNat ≤ 126) ∧
        data.length ≤ 116 ∧ (∀ d ∈ data, d.toNat < 32) ∧
        pre = if C.lower addr ≠ addr then C.upper p0 else p0 := by
  constructor
  · intro h
    unfold decode_payload at h
    dsimp only at h
    by_cases hmix : C.lower addr ≠ addr ∧ C.upper addr ≠ addr
    · rw [if_pos hmix] at h; cases h
    rw [if_neg hmix] at h
    have hmix' : C.lower addr = addr ∨ C.upper addr = addr := by
      by_contra hh
      rw [not_or] at hh
      exact hmix hh
    refine ⟨hmix', ?_⟩
    cases hs : splitColon (C.lower addr) with
    | none => rw [hs] at h; cases h
    | some x =>
      obtain ⟨p0, pay⟩ := x
      rw [hs] at h
      obtain ⟨e1, hcol⟩ := splitColon_some hs
      dsimp only at h
      by_cases hne : p0 = []
      · rw [if_pos hne] at h; cases h
      rw [if_neg hne] at h
      by_cases hpr : p0.all (fun x => decide (33 ≤ x.toNat) && decide (x.toNat ≤ 126)) = true
      swap
      · rw [if_pos hpr] at h; cases h
      rw [if_neg (not_not.mpr hpr)] at h
      by_cases hlen : 8 ≤ pay.length ∧ pay.length ≤ 124
      swap
      · rw [if_pos hlen] at h; cases h
      rw [if_neg (not_not.mpr hlen)] at h
      obtain ⟨d, hd, h⟩ := bind_eq_ok.mp h
      obtain ⟨g1, g2⟩ := charsetFind_ok hd
      by_cases hpoly : polymod (prefix_expand p0 ++ d) = 0
      swap
      · rw [if_pos hpoly] at h; cases h
      rw [if_neg (not_not.mpr hpoly)] at h
      obtain ⟨rfl, rfl⟩ := Prod.mk.inj (Except.ok.inj h)
      have hdl : d.length = pay.length := by rw [g1, List.length_map]
      have hsplit : d = dropEnd d 8 ++ d.drop (d.length - 8) := by
        rw [dropEnd, List.take_append_drop]
      have hpoly' : polymod (prefix_expand p0 ++ (dropEnd d 8 ++ d.drop (d.length - 8))) = 0 := by
        rw [← hsplit]; exact hpoly
      have hchk := (polymod_zero_iff p0 (dropEnd d 8) (d.drop (d.length - 8))
        (by rw [List.length_drop]; omega)
        (fun x hx => g2 x (List.mem_of_mem_drop hx))).mp hpoly'
      refine ⟨p0, ?_, hne, hcol, ?_, ?_, ?_, rfl⟩
      · rw [← hchk, ← hsplit, cashText, ← g1, e1]
      · intro c hc
        simp only [List.all_eq_true, Bool.and_eq_true, decide_eq_true_eq] at hpr
        exact hpr c hc
      · rw [dropEnd, List.length_take]; omega
      · intro x hx
        exact g2 x (List.mem_of_mem_take hx)
  · rintro ⟨hmix, p0, e1, hne, hcol, hpr, hlen, hlt, hpre⟩
    have hmix' : ¬ (C.lower addr ≠ addr ∧ C.upper addr ≠ addr) := by
      rintro ⟨h1, h2⟩
      rcases hmix with h | h
      · exact h1 h
      · exact h2 h
    have hall : ∀ d ∈ data ++ create_checksum p0 data, d.toNat < 32 := by
      intro d hd
      rcases List.mem_append.mp hd with h | h
      · exact hlt d h
      · exact create_checksum_lt p0 data d h
    have hpr' : p0.all (fun x => decide (33 ≤ x.toNat) && decide (x.toNat ≤ 126)) = true := by
      simp only [List.all_eq_true, Bool.and_eq_true, decide_eq_true_eq]
      exact hpr
    have hl : (List.map cashChar (data ++ create_checksum p0 data)).length = data.length + 8 := by
      simp [create_checksum_length]
    have hpoly := (polymod_zero_iff p0 data _ (create_checksum_length p0 data)
      (create_checksum_lt p0 data)).mpr rfl
    have hdrop : dropEnd (data ++ create_checksum p0 data) 8 = data := by
      rw [dropEnd, List.length_append, create_checksum_length, Nat.add_sub_cancel,
        List.take_left' rfl]
    unfold decode_payload
    simp only [hmix', if_false]
    have hsc : splitColon (C.lower addr) =
        some (p0, (data ++ create_checksum p0 data).map cashChar) := by
      rw [e1]; exact splitColon_append _ _ hcol
    rw [hsc]
    have hc1 : ¬ ¬ (8 ≤ (List.map cashChar (data ++ create_checksum p0 data)).length ∧
        (List.map cashChar (data ++ create_checksum p0 data)).length ≤ 124) := by
      rw [hl]; omega
    simp only [hne, if_false, hpr', hc1, charsetFind_map _ hall, ok_bind', hpoly, hdrop]
    simp only [not_true_eq_false, ne_eq, if_false, pure_ok']
    rw [hpre]

theorem decode_payload_error (C : PyCase) (addr : Str) (e : Err)
    (h : decode_payload C addr = .error e) : e = .valueError := by
  unfold decode_payload at h
  dsimp only at h
  by_cases hmix : C.lower addr ≠ addr ∧ C.upper addr ≠ addr
  · rw [if_pos hmix] at h; cases h; rfl
  rw [if_neg hmix] at h
  cases hs : splitColon (C.lower addr) with
  | none => rw [hs] at h; cases h; rfl
  | some x =>
    rw [hs] at h
    dsimp only at h
    by_cases hne : x.1 = []
    · rw [if_pos hne] at h; cases h; rfl
    rw [if_neg hne] at h
    by_cases hpr : x.1.all (fun x => decide (33 ≤ x.toNat) && decide (x.toNat ≤ 126)) = true
    swap
    · rw [if_pos hpr] at h; cases h; rfl
    rw [if_neg (not_not.mpr hpr)] at h
    by_cases hlen : 8 ≤ x.2.length ∧ x.2.length ≤ 124
    swap
    · rw [if_pos hlen] at h; cases h; rfl
    rw [if_neg (not_not.mpr hlen)] at h
    rcases bind_eq_error.mp h with h | ⟨d, _, h⟩
    · exact charsetFind_error h
    · by_cases hpoly : polymod (prefix_expand x.1 ++ d) = 0
      · rw [if_neg (not_not.mpr hpoly)] at h; cases h
      · rw [if_pos hpoly] at h; cases h; rfl

end Bitcoinx
