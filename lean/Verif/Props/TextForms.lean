import Verif.Props.Address
import Verif.Props.Bip32Path

/-! # C88: texts of keys and addresses are recognized by their length and first characters -/

namespace Bitcoinx
open Spec

/-- The text has `n` characters and starts with one of `ps`. -/
def Spec.Form (ps : List String) (n : Nat) (t : Str) : Prop :=
  t.length = n ∧ ∃ p ∈ ps, p.toList <+: t

def b58text (n : Nat) : Str := ((Nat.digits 58 n).map b58ch).reverse

/-- The text of a number starts with the text of its high part. -/
theorem b58text_high (P m N : Nat) (hP : 0 < P) (h1 : P * 58 ^ m ≤ N) (h2 : N < (P + 1) * 58 ^ m) :
    ∃ rest, b58text N = b58text P ++ rest ∧ rest.length = m := by
  obtain ⟨r, rfl⟩ := Nat.exists_eq_add_of_le h1
  have hr : r < 58 ^ m := by rw [Nat.add_mul, one_mul] at h2; omega
  have hlen : (Nat.digits 58 r).length ≤ m := (Nat.digits_length_le_iff (by norm_num : 1 < 58) r).2 hr
  have := Nat.digits_append_zeroes_append_digits (b := 58) (k := m - (Nat.digits 58 r).length) (m := P) (n := r)
    (by norm_num) hP
  rw [Nat.add_sub_cancel' hlen] at this
  refine ⟨((Nat.digits 58 r ++ List.replicate (m - (Nat.digits 58 r).length) 0).map b58ch).reverse, ?_, ?_⟩
  · rw [b58text, b58text, show P * 58 ^ m + r = r + 58 ^ m * P by ring, ← this, List.map_append, List.reverse_append]
  · simp; omega

theorem check_form (H : Hashes) (v : UInt8) (vs body : Bytes) (hv : v ≠ 0) (P1 P2 m : Nat) (hP : 0 < P1)
    (h1 : P1 * 58 ^ m ≤ beValue (v :: vs) * 256 ^ (body.length + 4))
    (h2 : (beValue (v :: vs) + 1) * 256 ^ (body.length + 4) ≤ (P2 + 1) * 58 ^ m) :
    ∃ P rest, P1 ≤ P ∧ P ≤ P2 ∧ base58_encode_check H (v :: vs ++ body) = b58text P ++ rest ∧ rest.length = m := by
  rw [base58_encode_check, base58_encode_eq]
  set c := (H.double_sha256 (v :: vs ++ body)).take 4 with hc
  have hcl : (body ++ c).length = body.length + 4 := by
    rw [List.length_append, hc, List.length_take, double_sha256_length]; rfl
  have hlead : leading 0 (v :: vs ++ body ++ c) = 0 := by
    rw [leading_zero_iff]; simp [hv]
  rw [hlead, List.append_assoc, beValue_append, hcl]
  have hlt := beValue_lt (body ++ c)
  rw [hcl] at hlt
  set N := beValue (v :: vs) * 256 ^ (body.length + 4) + beValue (body ++ c) with hN
  have hpos : 0 < 58 ^ m := by positivity
  have hN2 : N < (P2 + 1) * 58 ^ m := by rw [Nat.add_mul, one_mul] at h2; omega
  obtain ⟨rest, e1, e2⟩ := b58text_high (N / 58 ^ m) m N
    (Nat.div_pos (by have := Nat.mul_le_mul_right (58 ^ m) hP; omega) hpos) (Nat.div_mul_le_self _ _)
    (by rw [← Nat.div_lt_iff_lt_mul hpos]; omega)
  refine ⟨N / 58 ^ m, rest, ?_, ?_, ?_, e2⟩
  · rw [Nat.le_div_iff_mul_le hpos]; omega
  · have := (Nat.div_lt_iff_lt_mul hpos).2 hN2; omega
  · simpa [b58text] using e1

theorem form_one (H : Hashes) (v : UInt8) (vs body : Bytes) (hv : v ≠ 0) (p : String) (P m n k : Nat) (hP : 0 < P)
    (hk : body.length + 4 = k)
    (h1 : P * 58 ^ m ≤ beValue (v :: vs) * 256 ^ k) (h2 : (beValue (v :: vs) + 1) * 256 ^ k ≤ (P + 1) * 58 ^ m)
    (hp : b58text P = p.toList) (hn : p.toList.length + m = n) :
    Form [p] n (base58_encode_check H (v :: vs ++ body)) := by
  subst hk
  obtain ⟨P', rest, h3, h4, h5, h6⟩ := check_form H v vs body hv P P m hP h1 h2
  have : P' = P := by omega
  subst this
  rw [h5, hp]
  exact ⟨by rw [List.length_append, h6, hn], p, by simp, rest, rfl⟩

theorem form_two (H : Hashes) (v : UInt8) (vs body : Bytes) (hv : v ≠ 0) (p q : String) (P m n k : Nat) (hP : 0 < P)
    (hk : body.length + 4 = k)
    (h1 : P * 58 ^ m ≤ beValue (v :: vs) * 256 ^ k) (h2 : (beValue (v :: vs) + 1) * 256 ^ k ≤ (P + 2) * 58 ^ m)
    (hp : b58text P = p.toList) (hq : b58text (P + 1) = q.toList)
    (hn : p.toList.length + m = n) (hn' : q.toList.length + m = n) :
    Form [p, q] n (base58_encode_check H (v :: vs ++ body)) := by
  subst hk
  obtain ⟨P', rest, h3, h4, h5, h6⟩ := check_form H v vs body hv P (P + 1) m hP h1 h2
  have : P' = P ∨ P' = P + 1 := by omega
  rcases this with rfl | rfl
  · rw [h5, hp]
    exact ⟨by rw [List.length_append, h6, hn], p, by simp, rest, rfl⟩
  · rw [h5, hq]
    exact ⟨by rw [List.length_append, h6, hn'], q, by simp, rest, rfl⟩

theorem digits_pos (n : Nat) (h : 0 < n) : b58text n = b58text (n / 58) ++ [b58ch (n % 58)] := by
  rw [b58text, Nat.digits_def' (by norm_num) h, List.map_cons, List.reverse_cons]; rfl

theorem b58text_one (n : Nat) (h : 0 < n) (h2 : n < 58) : b58text n = [b58ch n] := by
  rw [digits_pos n h, Nat.div_eq_of_lt h2, Nat.mod_eq_of_lt h2]; rfl

theorem b58text_four (n : Nat) (h : 58 ^ 3 ≤ n) (h2 : n < 58 ^ 4) :
    b58text n = [b58ch (n / 58 / 58 / 58), b58ch (n / 58 / 58 % 58), b58ch (n / 58 % 58), b58ch (n % 58)] := by
  norm_num at h h2
  rw [digits_pos n (by omega), digits_pos (n / 58) (by omega), digits_pos (n / 58 / 58) (by omega),
    b58text_one _ (by omega) (by omega)]
  rfl

theorem version_bytes : ∀ coin ∈ all_coins,
    (coin = Bitcoin ∧ coin.P2PKH_verbyte = 0 ∧ coin.P2SH_verbyte = 5 ∧ coin.WIF_byte = 0x80 ∧
      coin.xpub_verbytes = [0x04, 0x88, 0xb2, 0x1e] ∧ coin.xprv_verbytes = [0x04, 0x88, 0xad, 0xe4]) ∨
    (coin ≠ Bitcoin ∧ coin.P2PKH_verbyte = 0x6f ∧ coin.P2SH_verbyte = 0xc4 ∧ coin.WIF_byte = 0xef ∧
      coin.xpub_verbytes = [0x04, 0x35, 0x87, 0xcf] ∧ coin.xprv_verbytes = [0x04, 0x35, 0x83, 0x94]) := by
  decide +kernel

theorem pow_bound (z : Nat) : z < 25 → 256 ^ (24 - z) ≤ 58 ^ (33 - z) := by
  intro h
  interval_cases z <;> norm_num

/-- The texts of the addresses of the main network: those of keys start with 1 and have 25 to 34
characters, those of scripts start with 3 and have 34. -/
theorem C88_mainnet_address (H : Hashes) (h : Bytes) (hl : h.length = 20) :
    (∃ t, (Address.P2PKH h Bitcoin).to_string H = .ok t ∧ t.head? = some '1' ∧ 25 ≤ t.length ∧ t.length ≤ 34) ∧
    (∃ t, (Address.P2SH h Bitcoin).to_string H = .ok t ∧ Form ["3"] 34 t) := by
  rcases version_bytes Bitcoin (by simp [all_coins]) with ⟨_, v1, v2, _⟩ | ⟨hc, _⟩
  swap
  · exact absurd rfl hc
  constructor
  · refine ⟨_, address_string_eq H _, ?_⟩
    simp only [verbyte, Address.hash160, v1, base58_encode_check]
    generalize hc : (H.double_sha256 (0 :: h)).take 4 = c
    have hcl : c.length = 4 := by rw [← hc, List.length_take, double_sha256_length]; rfl
    have hb : (h ++ c).length = 24 := by rw [List.length_append, hl, hcl]
    rw [base58_encode_eq, List.cons_append]
    generalize hbb : h ++ c = b at hb
    have e1 : leading 0 ((0 : UInt8) :: b) = leading 0 b + 1 := by simp [leading]
    have e2 : beValue ((0 : UInt8) :: b) = beValue b := by simp [beValue]
    rw [e1, e2]
    have hle := leading_le (0 : UInt8) b
    have hlt := beValue_leading b
    rw [hb] at hle hlt
    obtain ⟨b', hb1, hb2⟩ := eq_leading_append (0 : UInt8) b
    have hbl : b'.length = 24 - leading 0 b := by
      have := congrArg List.length hb1
      rw [List.length_append, List.length_replicate, hb] at this; omega
    have hval : beValue b = beValue b' := by
      conv_lhs => rw [hb1]
      exact beValue_zeros_append _ _
    refine ⟨by simp [List.replicate_succ], ?_, ?_⟩
    · simp only [List.length_append, List.length_replicate, List.length_reverse, List.length_map]
      by_contra hcon
      have h1 := (Nat.digits_length_le_iff (by norm_num : 1 < 58) (k := 23 - leading 0 b) (beValue b)).1 (by omega)
      cases hb' : b' with
      | nil => rw [hb'] at hbl; simp at hbl; omega
      | cons x xs =>
        rw [hb', leading_zero_iff] at hb2
        simp only [List.head?_cons, ne_eq, Option.some.injEq] at hb2
        have hx : 0 < x.toNat := by
          rcases Nat.eq_zero_or_pos x.toNat with h0 | h0
          · exact absurd (UInt8.toNat_inj.1 (by simpa using h0)) hb2
          · exact h0
        rw [hb'] at hbl hval
        rw [hval, beValue] at h1
        have hxl : xs.length = 23 - leading 0 b := by simp at hbl; omega
        rw [hxl] at h1
        have h3 : 58 ^ (23 - leading 0 b) ≤ 256 ^ (23 - leading 0 b) := Nat.pow_le_pow_left (by norm_num) _
        have h4 := Nat.mul_le_mul_right (256 ^ (23 - leading 0 b)) hx
        omega
    · simp only [List.length_append, List.length_replicate, List.length_reverse, List.length_map]
      have h1 := pow_bound (leading 0 b) (by omega)
      have h2 := (Nat.digits_length_le_iff (by norm_num : 1 < 58) (k := 33 - leading 0 b) (beValue b)).2
        (lt_of_lt_of_le hlt h1)
      omega
  · refine ⟨_, address_string_eq H _, ?_⟩
    simp only [verbyte, Address.hash160, v2]
    exact form_one H 5 [] h (by decide) "3" 2 33 34 24 (by norm_num) (by omega) (by decide +kernel)
      (by decide +kernel) (by rw [b58text_one _ (by norm_num) (by norm_num)]; decide +kernel) rfl

/-- The texts of the addresses of the test networks: those of keys start with m or n and have 34
characters, those of scripts start with 2 and have 35. -/
theorem C88_testnet_address (H : Hashes) (coin : Coin) (hc : coin ∈ all_coins) (hne : coin ≠ Bitcoin) (h : Bytes)
    (hl : h.length = 20) :
    (∃ t, (Address.P2PKH h coin).to_string H = .ok t ∧ Form ["m", "n"] 34 t) ∧
    (∃ t, (Address.P2SH h coin).to_string H = .ok t ∧ Form ["2"] 35 t) := by
  rcases version_bytes coin hc with ⟨hc, _⟩ | ⟨_, v1, v2, _⟩
  · exact absurd hc hne
  constructor
  · refine ⟨_, address_string_eq H _, ?_⟩
    simp only [verbyte, Address.hash160, v1]
    exact form_two H 0x6f [] h (by decide) "m" "n" 44 33 34 24 (by norm_num) (by omega) (by decide +kernel)
      (by decide +kernel) (by rw [b58text_one _ (by norm_num) (by norm_num)]; decide +kernel)
      (by rw [b58text_one _ (by norm_num) (by norm_num)]; decide +kernel) rfl rfl
  · refine ⟨_, address_string_eq H _, ?_⟩
    simp only [verbyte, Address.hash160, v2]
    exact form_one H 0xc4 [] h (by decide) "2" 1 34 35 24 (by norm_num) (by omega) (by decide +kernel)
      (by decide +kernel) (by rw [b58text_one _ (by norm_num) (by norm_num)]; decide +kernel) rfl

/-- The text of a private key for a coin. -/
structure Spec.WifForm (coin : Coin) (compressed : Bool) (t : Str) : Prop where
  main : coin = Bitcoin → if compressed then Form ["K", "L"] 52 t else Form ["5"] 51 t
  test : coin ≠ Bitcoin → if compressed then Form ["c"] 52 t else Form ["9"] 51 t

/-- The texts of private keys start with K, L or 5 on the main network and with c or 9 on the others,
and have 52 characters if the public key is to be compressed, else 51. -/
theorem C88_WIF (H : Hashes) (k : PrivateKey) (h : PrivValid k) (c : Option Bool) (coin : Option Coin)
    (hcoin : coin.getD k.coin ∈ all_coins) :
    ∃ t, k.to_WIF H c coin = .ok t ∧ WifForm (coin.getD k.coin) (c.getD k.compressed) t := by
  refine ⟨_, to_WIF_eq H k c coin, ?_⟩
  generalize coin.getD k.coin = cn at *
  generalize c.getD k.compressed = cc
  have hs := h.1
  have hver := version_bytes cn hcoin
  have hv : (cn = Bitcoin ∧ cn.WIF_byte = 0x80) ∨ (cn ≠ Bitcoin ∧ cn.WIF_byte = 0xef) :=
    hver.imp (fun a => ⟨a.1, a.2.2.2.1⟩) (fun a => ⟨a.1, a.2.2.2.1⟩)
  clear hver hcoin
  refine ⟨fun h0 => ?_, fun h0 => ?_⟩
  · have v : cn.WIF_byte = 0x80 := hv.elim (fun a => a.2) (fun a => absurd h0 a.1)
    clear hv h0
    rw [v, ← List.singleton_append]
    cases cc
    · exact form_one H 0x80 [] _ (by decide) "5" 4 50 51 36 (by norm_num) (by simp [hs]) (by decide +kernel)
        (by decide +kernel) (by rw [b58text_one _ (by norm_num) (by norm_num)]; decide +kernel) rfl
    · exact form_two H 0x80 [] _ (by decide) "K" "L" 18 51 52 37 (by norm_num) (by simp [hs]) (by decide +kernel)
        (by decide +kernel) (by rw [b58text_one _ (by norm_num) (by norm_num)]; decide +kernel)
        (by rw [b58text_one _ (by norm_num) (by norm_num)]; decide +kernel) rfl rfl
  · have v : cn.WIF_byte = 0xef := hv.elim (fun a => absurd a.1 h0) (fun a => a.2)
    clear hv h0
    rw [v, ← List.singleton_append]
    cases cc
    · exact form_one H 0xef [] _ (by decide) "9" 8 50 51 36 (by norm_num) (by simp [hs]) (by decide +kernel)
        (by decide +kernel) (by rw [b58text_one _ (by norm_num) (by norm_num)]; decide +kernel) rfl
    · exact form_one H 0xef [] _ (by decide) "c" 35 51 52 37 (by norm_num) (by simp [hs]) (by decide +kernel)
        (by decide +kernel) (by rw [b58text_one _ (by norm_num) (by norm_num)]; decide +kernel) rfl

/-- Conversely every text `from_WIF` accepts looks like that. -/
theorem C88_WIF_accepted (H : Hashes) (t : Str) (k : PrivateKey) (h : PrivateKey.from_WIF H t = .ok k) :
    WifForm k.coin k.compressed t := by
  have h1 := (C57_accepts H t).1 k h
  obtain ⟨t', e, hf⟩ := C88_WIF H k h1.1 none none h1.2.1
  rw [h1.2.2] at e
  rw [Except.ok.inj e]
  exact hf

theorem ekey_form (H : Hashes) (v : UInt8) (vs : Bytes) (hv : v ≠ 0) (hvl : vs.length = 3) (p : String) (P : Nat)
    (h3 : 58 ^ 3 ≤ P) (h4 : P < 58 ^ 4)
    (h1 : P * 58 ^ 107 ≤ beValue (v :: vs) * 256 ^ 78) (h2 : (beValue (v :: vs) + 1) * 256 ^ 78 ≤ (P + 1) * 58 ^ 107)
    (hp : [b58ch (P / 58 / 58 / 58), b58ch (P / 58 / 58 % 58), b58ch (P / 58 % 58), b58ch (P % 58)] = p.toList)
    (depth : UInt8) (fp n cc key : Bytes) (hf : fp.length = 4)
    (hn : n.length = 4) (hc : cc.length = 32) (hk : key.length = 33) :
    Form [p] 111 (base58_encode_check H (ekeyBytes (v :: vs) depth fp n cc key)) := by
  have e : ekeyBytes (v :: vs) depth fp n cc key = v :: vs ++ (depth :: (fp ++ (n ++ (cc ++ key)))) := by
    simp [ekeyBytes]
  rw [e]
  exact form_one H v vs _ hv p P 107 111 78 (by norm_num at h3; omega) (by simp [hf, hn, hc, hk]) h1 h2
    (by rw [b58text_four P h3 h4, hp]) (by rw [← hp]; rfl)

/-- The texts of extended keys have 111 characters and start with xprv or xpub on the main network,
with tprv or tpub on the others. -/
theorem C88_extended (H : Hashes) (L : Secp) :
    (∀ k : BIP32PrivateKey, XprvValid k → k.derivation.depth ≤ 255 → k.key.coin ∈ all_coins →
      ∃ t, k.to_extended_key_string H = .ok t ∧ Form [if k.key.coin = Bitcoin then "xprv" else "tprv"] 111 t) ∧
    (∀ k : BIP32PublicKey L, XpubValid k → k.derivation.depth ≤ 255 → k.key.coin ∈ all_coins →
      ∃ t, k.to_extended_key_string H = .ok t ∧ Form [if k.key.coin = Bitcoin then "xpub" else "tpub"] 111 t) := by
  constructor
  · intro k h hd hc
    have he := BIP32PrivateKey.extended_key_eq k h
    rw [if_pos hd] at he
    refine ⟨_, by rw [BIP32PrivateKey.to_extended_key_string, he]; rfl, ?_⟩
    rcases version_bytes _ hc with ⟨h0, _, _, _, _, v⟩ | ⟨h0, _, _, _, _, v⟩
    · rw [if_pos h0, v]
      exact ekey_form H _ _ (by decide) rfl "xprv" 10892163 (by norm_num) (by norm_num) (by decide +kernel)
        (by decide +kernel) (by decide +kernel) _ _ _ _ _ h.2.2.2.1 (beBytes_length _ _) h.2.2.1 (by simp [h.1.1])
    · rw [if_neg h0, v]
      exact ekey_form H _ _ (by decide) rfl "tprv" 10111715 (by norm_num) (by norm_num) (by decide +kernel)
        (by decide +kernel) (by decide +kernel) _ _ _ _ _ h.2.2.2.1 (beBytes_length _ _) h.2.2.1 (by simp [h.1.1])
  · intro k h hd hc
    have he := BIP32PublicKey.extended_key_eq k h
    rw [if_pos hd] at he
    refine ⟨_, by rw [BIP32PublicKey.to_extended_key_string, he]; rfl, ?_⟩
    rcases version_bytes _ hc with ⟨h0, _, _, _, v, _⟩ | ⟨h0, _, _, _, v, _⟩
    · rw [if_pos h0, v]
      exact ekey_form H _ _ (by decide) rfl "xpub" 10892318 (by norm_num) (by norm_num) (by decide +kernel)
        (by decide +kernel) (by decide +kernel) _ _ _ _ _ h.2.2.2.1 (beBytes_length _ _) h.2.2.1
        (L.serialize_length _ _)
    · rw [if_neg h0, v]
      exact ekey_form H _ _ (by decide) rfl "tpub" 10111870 (by norm_num) (by norm_num) (by decide +kernel)
        (by decide +kernel) (by decide +kernel) _ _ _ _ _ h.2.2.2.1 (beBytes_length _ _) h.2.2.1
        (L.serialize_length _ _)

/-- Conversely a text is read as a private key only if it starts with xprv or tprv, as a public key
only if it starts with xpub or tpub. -/
theorem C88_extended_accepted (H : Hashes) (L : Secp) (t : Str) :
    (∀ k, bip32_key_from_string H L t = .ok (.priv k) →
      Form [if k.key.coin = Bitcoin then "xprv" else "tprv"] 111 t) ∧
    (∀ k, bip32_key_from_string H L t = .ok (.pub k) →
      Form [if k.key.coin = Bitcoin then "xpub" else "tpub"] 111 t) := by
  constructor
  · intro k h
    obtain ⟨⟨h1, h2, h3⟩, h4⟩ := (C65_accepts H L t).1 _ h
    obtain ⟨t', e, hf⟩ := (C88_extended H L).1 k h1 h2 h3
    rw [keyText] at h4
    rw [h4] at e; cases e
    exact hf
  · intro k h
    obtain ⟨⟨h1, h2, h3⟩, h4⟩ := (C65_accepts H L t).1 _ h
    obtain ⟨t', e, hf⟩ := (C88_extended H L).2 k h1 h2 h3
    rw [keyText] at h4
    rw [h4] at e; cases e
    exact hf

example : ∃ t, (Address.P2PKH (List.replicate 20 7) Bitcoin).to_string toyHashes = .ok t ∧ t.head? = some '1' :=
  let ⟨t, h1, h2, _⟩ := (C88_mainnet_address toyHashes (List.replicate 20 7) rfl).1
  ⟨t, h1, h2⟩

example : ∃ k : PrivateKey, ∃ t, k.to_WIF toyHashes none none = .ok t ∧
    WifForm (Option.getD none k.coin) (Option.getD none k.compressed) t :=
  ⟨_, C88_WIF toyHashes { secret := zeros 31 ++ [1], compressed := true, coin := BitcoinTestnet }
    (by unfold PrivValid; decide +kernel) none none (by simp [all_coins])⟩

example : ∃ t, xprv3.to_extended_key_string toyHashes = .ok t ∧
    Form [if xprv3.key.coin = Bitcoin then "xprv" else "tprv"] 111 t :=
  (C88_extended toyHashes toySecp).1 xprv3 xprv3_valid (by decide) (by decide +kernel)

end Bitcoinx
