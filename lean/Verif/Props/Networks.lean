import Verif.Props.TextForms

/-! # C107: texts of addresses belong to one network -/

namespace Bitcoinx
open Spec

/-- The prefix of the cash addresses of a network. -/
def Spec.networkPrefix (main : Bool) : Str := if main then "bitcoincash".toList else "bchtest".toList

/-- The same address for another coin. -/
def Spec.addressWithCoin (coin : Coin) : Address → Address
  | .P2PKH h _ => .P2PKH h coin
  | .P2SH h _ => .P2SH h coin

theorem cash_prefixes : ∀ coin ∈ all_coins, coin.cashaddr_prefix = networkPrefix (decide (coin = Bitcoin)) := by
  decide +kernel

/-- C81: the prefixes are those of the standard: with them, without them, and in either case, cash addresses are read. -/
theorem C81_prefixes (C : PyCase) (H : Hashes) (coin : Coin) (hc : coin ∈ all_coins) (kind : Nat)
    (hash : Bytes) (hl : hash.length = 20) (part : Str)
    (h : IsCashAddress (networkPrefix (decide (coin = Bitcoin))) kind hash
      (networkPrefix (decide (coin = Bitcoin)) ++ ':' :: part)) :
    ∀ t ∈ [networkPrefix (decide (coin = Bitcoin)) ++ ':' :: part, part,
        (networkPrefix (decide (coin = Bitcoin)) ++ ':' :: part).map Char.toUpper, part.map Char.toUpper],
      Address.from_string C H t coin = .ok (mkAddress kind hash coin) := by
  rw [← cash_prefixes coin hc] at *
  exact C81_cashaddr C H coin hc kind hash hl part h

theorem prefix_lower : ∀ coin ∈ all_coins, coin.cashaddr_prefix.map Char.toLower = coin.cashaddr_prefix ∧
    (coin.cashaddr_prefix.map Char.toUpper).map Char.toLower = coin.cashaddr_prefix := by decide +kernel

/-- What follows the prefix of a text read as a cash address. -/
theorem cash_rest (C : PyCase) (coin : Coin) (hc : coin ∈ all_coins) (text full : Str) (ha : ∀ c ∈ text, c.toNat < 128)
    (hf : full = text ∨ full = coin.cashaddr_prefix ++ ':' :: text ∨ full = coin.cashaddr_prefix.map Char.toUpper ++ ':' :: text)
    {kind : Nat} {hash : Bytes} (h : IsCashAddress coin.cashaddr_prefix kind hash (C.lower full)) :
    ∃ payload, (∀ d ∈ payload, d.toNat < 32) ∧
      (text.map Char.toLower = cashText coin.cashaddr_prefix (payload ++ cashaddr.create_checksum coin.cashaddr_prefix payload) ∨
       text.map Char.toLower = (payload ++ cashaddr.create_checksum coin.cashaddr_prefix payload).map cashChar) := by
  obtain ⟨⟨hne, hp⟩, hlet, _, _⟩ := coin_prefixes coin hc
  have hasc : ∀ c ∈ coin.cashaddr_prefix, c.toNat < 128 := fun c h => by have := hp c h; omega
  obtain ⟨low1, low2⟩ := prefix_lower coin hc
  obtain ⟨_, _, payload, h1, h2⟩ := (isCashAddress_iff _ _ _ _).mp h
  refine ⟨payload, ?_, ?_⟩
  · obtain ⟨_, _, _, _, h, _⟩ := h1; exact h
  · have hcol : ':'.toNat < 128 := by decide
    have hcl : ':'.toLower = ':' := by decide
    rcases hf with rfl | rfl | rfl
    · rw [C.lower_ascii _ ha] at h2; exact .inl h2
    · rw [C.lower_ascii, List.map_append, List.map_cons, low1, hcl, cashText] at h2
      · exact .inr (List.cons.inj (List.append_cancel_left h2)).2
      · intro c hm
        rcases List.mem_append.1 hm with h | h
        · exact hasc c h
        · rcases List.mem_cons.1 h with rfl | h
          · exact hcol
          · exact ha c h
    · rw [C.lower_ascii, List.map_append, List.map_cons, low2, hcl, cashText] at h2
      · exact .inr (List.cons.inj (List.append_cancel_left h2)).2
      · intro c hm
        rcases List.mem_append.1 hm with h | h
        · obtain ⟨d, hd, rfl⟩ := List.mem_map.1 h
          exact upper_ascii d (hasc d hd)
        · rcases List.mem_cons.1 h with rfl | h
          · exact hcol
          · exact ha c h

theorem networks_run : cashaddr.run 1 (cashaddr.prefix_expand "bitcoincash".toList) ≠
    cashaddr.run 1 (cashaddr.prefix_expand "bchtest".toList) := by decide +kernel

theorem checksum_prefix (p q : Str) (payload : Bytes)
    (h : cashaddr.create_checksum p payload = cashaddr.create_checksum q payload) :
    cashaddr.run 1 (cashaddr.prefix_expand p) = cashaddr.run 1 (cashaddr.prefix_expand q) := by
  have h1 := cashaddr.create_checksum_radix p payload
  rw [h, cashaddr.create_checksum_radix, cashaddr.polymod_eq, cashaddr.polymod_eq] at h1
  have h2 := Nat.xor_left_injective h1
  simp only [List.append_assoc, cashaddr.run_append _ (cashaddr.prefix_expand _)] at h2
  have lt : ∀ r : Str, cashaddr.run 1 (cashaddr.prefix_expand r) < 2 ^ 40 := fun r => cashaddr.run_lt (by norm_num) _
  exact (cashaddr.run_inj (lt _) (lt _) _ h2).symm

/-- Checksums of the two networks always differ. -/
theorem networks_checksum (payload : Bytes) :
    cashaddr.create_checksum "bitcoincash".toList payload ≠ cashaddr.create_checksum "bchtest".toList payload :=
  fun h => networks_run (checksum_prefix _ _ payload h)

/-- C107: no text in ASCII is read as an address both for the main network and for a test network, be it base 58 or a cash
address with or without its prefix. -/
theorem C107_separate (C : PyCase) (H : Hashes) (text : Str) (ha : ∀ c ∈ text, c.toNat < 128) (coin coin' : Coin)
    (hc : coin ∈ all_coins) (hc' : coin' ∈ all_coins) (a a' : Address)
    (h : Address.from_string C H text coin = .ok a) (h' : Address.from_string C H text coin' = .ok a') :
    coin = Bitcoin ↔ coin' = Bitcoin := by
  -- it is enough to rule out one order
  have key : ∀ (coin coin' : Coin), coin ∈ all_coins → coin' ∈ all_coins → ∀ a a' : Address,
      Address.from_string C H text coin = .ok a → Address.from_string C H text coin' = .ok a' →
      coin = Bitcoin → coin' = Bitcoin := by
    intro coin coin' hc hc' a a' h h' hb
    by_contra hb'
    have ac : ∀ {coin a}, coin ∈ all_coins → Address.from_string C H text coin = .ok a →
        a.hash160.length = 20 ∧ a.coin = coin := by
      intro coin a hc h
      rcases C54_total C H text coin hc with ⟨b, e, h1, h2⟩ | ⟨e, h1, _⟩
      · rw [h] at e; rw [Except.ok.inj e]; exact ⟨h1, h2⟩
      · rw [h] at h1; cases h1
    obtain ⟨l, hco⟩ := ac hc h
    obtain ⟨l', hco'⟩ := ac hc' h'
    have p : coin.cashaddr_prefix = "bitcoincash".toList := by rw [cash_prefixes coin hc, networkPrefix, decide_eq_true hb, if_pos rfl]
    have p' : coin'.cashaddr_prefix = "bchtest".toList := by
      rw [cash_prefixes coin' hc', networkPrefix, decide_eq_false hb', if_neg (by decide)]
    rcases C54_sound C H text coin hc a h with s | ⟨s, full, s1, s2⟩ <;>
      rcases C54_sound C H text coin' hc' a' h' with s' | ⟨s', full', s1', s2'⟩
    · rw [← s', address_string_eq, address_string_eq] at s
      have h1 := (List.cons.inj ((C09_roundtrip H _ _).2 (Except.ok.inj s))).1
      rcases version_bytes coin hc with ⟨_, v1, v2, _⟩ | ⟨n, _⟩
      · rcases version_bytes coin' hc' with ⟨n, _⟩ | ⟨_, v1', v2', _⟩
        · exact hb' n
        · revert h1
          cases a <;> cases a' <;> simp only [Address.coin] at hco hco' <;> subst hco hco' <;>
            simp only [verbyte, v1, v2, v1', v2'] <;> decide
      · exact n hb
    · rw [address_string_eq] at s
      have := address_text_length H (verbyte a) a.hash160 l
      rw [Except.ok.inj s] at this; omega
    · rw [address_string_eq] at s'
      have := address_text_length H (verbyte a') a'.hash160 l'
      rw [Except.ok.inj s'] at this; omega
    · obtain ⟨x, x1, x2⟩ := cash_rest C coin hc text full ha s1 s2
      obtain ⟨y, y1, y2⟩ := cash_rest C coin' hc' text full' ha s1' s2'
      rw [p] at x2
      rw [p'] at y2
      have small : ∀ (pre : Str) (z : Bytes), (∀ d ∈ z, d.toNat < 32) → ∀ d ∈ z ++ cashaddr.create_checksum pre z, d.toNat < 32 := by
        intro pre z hz d hd
        rcases List.mem_append.1 hd with h | h
        · exact hz d h
        · exact cashaddr.create_checksum_lt _ _ d h
      have nocol : ∀ z : Bytes, (∀ d ∈ z, d.toNat < 32) → ':' ∉ z.map cashChar := by
        intro z hz hm
        obtain ⟨d, hd, e⟩ := List.mem_map.1 hm
        have : ∀ k < 32, cashAlphabet.getD k '?' ≠ ':' := by decide
        exact this d.toNat (hz d hd) e
      rcases x2 with x2 | x2 <;> rcases y2 with y2 | y2 <;> rw [x2] at y2
      · have e1 := splitColon_append "bitcoincash".toList
          ((x ++ cashaddr.create_checksum "bitcoincash".toList x).map cashChar) (by decide +kernel)
        have e2 := splitColon_append "bchtest".toList
          ((y ++ cashaddr.create_checksum "bchtest".toList y).map cashChar) (by decide +kernel)
        rw [cashText, cashText] at y2
        rw [y2, e2] at e1
        have e3 : "bchtest".toList = "bitcoincash".toList := congrArg Prod.fst (Option.some.inj e1)
        exact absurd e3 (by decide +kernel)
      · refine nocol _ (small "bchtest".toList y y1) ?_
        rw [← y2, cashText]; exact List.mem_append_right _ (by simp)
      · refine nocol _ (small "bitcoincash".toList x x1) ?_
        rw [y2, cashText]; exact List.mem_append_right _ (by simp)
      · have e := map_cashChar_inj _ _ (small _ _ x1) (small _ _ y1) y2
        have hl := congrArg List.length e
        simp only [List.length_append, cashaddr.create_checksum_length] at hl
        obtain ⟨rfl, e2⟩ := List.append_inj e (by omega)
        exact networks_checksum x e2
  exact ⟨key coin coin' hc hc' a a' h h', key coin' coin hc' hc a' a h' h⟩

/-- C107: the test networks read the same texts, as the same addresses. -/
theorem C107_tests (C : PyCase) (H : Hashes) (text : Str) (coin coin' : Coin) (hc : coin ∈ all_coins) (hc' : coin' ∈ all_coins)
    (hn : coin ≠ Bitcoin) (hn' : coin' ≠ Bitcoin) :
    Address.from_string C H text coin' = (Address.from_string C H text coin).map (addressWithCoin coin') := by
  have p : coin.cashaddr_prefix = coin'.cashaddr_prefix := by
    rw [cash_prefixes coin hc, cash_prefixes coin' hc', decide_eq_false hn, decide_eq_false hn']
  obtain ⟨v1, v2⟩ : coin.P2PKH_verbyte = coin'.P2PKH_verbyte ∧ coin.P2SH_verbyte = coin'.P2SH_verbyte := by
    rcases version_bytes coin hc with ⟨n, _⟩ | ⟨_, v1, v2, _⟩
    · exact absurd n hn
    · rcases version_bytes coin' hc' with ⟨n, _⟩ | ⟨_, v1', v2', _⟩
      · exact absurd n hn'
      · exact ⟨v1.trans v1'.symm, v2.trans v2'.symm⟩
  have m1 : ∀ h, P2PKH_Address h coin' = (P2PKH_Address h coin).map (addressWithCoin coin') := by
    intro h
    rcases P2PKH_Address_cases h coin with ⟨l, e⟩ | ⟨l, e⟩ <;> rcases P2PKH_Address_cases h coin' with ⟨l', e'⟩ | ⟨l', e'⟩ <;>
      first | exact absurd l l' | exact absurd l' l | (rw [e, e']; rfl)
  have m2 : ∀ h, P2SH_Address h coin' = (P2SH_Address h coin).map (addressWithCoin coin') := by
    intro h
    rcases P2SH_Address_cases h coin with ⟨l, e⟩ | ⟨l, e⟩ <;> rcases P2SH_Address_cases h coin' with ⟨l', e'⟩ | ⟨l', e'⟩ <;>
      first | exact absurd l l' | exact absurd l' l | (rw [e, e']; rfl)
  have b : Address.from_base58_string H text coin' = (Address.from_base58_string H text coin).map (addressWithCoin coin') := by
    unfold Address.from_base58_string
    rw [v1, v2]
    cases base58_decode_check H text with
    | error e => rfl
    | ok raw =>
      simp only [ok_bind']
      split
      · rfl
      · cases raw with
        | nil => rfl
        | cons v h =>
          dsimp only
          split
          · exact m1 h
          · split
            · exact m2 h
            · rfl
  have c : Address.from_cashaddr_string C text coin' = (Address.from_cashaddr_string C text coin).map (addressWithCoin coin') := by
    unfold Address.from_cashaddr_string
    rw [p]
    dsimp only
    cases cashaddr.decode C (if ¬ startsWith ((if C.upper text = text then C.upper coin'.cashaddr_prefix
      else coin'.cashaddr_prefix) ++ [':']) text = true then joinStr [':'] [if C.upper text = text then
        C.upper coin'.cashaddr_prefix else coin'.cashaddr_prefix, text] else text) with
    | error e => rfl
    | ok r =>
      obtain ⟨ap, kind, hash⟩ := r
      simp only [ok_bind']
      generalize (if C.upper text = text then C.upper coin'.cashaddr_prefix else coin'.cashaddr_prefix) = q
      split
      · rfl
      · split
        · exact m1 hash
        · exact m2 hash
  unfold Address.from_string
  split
  · rw [c]
    cases Address.from_cashaddr_string C text coin with
    | ok a => rfl
    | error e =>
      dsimp only [Except.map]
      split
      · exact b
      · rfl
  · exact b

def netHash : Bytes := [118, 160, 64, 83, 189, 160, 168, 139, 218, 81, 119, 184, 106, 21, 195, 178, 159, 85, 152, 115]

theorem netHash_cash : IsCashAddress (networkPrefix (decide (Bitcoin = Bitcoin))) 0 netHash
    (networkPrefix (decide (Bitcoin = Bitcoin)) ++ ':' :: "qpm2qsznhks23z7629mms6s4cwef74vcwvy22gdx6a".toList) :=
  (C50_canonical asciiCase _ 0 _ _ (by decide +kernel)).1 (by decide +kernel)

/-- An address read for the main network, and so for no other. -/
example : ¬ ∃ a, Address.from_string asciiCase toyHashes "qpm2qsznhks23z7629mms6s4cwef74vcwvy22gdx6a".toList BitcoinTestnet = .ok a := by
  rintro ⟨a, h⟩
  have h1 := C81_prefixes asciiCase toyHashes Bitcoin (by simp [all_coins]) 0 netHash rfl _ netHash_cash
    "qpm2qsznhks23z7629mms6s4cwef74vcwvy22gdx6a".toList (by simp)
  have := (C107_separate asciiCase toyHashes _ (by decide +kernel) _ _ (by simp [all_coins]) (by simp [all_coins]) _ _ h1 h).1 rfl
  revert this
  decide +kernel

end Bitcoinx
