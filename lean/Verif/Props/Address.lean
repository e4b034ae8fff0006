import Verif.Model.Address
import Verif.Props.Cashaddr
import Verif.Props.Keys

/-! # Properties of addresses: C53, C54 and C81 -/

namespace Bitcoinx

open Spec

/-! ## The coins -/

theorem coin_prefixes : ∀ coin ∈ all_coins,
    (coin.cashaddr_prefix ≠ [] ∧ (∀ c ∈ coin.cashaddr_prefix,
      33 ≤ c.toNat ∧ c.toNat ≤ 126 ∧ c ≠ ':' ∧ ¬ c.isUpper = true)) ∧
    (∃ c ∈ coin.cashaddr_prefix, c.isLower = true) ∧ coin.cashaddr_prefix.length ≤ 26 ∧
    coin.P2PKH_verbyte ≠ coin.P2SH_verbyte := by decide +kernel

/-! ## Base58 addresses -/

/-- An address object: its hash has 20 bytes. -/
def AddressValid (a : Address) : Prop := a.hash160.length = 20

theorem P2PKH_Address_ok {h : Bytes} (coin : Coin) (hl : h.length = 20) :
    P2PKH_Address h coin = .ok (.P2PKH h coin) := by
  have c : ¬ (h.length ≠ 20) := by omega
  simp only [P2PKH_Address, validate_hash160, if_neg c, ok_bind', pure_ok']

theorem P2SH_Address_ok {h : Bytes} (coin : Coin) (hl : h.length = 20) :
    P2SH_Address h coin = .ok (.P2SH h coin) := by
  have c : ¬ (h.length ≠ 20) := by omega
  simp only [P2SH_Address, validate_hash160, if_neg c, ok_bind', pure_ok']

theorem P2PKH_Address_cases (h : Bytes) (coin : Coin) :
    (h.length = 20 ∧ P2PKH_Address h coin = .ok (.P2PKH h coin)) ∨
      (h.length ≠ 20 ∧ P2PKH_Address h coin = .error .valueError) := by
  by_cases hl : h.length = 20
  · exact .inl ⟨hl, P2PKH_Address_ok coin hl⟩
  · refine .inr ⟨hl, ?_⟩
    simp only [P2PKH_Address, validate_hash160, if_pos (show h.length ≠ 20 from hl), error_bind']

theorem P2SH_Address_cases (h : Bytes) (coin : Coin) :
    (h.length = 20 ∧ P2SH_Address h coin = .ok (.P2SH h coin)) ∨
      (h.length ≠ 20 ∧ P2SH_Address h coin = .error .valueError) := by
  by_cases hl : h.length = 20
  · exact .inl ⟨hl, P2SH_Address_ok coin hl⟩
  · refine .inr ⟨hl, ?_⟩
    simp only [P2SH_Address, validate_hash160, if_pos (show h.length ≠ 20 from hl), error_bind']

/-- The version byte of an address. -/
def verbyte : Address → UInt8
  | .P2PKH _ coin => coin.P2PKH_verbyte
  | .P2SH _ coin => coin.P2SH_verbyte

theorem address_string_eq (H : Hashes) (a : Address) :
    a.to_string H = .ok (base58_encode_check H (verbyte a :: a.hash160)) := by
  cases a <;> simp only [Address.to_string, pack_byte_uint8, ok_bind', pure_ok', verbyte,
    Address.hash160, List.singleton_append]

theorem address_text_length (H : Hashes) (v : UInt8) (h : Bytes) (hl : h.length = 20) :
    (base58_encode_check H (v :: h)).length ≤ 35 := by
  have := base58_length_le ((v :: h) ++ (H.double_sha256 (v :: h)).take 4)
  rw [List.length_append, List.length_cons, hl, List.length_take] at this
  unfold base58_encode_check
  omega

theorem from_base58_string_ok (H : Hashes) (coin : Coin) (hc : coin ∈ all_coins) (text : Str)
    (a : Address) : Address.from_base58_string H text coin = .ok a ↔
      AddressValid a ∧ a.coin = coin ∧ a.to_string H = .ok text := by
  have hne := (coin_prefixes coin hc).2.2.2
  rw [address_string_eq]
  constructor
  · intro h
    unfold Address.from_base58_string at h
    obtain ⟨raw, hraw, h⟩ := bind_eq_ok.mp h
    have ht := ((C09_check_iff H text).1 raw).mp hraw
    by_cases hl : raw.length ≠ 21
    · rw [if_pos hl] at h; cases h
    rw [if_neg hl] at h
    cases raw with
    | nil => cases h
    | cons v hash =>
      dsimp only at h
      have hl' : hash.length = 20 := by simpa using hl
      by_cases h1 : v = coin.P2PKH_verbyte
      · rw [if_pos h1, P2PKH_Address_ok coin hl'] at h
        have := Except.ok.inj h
        subst this
        refine ⟨hl', by dsimp only [Address.coin], ?_⟩
        rw [ht, h1]
        dsimp only [verbyte, Address.hash160]
      · rw [if_neg h1] at h
        by_cases h2 : v = coin.P2SH_verbyte
        · rw [if_pos h2, P2SH_Address_ok coin hl'] at h
          have := Except.ok.inj h
          subst this
          refine ⟨hl', by dsimp only [Address.coin], ?_⟩
          rw [ht, h2]
          dsimp only [verbyte, Address.hash160]
        · rw [if_neg h2] at h; cases h
  · rintro ⟨hv, hco, ht⟩
    have hl : ((verbyte a :: a.hash160).length ≠ 21) = False := by
      rw [List.length_cons, hv]; simp
    rw [← Except.ok.inj ht]
    simp only [Address.from_base58_string, (C09_roundtrip H _ []).1, ok_bind', hl, if_false]
    cases a with
    | P2PKH h c =>
      have : c = coin := hco
      subst this
      rw [if_pos (show verbyte (.P2PKH h c) = c.P2PKH_verbyte from rfl)]
      exact P2PKH_Address_ok c hv
    | P2SH h c =>
      have : c = coin := hco
      subst this
      rw [if_neg (show verbyte (.P2SH h c) ≠ c.P2PKH_verbyte from Ne.symm hne),
        if_pos (show verbyte (.P2SH h c) = c.P2SH_verbyte from rfl)]
      exact P2SH_Address_ok c hv

theorem base58_decode_check_error {H : Hashes} {t : Str} {e : Err}
    (h : base58_decode_check H t = .error e) : e = .base58Error := by
  obtain ⟨h1, h2⟩ := C09_check_iff H t
  by_cases hp : ∃ p, t = base58_encode_check H p
  · obtain ⟨p, hp⟩ := hp
    rw [(h1 p).mpr hp] at h
    cases h
  · rw [h2 hp] at h
    cases h
    rfl

theorem from_base58_string_error (H : Hashes) (coin : Coin) (text : Str) (e : Err)
    (h : Address.from_base58_string H text coin = .error e) : e.isValueError = true := by
  unfold Address.from_base58_string at h
  rcases bind_eq_error.mp h with h | ⟨raw, hraw, h⟩
  · rw [base58_decode_check_error h]; rfl
  · by_cases hl : raw.length ≠ 21
    · rw [if_pos hl] at h; cases h; rfl
    rw [if_neg hl] at h
    cases raw with
    | nil => exact absurd (show ([] : Bytes).length ≠ 21 by decide) hl
    | cons v hash =>
      dsimp only at h
      by_cases h1 : v = coin.P2PKH_verbyte
      · rw [if_pos h1] at h
        rcases P2PKH_Address_cases hash coin with ⟨_, hh⟩ | ⟨_, hh⟩ <;> rw [hh] at h <;> cases h
        rfl
      · rw [if_neg h1] at h
        by_cases h2 : v = coin.P2SH_verbyte
        · rw [if_pos h2] at h
          rcases P2SH_Address_cases hash coin with ⟨_, hh⟩ | ⟨_, hh⟩ <;> rw [hh] at h <;> cases h
          rfl
        · rw [if_neg h2] at h; cases h; rfl

/-- **C53**.  Address strings round-trip for each supported coin, and have at most 35 characters. -/
theorem C53_roundtrip (C : PyCase) (H : Hashes) (a : Address) (ha : AddressValid a)
    (hc : a.coin ∈ all_coins) :
    ∃ t, a.to_string H = .ok t ∧ t.length ≤ 35 ∧ Address.from_string C H t a.coin = .ok a := by
  have h35 := address_text_length H (verbyte a) a.hash160 ha
  refine ⟨_, address_string_eq H a, h35, ?_⟩
  have c : ¬ (base58_encode_check H (verbyte a :: a.hash160)).length > 35 := by omega
  rw [Address.from_string, if_neg c]
  exact (from_base58_string_ok H a.coin hc _ a).mpr ⟨ha, rfl, address_string_eq H a⟩

/-- **C53** (distinct).  Different addresses of a coin have different strings. -/
theorem C53_injective (H : Hashes) (a b : Address) (hab : a.coin = b.coin) (hc : a.coin ∈ all_coins)
    (h : a.to_string H = b.to_string H) : a = b := by
  rw [address_string_eq, address_string_eq] at h
  have h1 := (C09_roundtrip H _ _).2 (Except.ok.inj h)
  have h2 := (List.cons.inj h1).1
  have h3 := (List.cons.inj h1).2
  have hne := (coin_prefixes _ hc).2.2.2
  cases a with
  | P2PKH ha ca => cases b with
    | P2PKH hb cb =>
      dsimp only [Address.hash160, Address.coin] at h3 hab
      rw [h3, hab]
    | P2SH hb cb =>
      dsimp only [verbyte, Address.coin] at h2 hab hne
      rw [← hab] at h2
      exact absurd h2 hne
  | P2SH ha ca => cases b with
    | P2PKH hb cb =>
      dsimp only [verbyte, Address.coin] at h2 hab hne
      rw [← hab] at h2
      exact absurd h2.symm hne
    | P2SH hb cb =>
      dsimp only [Address.hash160, Address.coin] at h3 hab
      rw [h3, hab]

/-! ## Cash addresses -/

theorem map_toLower_upper (pre : Str) (h : ∀ c ∈ pre, c.toNat < 128 ∧ ¬ c.isUpper = true) :
    (pre.map Char.toUpper).map Char.toLower = pre := by
  rw [List.map_map]
  exact map_id_of (fun c hc => lower_upper c (h c hc).1 (h c hc).2)

theorem map_upper_ne (pre : Str) (hasc : ∀ c ∈ pre, c.toNat < 128) (h : ∃ c ∈ pre, c.isLower = true) :
    pre.map Char.toUpper ≠ pre := by
  obtain ⟨c, hc, hl⟩ := h
  intro he
  obtain ⟨i, hi, rfl⟩ := List.getElem_of_mem hc
  have e2 : (pre.map Char.toUpper)[i]? = pre[i]? := by rw [he]
  rw [List.getElem?_map, List.getElem?_eq_getElem hi] at e2
  exact lower_ne_upper _ (hasc _ hc) hl (Option.some.inj e2)

/-- Both prefixes of a coin, and the text that is decoded. -/
theorem cash_full (C : PyCase) (coin : Coin) (hc : coin ∈ all_coins) (pre x : Str)
    (hpre : pre = coin.cashaddr_prefix ∨ pre = coin.cashaddr_prefix.map Char.toUpper) :
    ∃ b, C.lower (pre ++ ':' :: x) = coin.cashaddr_prefix ++ ':' :: b ∧ x.length ≤ b.length := by
  obtain ⟨⟨_, hp⟩, _, _, _⟩ := coin_prefixes coin hc
  have hplain : ∀ c ∈ coin.cashaddr_prefix, c.toNat < 128 ∧ ¬ c.isUpper = true := by
    intro c hc
    have := hp c hc
    exact ⟨by omega, this.2.2.2⟩
  have hasc : ∀ c ∈ pre ++ [':'], c.toNat < 128 := by
    intro c hc
    rcases List.mem_append.mp hc with hc | hc
    · rcases hpre with rfl | rfl
      · exact (hplain c hc).1
      · obtain ⟨d, hd, rfl⟩ := List.mem_map.mp hc
        exact upper_ascii d (hplain d hd).1
    · rw [List.mem_singleton.mp hc]; decide
  obtain ⟨b, h1, h2⟩ := C.lower_prefix (pre ++ [':']) x hasc
  refine ⟨b, ?_, h2⟩
  have e1 : pre ++ ':' :: x = pre ++ [':'] ++ x := by simp
  have e2 : pre.map Char.toLower = coin.cashaddr_prefix := by
    rcases hpre with rfl | rfl
    · exact map_id_of (fun c hc => toLower_of_not_upper c (hplain c hc).2)
    · exact map_toLower_upper _ hplain
  rw [e1, h1, List.map_append, e2]
  simp

/-- The kind of an address in the cash format. -/
def cashKind : Address → Nat
  | .P2PKH _ _ => 0
  | .P2SH _ _ => 1

/-- The text that `_from_cashaddr_string` decodes, and its prefix. -/
def fullText (C : PyCase) (coin : Coin) (text : Str) : Str × Str :=
  let pre := if C.upper text = text then C.upper coin.cashaddr_prefix else coin.cashaddr_prefix
  (pre, if ¬ startsWith (pre ++ [':']) text then pre ++ ':' :: text else text)

theorem from_cashaddr_eq (C : PyCase) (coin : Coin) (text : Str) :
    Address.from_cashaddr_string C text coin = (do
      let (addr_prefix, kind, hash160) ← cashaddr.decode C (fullText C coin text).2
      if (fullText C coin text).1 ≠ addr_prefix then .error .assertionError
      else if kind = cashaddr.PUBKEY_TYPE then P2PKH_Address hash160 coin
      else P2SH_Address hash160 coin) := by
  unfold Address.from_cashaddr_string fullText
  simp only [joinStr, List.append_assoc, List.singleton_append]

theorem upper_prefix_eq (C : PyCase) (coin : Coin) (hc : coin ∈ all_coins) :
    C.upper coin.cashaddr_prefix = coin.cashaddr_prefix.map Char.toUpper :=
  C.upper_ascii _ (fun c h => by have := (coin_prefixes coin hc).1.2 c h; omega)

theorem fullText_spec (C : PyCase) (coin : Coin) (hc : coin ∈ all_coins) (text : Str) :
    ∃ x, (fullText C coin text).2 = (fullText C coin text).1 ++ ':' :: x ∧
      ((fullText C coin text).2 = text ∨ x = text) ∧
      ((C.upper text = text ∧ (fullText C coin text).1 = coin.cashaddr_prefix.map Char.toUpper) ∨
       (C.upper text ≠ text ∧ (fullText C coin text).1 = coin.cashaddr_prefix)) := by
  have h3 : (C.upper text = text ∧ (fullText C coin text).1 = coin.cashaddr_prefix.map Char.toUpper) ∨
       (C.upper text ≠ text ∧ (fullText C coin text).1 = coin.cashaddr_prefix) := by
    unfold fullText
    dsimp only
    by_cases hu : C.upper text = text
    · rw [if_pos hu]; exact .inl ⟨hu, upper_prefix_eq C coin hc⟩
    · rw [if_neg hu]; exact .inr ⟨hu, rfl⟩
  have h12 : ∃ x, (fullText C coin text).2 = (fullText C coin text).1 ++ ':' :: x ∧
      ((fullText C coin text).2 = text ∨ x = text) := by
    unfold fullText
    dsimp only
    generalize (if C.upper text = text then C.upper coin.cashaddr_prefix else coin.cashaddr_prefix) = pre
    by_cases hs : startsWith (pre ++ [':']) text = true
    · rw [if_neg (not_not.mpr hs)]
      obtain ⟨x, hx⟩ := List.isPrefixOf_iff_prefix.mp hs
      exact ⟨x, by rw [← hx]; simp, .inl rfl⟩
    · rw [if_pos hs]
      exact ⟨text, rfl, .inr rfl⟩
  obtain ⟨x, h1, h2⟩ := h12
  exact ⟨x, h1, h2, h3⟩

/-- The prefix check of `_from_cashaddr_string` never fails. -/
theorem decode_prefix (C : PyCase) (coin : Coin) (hc : coin ∈ all_coins) (text ap : Str) (kind : Nat)
    (hash : Bytes) (h : cashaddr.decode C (fullText C coin text).2 = .ok (ap, kind, hash)) :
    (fullText C coin text).1 = ap ∧
      IsCashAddress coin.cashaddr_prefix kind hash (C.lower (fullText C coin text).2) := by
  obtain ⟨x, h1, _, h3⟩ := fullText_spec C coin hc text
  obtain ⟨⟨hne, hp⟩, hlet, _, _⟩ := coin_prefixes coin hc
  have hasc : ∀ c ∈ coin.cashaddr_prefix, c.toNat < 128 := fun c h => by have := hp c h; omega
  have hcol : ':' ∉ coin.cashaddr_prefix := fun h => (hp _ h).2.2.1 rfl
  have hpre : (fullText C coin text).1 = coin.cashaddr_prefix ∨
      (fullText C coin text).1 = coin.cashaddr_prefix.map Char.toUpper := by
    rcases h3 with ⟨_, h⟩ | ⟨_, h⟩
    · exact .inr h
    · exact .inl h
  obtain ⟨b, hb, _⟩ := cash_full C coin hc _ x hpre
  rw [← h1] at hb
  rw [decode_eq] at h
  obtain ⟨⟨pre', payload⟩, d1, h⟩ := bind_eq_ok.mp h
  obtain ⟨⟨kind', hash'⟩, d2, h⟩ := bind_eq_ok.mp h
  cases h
  obtain ⟨g0, p0, g1, g2, g3, g4, g5, g6, g7⟩ := (decode_payload_iff _ _ _ _).mp d1
  obtain ⟨k1, k2⟩ := (decodeTail_iff payload g6 kind hash).mp d2
  have hp0 : p0 = coin.cashaddr_prefix := by
    have e1 := splitColon_append coin.cashaddr_prefix b hcol
    rw [← hb, g1, cashText, splitColon_append _ _ g3] at e1
    exact congrArg Prod.fst (Option.some.inj e1)
  subst hp0
  refine ⟨?_, (isCashAddress_iff _ _ _ _).mpr ⟨⟨hne, hp⟩, k2, payload, k1, g1⟩⟩
  rw [g7]
  have hupne := map_upper_ne _ hasc hlet
  rcases h3 with ⟨_, h3⟩ | ⟨_, h3⟩
  · -- capitals: the lower case differs
    have : C.lower (fullText C coin text).2 ≠ (fullText C coin text).2 := by
      rw [hb, h1, h3]
      intro he
      exact hupne ((List.append_inj he (by simp)).1).symm
    rw [if_pos this, h3, upper_prefix_eq C coin hc]
  · have : C.lower (fullText C coin text).2 = (fullText C coin text).2 := by
      rcases g0 with h | h
      · exact h
      · exfalso
        rw [h1, h3] at h
        obtain ⟨b', hb'⟩ := C.upper_prefix coin.cashaddr_prefix (':' :: x) hasc
        rw [hb'] at h
        exact hupne (List.append_inj h (by simp)).1
    rw [if_neg (not_not.mpr this), h3]

theorem from_cashaddr_ok (C : PyCase) (coin : Coin) (hc : coin ∈ all_coins) (text : Str) (a : Address)
    (h : Address.from_cashaddr_string C text coin = .ok a) :
    AddressValid a ∧ a.coin = coin ∧
      IsCashAddress coin.cashaddr_prefix (cashKind a) a.hash160 (C.lower (fullText C coin text).2) := by
  rw [from_cashaddr_eq] at h
  obtain ⟨⟨ap, kind, hash⟩, d1, h⟩ := bind_eq_ok.mp h
  obtain ⟨hap, hcash⟩ := decode_prefix C coin hc text ap kind hash d1
  dsimp only at h
  rw [if_neg (not_not.mpr hap)] at h
  by_cases hk : kind = cashaddr.PUBKEY_TYPE
  · rw [if_pos hk] at h
    rcases P2PKH_Address_cases hash coin with ⟨hl, hh⟩ | ⟨_, hh⟩
    · rw [hh] at h
      have := Except.ok.inj h
      subst this
      rw [hk] at hcash
      exact ⟨hl, by dsimp only [Address.coin], hcash⟩
    · rw [hh] at h; cases h
  · rw [if_neg hk] at h
    have hk1 : kind = 1 := by
      have := hcash.2.1
      unfold cashaddr.PUBKEY_TYPE at hk
      omega
    rcases P2SH_Address_cases hash coin with ⟨hl, hh⟩ | ⟨_, hh⟩
    · rw [hh] at h
      have := Except.ok.inj h
      subst this
      rw [hk1] at hcash
      exact ⟨hl, by dsimp only [Address.coin], hcash⟩
    · rw [hh] at h; cases h

theorem from_cashaddr_error (C : PyCase) (coin : Coin) (hc : coin ∈ all_coins) (text : Str) (e : Err)
    (hl : text.length > 35) (h : Address.from_cashaddr_string C text coin = .error e) :
    e.isValueError = true := by
  rw [from_cashaddr_eq] at h
  rcases bind_eq_error.mp h with h | ⟨⟨ap, kind, hash⟩, d1, h⟩
  · rcases C52_errors_partial C _ e h with rfl | ⟨_, p0, _, hcol0, _, hlow⟩
    · rfl
    · exfalso
      obtain ⟨x, h1, h2, h3⟩ := fullText_spec C coin hc text
      obtain ⟨⟨hne, hp⟩, hlet, h26, _⟩ := coin_prefixes coin hc
      have hcol : ':' ∉ coin.cashaddr_prefix := fun h => (hp _ h).2.2.1 rfl
      have hpre : (fullText C coin text).1 = coin.cashaddr_prefix ∨
          (fullText C coin text).1 = coin.cashaddr_prefix.map Char.toUpper := by
        rcases h3 with ⟨_, h⟩ | ⟨_, h⟩
        · exact .inr h
        · exact .inl h
      have hprel : (fullText C coin text).1.length = coin.cashaddr_prefix.length := by
        rcases hpre with h | h <;> rw [h]
        simp
      obtain ⟨b, hb, hxb⟩ := cash_full C coin hc _ x hpre
      rw [← h1] at hb
      have e1 := splitColon_append coin.cashaddr_prefix b hcol
      rw [← hb, hlow, cashText, splitColon_append _ _ hcol0] at e1
      have e2 := congrArg Prod.snd (Option.some.inj e1)
      have e3 : b.length = 8 := by
        dsimp only at e2
        rw [← e2, List.length_map, cashaddr.create_checksum_length]
      rcases h2 with h2 | h2
      · rw [← h2, h1, List.length_append, List.length_cons] at hl
        omega
      · rw [h2] at hxb; omega
  · obtain ⟨hap, hcash⟩ := decode_prefix C coin hc text ap kind hash d1
    dsimp only at h
    rw [if_neg (not_not.mpr hap)] at h
    by_cases hk : kind = cashaddr.PUBKEY_TYPE
    · rw [if_pos hk] at h
      rcases P2PKH_Address_cases hash coin with ⟨_, hh⟩ | ⟨_, hh⟩ <;> rw [hh] at h <;> cases h
      rfl
    · rw [if_neg hk] at h
      rcases P2SH_Address_cases hash coin with ⟨_, hh⟩ | ⟨_, hh⟩ <;> rw [hh] at h <;> cases h
      rfl

/-- **C54**.  For every text and supported coin, `from_string` returns an address of that coin with a
20-byte hash or raises `ValueError` (of which `Base58Error` is a subclass); the assertion on the
prefix never fails. -/
theorem C54_total (C : PyCase) (H : Hashes) (text : Str) (coin : Coin) (hc : coin ∈ all_coins) :
    (∃ a, Address.from_string C H text coin = .ok a ∧ a.hash160.length = 20 ∧ a.coin = coin) ∨
      (∃ e, Address.from_string C H text coin = .error e ∧ e.isValueError = true) := by
  have h58 : (∃ a, Address.from_base58_string H text coin = .ok a ∧ a.hash160.length = 20 ∧ a.coin = coin) ∨
      (∃ e, Address.from_base58_string H text coin = .error e ∧ e.isValueError = true) := by
    cases h : Address.from_base58_string H text coin with
    | ok a =>
      obtain ⟨h1, h2, _⟩ := (from_base58_string_ok H coin hc text a).mp h
      exact .inl ⟨a, rfl, h1, h2⟩
    | error e => exact .inr ⟨e, rfl, from_base58_string_error H coin text e h⟩
  unfold Address.from_string
  by_cases hl : text.length > 35
  · rw [if_pos hl]
    cases h : Address.from_cashaddr_string C text coin with
    | ok a =>
      obtain ⟨h1, h2, _⟩ := from_cashaddr_ok C coin hc text a h
      exact .inl ⟨a, rfl, h1, h2⟩
    | error e =>
      have he := from_cashaddr_error C coin hc text e hl h
      dsimp only
      rw [if_pos he]
      exact h58
  · rw [if_neg hl]
    exact h58

/-- **C54** (soundness).  What is accepted is the string of the address returned, or a cash address of
it: of the coin's prefix, which may be left out, in lower or upper case. -/
theorem C54_sound (C : PyCase) (H : Hashes) (text : Str) (coin : Coin) (hc : coin ∈ all_coins)
    (a : Address) (h : Address.from_string C H text coin = .ok a) :
    a.to_string H = .ok text ∨ (35 < text.length ∧ ∃ full,
      (full = text ∨ full = coin.cashaddr_prefix ++ ':' :: text ∨
        full = coin.cashaddr_prefix.map Char.toUpper ++ ':' :: text) ∧
      IsCashAddress coin.cashaddr_prefix (cashKind a) a.hash160 (C.lower full)) := by
  unfold Address.from_string at h
  by_cases hl : text.length > 35
  · rw [if_pos hl] at h
    cases h' : Address.from_cashaddr_string C text coin with
    | ok b =>
      rw [h'] at h
      have := Except.ok.inj h
      subst this
      obtain ⟨_, _, h3⟩ := from_cashaddr_ok C coin hc text b h'
      refine .inr ⟨hl, (fullText C coin text).2, ?_, h3⟩
      obtain ⟨x, h1, h2, h4⟩ := fullText_spec C coin hc text
      rcases h2 with h2 | rfl
      · exact .inl h2
      · rcases h4 with ⟨_, h4⟩ | ⟨_, h4⟩
        · rw [h4] at h1; exact .inr (.inr h1)
        · rw [h4] at h1; exact .inr (.inl h1)
    | error e =>
      rw [h'] at h
      have he := from_cashaddr_error C coin hc text e hl h'
      dsimp only at h
      rw [if_pos he] at h
      exact .inl ((from_base58_string_ok H coin hc text a).mp h).2.2
  · rw [if_neg hl] at h
    exact .inl ((from_base58_string_ok H coin hc text a).mp h).2.2

/-- The address of a kind. -/
def mkAddress (kind : Nat) (hash : Bytes) (coin : Coin) : Address :=
  if kind = 0 then .P2PKH hash coin else .P2SH hash coin

/-- **C81**.  A cash address of a 20-byte hash is accepted with the prefix or without it, in lower case
and in upper case, and gives the address of its kind and hash. -/
theorem C81_cashaddr (C : PyCase) (H : Hashes) (coin : Coin) (hc : coin ∈ all_coins) (kind : Nat)
    (hash : Bytes) (hl : hash.length = 20) (part : Str)
    (h : IsCashAddress coin.cashaddr_prefix kind hash (coin.cashaddr_prefix ++ ':' :: part)) :
    ∀ t ∈ [coin.cashaddr_prefix ++ ':' :: part, part,
        (coin.cashaddr_prefix ++ ':' :: part).map Char.toUpper, part.map Char.toUpper],
      Address.from_string C H t coin = .ok (mkAddress kind hash coin) := by
  obtain ⟨⟨hne, hp⟩, hlet, h26, _⟩ := coin_prefixes coin hc
  have hasc : ∀ c ∈ coin.cashaddr_prefix, c.toNat < 128 := fun c h => by have := hp c h; omega
  have hcol : ':' ∉ coin.cashaddr_prefix := fun h => (hp _ h).2.2.1 rfl
  have hupne := map_upper_ne _ hasc hlet
  obtain ⟨hd1, hd2⟩ := C49_decode C _ kind hash _ h
  obtain ⟨hcp, hk, payload, hpay, htext⟩ := (isCashAddress_iff _ _ _ _).mp h
  obtain ⟨code, pad, hs1, hs2, hs3, hs4, hs5⟩ := id hpay
  have hpart : part = (payload ++ cashaddr.create_checksum coin.cashaddr_prefix payload).map cashChar := by
    have e1 := splitColon_append coin.cashaddr_prefix part hcol
    rw [htext, cashText, splitColon_append _ _ hcol] at e1
    exact (congrArg Prod.snd (Option.some.inj e1)).symm
  have hall : ∀ d ∈ payload ++ cashaddr.create_checksum coin.cashaddr_prefix payload, d.toNat < 32 := by
    intro d hd
    rcases List.mem_append.mp hd with h | h
    · exact hs3 d h
    · exact cashaddr.create_checksum_lt _ _ d h
  have hplen : part.length = 42 := by
    rw [hpart, List.length_map, List.length_append, cashaddr.create_checksum_length]
    omega
  have hpasc : ∀ c ∈ part, c.toNat < 128 := by
    intro c hc
    rw [hpart] at hc
    obtain ⟨d, hd, rfl⟩ := List.mem_map.mp hc
    exact (cashChar_props d.toNat (hall d hd)).1
  have hnocol : ∀ d < 32, (cashAlphabet.getD d '?') ≠ ':' ∧ (cashAlphabet.getD d '?').toUpper ≠ ':' := by
    decide +kernel
  have hpcol : ':' ∉ part ∧ ':' ∉ part.map Char.toUpper := by
    constructor
    · intro hm
      rw [hpart] at hm
      obtain ⟨d, hd, he⟩ := List.mem_map.mp hm
      exact (hnocol d.toNat (hall d hd)).1 he
    · intro hm
      rw [hpart, List.map_map] at hm
      obtain ⟨d, hd, he⟩ := List.mem_map.mp hm
      exact (hnocol d.toNat (hall d hd)).2 he
  -- it is enough to know which text is decoded
  have core : ∀ t, 35 < t.length →
      (fullText C coin t = (coin.cashaddr_prefix, coin.cashaddr_prefix ++ ':' :: part) ∨
       fullText C coin t = (coin.cashaddr_prefix.map Char.toUpper,
         (coin.cashaddr_prefix ++ ':' :: part).map Char.toUpper)) →
      Address.from_string C H t coin = .ok (mkAddress kind hash coin) := by
    intro t ht hf
    have hdec : ∃ ap, cashaddr.decode C (fullText C coin t).2 = .ok (ap, kind, hash) ∧
        (fullText C coin t).1 = ap := by
      rcases hf with hf | hf <;> rw [hf]
      · exact ⟨_, hd1, rfl⟩
      · exact ⟨_, hd2, rfl⟩
    obtain ⟨ap, e1, e2⟩ := hdec
    have hcs : Address.from_cashaddr_string C t coin = .ok (mkAddress kind hash coin) := by
      rw [from_cashaddr_eq, e1, ok_bind']
      dsimp only
      rw [if_neg (not_not.mpr e2)]
      unfold mkAddress cashaddr.PUBKEY_TYPE
      by_cases hk0 : kind = 0
      · rw [if_pos hk0, if_pos hk0, P2PKH_Address_ok coin hl]
      · rw [if_neg hk0, if_neg hk0, P2SH_Address_ok coin hl]
    rw [Address.from_string, if_pos ht, hcs]
  have hno : ∀ pre t : Str, ':' ∉ t → startsWith (pre ++ [':']) t = false := by
    intro pre t ht
    by_contra hh
    rw [Bool.not_eq_false] at hh
    obtain ⟨x, hx⟩ := List.isPrefixOf_iff_prefix.mp hh
    apply ht
    rw [← hx]
    simp
  have hyes : ∀ pre x : Str, startsWith (pre ++ [':']) (pre ++ ':' :: x) = true := by
    intro pre x
    exact List.isPrefixOf_iff_prefix.mpr ⟨x, by simp⟩
  have hupcol : ':'.toUpper = ':' := by decide
  have hTasc : ∀ c ∈ coin.cashaddr_prefix ++ ':' :: part, c.toNat < 128 := by
    intro c hc
    rcases List.mem_append.mp hc with h | h
    · exact hasc c h
    · rcases List.mem_cons.mp h with rfl | h
      · decide
      · exact hpasc c h
  have hupT : ∀ s : Str, (∀ c ∈ s, c.toNat < 128) → C.upper (s.map Char.toUpper) = s.map Char.toUpper := by
    intro s hs
    rw [C.upper_ascii, List.map_map]
    · exact List.map_congr_left (fun c hc => upper_upper c (hs c hc))
    · intro c hc
      obtain ⟨d, hd, rfl⟩ := List.mem_map.mp hc
      exact upper_ascii d (hs d hd)
  have hupp := upper_prefix_eq C coin hc
  intro t ht
  simp only [List.mem_cons, List.not_mem_nil, or_false] at ht
  rcases ht with rfl | ht | rfl | rfl
  · refine core _ (by rw [List.length_append, List.length_cons, hplen]; omega) (.inl ?_)
    have hu : C.upper (coin.cashaddr_prefix ++ ':' :: part) ≠ coin.cashaddr_prefix ++ ':' :: part := by
      rw [C.upper_ascii _ hTasc, List.map_append]
      intro he
      exact hupne (List.append_inj he (by simp)).1
    unfold fullText
    rw [if_neg hu]
    dsimp only
    rw [hyes, if_neg (by simp)]
  · rw [ht]
    refine core _ (by omega) ?_
    by_cases hu : C.upper part = part
    · right
      have hu' : part.map Char.toUpper = part := by rw [← C.upper_ascii part hpasc, hu]
      unfold fullText
      rw [if_pos hu]
      dsimp only
      rw [hno _ _ hpcol.1, if_pos (by simp), hupp, List.map_append, List.map_cons, hupcol, hu']
    · left
      unfold fullText
      rw [if_neg hu]
      dsimp only
      rw [hno _ _ hpcol.1, if_pos (by simp)]
  · refine core _ (by rw [List.length_map, List.length_append, List.length_cons, hplen]; omega) (.inr ?_)
    unfold fullText
    rw [if_pos (hupT _ hTasc)]
    dsimp only
    rw [hupp, List.map_append, List.map_cons, hupcol, hyes, if_neg (by simp)]
  · refine core _ (by rw [List.length_map, hplen]; omega) (.inr ?_)
    unfold fullText
    rw [if_pos (hupT _ hpasc)]
    dsimp only
    rw [hno _ _ hpcol.2, if_pos (by simp), hupp, List.map_append, List.map_cons, hupcol]

/-! ## Examples -/

example : AddressValid (.P2SH (zeros 20) BitcoinTestnet) ∧ BitcoinTestnet ∈ all_coins := by
  refine ⟨by unfold AddressValid Address.hash160; decide, ?_⟩
  unfold all_coins
  simp

/-- A hypothesis of C81. -/
example : IsCashAddress "bitcoincash".toList 0
    ((fromhex "76a04053bda0a88bda5177b86a15c3b29f559873".toList).toOption.getD [])
    "bitcoincash:qpm2qsznhks23z7629mms6s4cwef74vcwvy22gdx6a".toList :=
  (C50_canonical asciiCase _ _ _ _ (by decide +kernel)).mp (by decide +kernel)

end Bitcoinx
