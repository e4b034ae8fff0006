import Verif.Spec.Keys
import Verif.Spec.Signature
import Verif.Lemmas.Keys
import Verif.Lemmas.ToySecp
import Verif.Lemmas.Script
import Verif.Props.Base58
import Verif.Props.Signature

/-! # Properties of `bitcoinx/keys.py` and `bitcoinx/aes.py` -/

namespace Bitcoinx
open Spec

/-! ## C76: every key made by the interface is valid -/

/-- Constructors and arithmetic return valid private keys only; a public key exists for each of them
and is valid. -/
theorem C76_private (L : Secp) (k : PrivateKey) (h : PrivValid k) :
    (∀ v k', k.add v = .ok k' → PrivValid k') ∧ (∀ v k', k.multiply v = .ok k' → PrivValid k') ∧
    ∃ p : PublicKey L, k.public_key L = .ok p ∧ PubValid p ∧ IsPublicKeyOf p k := by
  refine ⟨fun v k' hk => ?_, fun v k' hk => ?_, _, PrivateKey.public_key_ok L k h, L.pub_ne k h, rfl, rfl, rfl⟩
  · simp only [PrivateKey.add, bind_eq_ok] at hk
    obtain ⟨v', -, hk⟩ := hk
    unfold Secp.privkey_tweak_add at hk
    split at hk
    · cases hk
    · next s hs =>
      cases hk
      simp only at hs
      split at hs
      · next hc =>
        cases hs
        have hlt := Nat.mod_lt (be_bytes_to_int k.secret + be_bytes_to_int v') curve_order_pos
        refine ⟨beBytes_length _ _, ?_, ?_⟩ <;> simp only [beBytes32 _ hlt]
        · exact Nat.pos_of_ne_zero hc.2
        · exact hlt
      · cases hs
  · simp only [PrivateKey.multiply, bind_eq_ok] at hk
    obtain ⟨v', -, hk⟩ := hk
    unfold Secp.privkey_tweak_mul at hk
    split at hk
    · cases hk
    · next s hs =>
      cases hk
      simp only at hs
      split at hs
      · next hc =>
        cases hs
        have hlt := Nat.mod_lt (be_bytes_to_int k.secret * be_bytes_to_int v') curve_order_pos
        refine ⟨beBytes_length _ _, ?_, ?_⟩ <;> simp only [beBytes32 _ hlt]
        · rw [Nat.pos_iff_ne_zero]
          intro h0
          rcases (Nat.Prime.dvd_mul curve_order_prime).1 (Nat.dvd_of_mod_eq_zero h0) with hd | hd
          · exact absurd (Nat.le_of_dvd h.2.1 hd) (by have := h.2.2; omega)
          · exact absurd (Nat.le_of_dvd (Nat.pos_of_ne_zero hc.2) hd) (by omega)
        · exact hlt
      · cases hs

/-- The constructor accepts exactly the valid secrets. -/
theorem C76_new (s : Bytes) (c : Bool) (coin : Coin) :
    (∀ k, PrivateKey.new s c coin = .ok k ↔
      PrivValid k ∧ k = { secret := s, compressed := c, coin := coin }) ∧
    (∀ e, PrivateKey.new s c coin = .error e → e = .valueError) :=
  ⟨fun _ => PrivateKey.new_eq_ok, fun _ => PrivateKey.new_error⟩

/-- `from_int` makes the key with that number if it is in `1 .. CURVE_ORDER - 1`, and `to_int`
returns it. -/
theorem C76_from_int (v : Int) :
    (∀ k, PrivateKey.from_int v = .ok k → PrivValid k ∧ (k.to_int : Int) = v) ∧
    ((0 < v ∧ v < CURVE_ORDER) → ∃ k, PrivateKey.from_int v = .ok k) := by
  constructor
  · intro k hk
    simp only [PrivateKey.from_int, bind_eq_ok] at hk
    obtain ⟨s, hs, hk⟩ := hk
    obtain ⟨h1, rfl⟩ := PrivateKey.new_eq_ok.1 hk
    refine ⟨h1, ?_⟩
    simp only [int_to_be_bytes, Option.getD_some] at hs
    split at hs
    · cases hs
    · next h0 =>
      split at hs
      · next h2 =>
        cases hs
        simp only [PrivateKey.to_int, be_bytes_to_int_eq, beValue_beBytes _ _ h2]
        omega
      · cases hs
  · rintro ⟨h1, h2⟩
    have h0 : ¬ v < 0 := by omega
    have hlt : v.toNat < CURVE_ORDER := by omega
    refine ⟨{ secret := beBytes 32 v.toNat, compressed := true, coin := Bitcoin }, ?_⟩
    simp only [PrivateKey.from_int, int_to_be_bytes, Option.getD_some, h0, if_false,
      hlt.trans curve_order_lt, if_true, ok_bind']
    refine PrivateKey.new_eq_ok.2 ⟨⟨beBytes_length _ _, ?_, ?_⟩, rfl⟩ <;> simp only [beBytes32 _ hlt]
    · omega
    · exact hlt

/-- `from_arbitrary_bytes` reduces modulo the group order and fails only on multiples of it. -/
theorem C76_arbitrary (b : Bytes) :
    (be_bytes_to_int b % CURVE_ORDER ≠ 0 → ∃ k, PrivateKey.from_arbitrary_bytes b = .ok k ∧ PrivValid k ∧
      k.to_int = be_bytes_to_int b % CURVE_ORDER) ∧
    (be_bytes_to_int b % CURVE_ORDER = 0 → PrivateKey.from_arbitrary_bytes b = .error .valueError) := by
  have hlt := Nat.mod_lt (be_bytes_to_int b) curve_order_pos
  constructor
  · intro h
    obtain ⟨k, hk⟩ := (C76_from_int (be_bytes_to_int b % CURVE_ORDER : Nat)).2 (by omega)
    have := (C76_from_int _).1 k hk
    exact ⟨k, hk, this.1, by have := this.2; omega⟩
  · intro h
    rw [PrivateKey.from_arbitrary_bytes, h]
    have h1 : int_to_be_bytes ((0 : Nat) : Int) (some 32) = .ok (zeros 32) := by decide +kernel
    have h2 : ¬ (zeros 32).length ≠ KEY_SIZE := by decide +kernel
    have h3 : ¬ Secp.seckey_verify (zeros 32) = true := by decide +kernel
    simp only [PrivateKey.from_int, h1, ok_bind', PrivateKey.new, h2, h3, if_false]
    rfl

/-- No public key the interface returns is the point at infinity: those parsed, those recovered from
signatures, and sums, multiples and combinations, which bypass parsing. -/
theorem C76_public (L : Secp) :
    (∀ b (k : PublicKey L), PublicKey.from_bytes L b = .ok k → PubValid k) ∧
    (∀ x y (k : PublicKey L), PublicKey.from_point L x y = .ok k → PubValid k) ∧
    (∀ sig m h (k : PublicKey L), PublicKey.from_recoverable_signature L sig m h = .ok k → PubValid k) ∧
    (∀ sig m h (k : PublicKey L), PublicKey.from_signed_message L sig m h = .ok k → PubValid k) ∧
    (∀ (p k : PublicKey L) v, PubValid p → p.add v = .ok k → PubValid k) ∧
    (∀ (p k : PublicKey L) v, PubValid p → p.multiply v = .ok k → PubValid k) ∧
    (∀ (ps : List (PublicKey L)) k, PublicKey.combine_keys ps = .ok k → PubValid k) := by
  have hb : ∀ b (k : PublicKey L), PublicKey.from_bytes L b = .ok k → PubValid k := by
    intro b k h
    unfold PublicKey.from_bytes at h
    split at h
    · cases h
    · next p hp => cases h; exact L.parse_ne _ _ hp
  have hr : ∀ sig m h (k : PublicKey L), PublicKey.from_recoverable_signature L sig m h = .ok k → PubValid k := by
    intro sig m h k hk
    simp only [PublicKey.from_recoverable_signature, public_key_from_recoverable_signature, bind_eq_ok] at hk
    obtain ⟨e, -, p, ⟨⟨s, i⟩, -, hp⟩, hk⟩ := hk
    simp only at hp
    split at hp
    · cases hp
    · next q hq => cases hp; cases hk; exact L.recover_ne _ _ _ _ hq
  refine ⟨hb, ?_, hr, ?_, ?_, ?_, ?_⟩
  · intro x y k h
    simp only [PublicKey.from_point, bind_eq_ok] at h
    obtain ⟨_, -, _, -, h⟩ := h
    exact hb _ _ h
  · intro sig m h k hk
    cases h with
    | none => cases hk
    | some f =>
      simp only [PublicKey.from_signed_message, bind_eq_ok] at hk
      obtain ⟨_, -, _, -, hk⟩ := hk
      exact hr _ _ _ _ hk
  · intro p k v _ h
    simp only [PublicKey.add, bind_eq_ok] at h
    obtain ⟨v', -, h⟩ := h
    unfold Secp.pubkey_tweak_add at h
    simp only at h
    split at h
    · cases h
    · next q hq =>
      cases h
      split at hq
      · next hc => cases hq; exact hc.2
      · cases hq
  · intro p k v hp h
    simp only [PublicKey.multiply, bind_eq_ok] at h
    obtain ⟨v', -, h⟩ := h
    unfold Secp.pubkey_tweak_mul at h
    simp only at h
    split at h
    · cases h
    · next q hq =>
      cases h
      split at hq
      · next hc => cases hq; exact L.smul_gen_ne _ (Nat.pos_of_ne_zero hc.2) hc.1 _ hp
      · cases hq
  · intro ps k h
    unfold PublicKey.combine_keys at h
    split at h
    · cases h
    · next q qs =>
      split at h
      · cases h
      · next r hr =>
        cases h
        unfold Secp.pubkey_combine at hr
        split at hr
        · next hc => cases hr; exact hc
        · cases hr

/-- Sums are refused if they are infinity: of the generator and its negative, and by adding one less
than the order to it. -/
example (L : Secp) (c : Bool) :
    (⟨L.gen, c, Bitcoin⟩ : PublicKey L).add (beBytes 32 (CURVE_ORDER - 1)) = .error .valueError ∧
    PublicKey.combine_keys [(⟨L.gen, c, Bitcoin⟩ : PublicKey L), ⟨-L.gen, c, Bitcoin⟩] = .error .valueError := by
  have h0 : L.gen + (CURVE_ORDER - 1) • L.gen = 0 := by
    rw [← succ_nsmul', Nat.sub_add_cancel curve_order_pos, L.torsion]
  have h1 : be_bytes_to_int (beBytes 32 (CURVE_ORDER - 1)) = CURVE_ORDER - 1 := by decide +kernel
  constructor
  · have h2 : to_32_bytes (beBytes 32 (CURVE_ORDER - 1)) = .ok (beBytes 32 (CURVE_ORDER - 1)) := by
      decide +kernel
    have h3 : L.pubkey_tweak_add L.gen (beBytes 32 (CURVE_ORDER - 1)) = none := by
      simp [Secp.pubkey_tweak_add, h1, h0]
    simp [PublicKey.add, h2, h3, ok_bind']
  · simp [PublicKey.combine_keys, Secp.pubkey_combine]

/-- A key of any origin: 1 is the smallest, `CURVE_ORDER` is too large. -/
example : (∃ k, PrivateKey.from_int 1 = .ok k) ∧ (∀ k, PrivateKey.from_int CURVE_ORDER ≠ .ok k) := by
  refine ⟨(C76_from_int 1).2 (by decide +kernel), fun k hk => ?_⟩
  have := (C76_from_int _).1 k hk
  have h2 := this.1.2.2
  simp only [PrivateKey.to_int] at this
  omega

/-! ## C77: `from_random` -/

/-- The key returned is the first draw that is a valid secret; the draws before it are not. -/
theorem C77_first (draws : List Bytes) (k : PrivateKey) (rest : List Bytes) :
    PrivateKey.from_random draws = .ok (some (k, rest)) ↔
      ∃ bad, draws = bad ++ k.secret :: rest ∧ PrivValid k ∧ k.compressed = true ∧ k.coin = Bitcoin ∧
        ∀ s ∈ bad, ∀ c coin, ¬ PrivValid { secret := s, compressed := c, coin := coin } := by
  induction draws with
  | nil => simp [PrivateKey.from_random]
  | cons d ds ih =>
    rw [PrivateKey.from_random]
    cases hn : PrivateKey.new d true with
    | ok k' =>
      obtain ⟨h1, h2⟩ := PrivateKey.new_eq_ok.1 hn
      simp only [Except.ok.injEq, Option.some.injEq, Prod.mk.injEq]
      constructor
      · rintro ⟨rfl, rfl⟩
        exact ⟨[], by simp [h2], h1, by rw [h2], by rw [h2], by simp⟩
      · rintro ⟨bad, hb, hv, hc, hcoin, hbad⟩
        cases bad with
        | nil =>
          simp only [List.nil_append, List.cons.injEq] at hb
          refine ⟨?_, hb.2⟩
          rw [h2, hb.1, ← hc, ← hcoin]
        | cons b bs =>
          simp only [List.cons_append, List.cons.injEq] at hb
          exact absurd (hb.1 ▸ h2 ▸ h1) (hbad b (by simp) true Bitcoin)
    | error e =>
      have he := PrivateKey.new_error hn
      subst he
      simp only [show Err.isValueError .valueError = true from rfl, if_true]
      rw [ih]
      have hd : ∀ c coin, ¬ PrivValid { secret := d, compressed := c, coin := coin } := by
        intro c coin hv
        have : PrivateKey.new d true = .ok { secret := d, compressed := true, coin := Bitcoin } :=
          PrivateKey.new_eq_ok.2 ⟨hv, rfl⟩
        rw [hn] at this; cases this
      constructor
      · rintro ⟨bad, rfl, hv, hc, hcoin, hbad⟩
        refine ⟨d :: bad, by simp, hv, hc, hcoin, ?_⟩
        intro s hs
        rcases List.mem_cons.1 hs with rfl | hs
        · exact hd
        · exact hbad s hs
      · rintro ⟨bad, hb, hv, hc, hcoin, hbad⟩
        cases bad with
        | nil =>
          simp only [List.nil_append, List.cons.injEq] at hb
          rw [hb.1] at hd
          exact absurd hv (hd k.compressed k.coin)
        | cons b bs =>
          simp only [List.cons_append, List.cons.injEq] at hb
          exact ⟨bs, hb.2, hv, hc, hcoin, fun s hs => hbad s (by simp [hs])⟩

/-- No other outcome than a key or more drawing. -/
theorem C77_no_error (draws : List Bytes) (e : Err) : PrivateKey.from_random draws ≠ .error e := by
  induction draws with
  | nil => simp [PrivateKey.from_random]
  | cons d ds ih =>
    rw [PrivateKey.from_random]
    cases hn : PrivateKey.new d true with
    | ok k => simp
    | error e' =>
      rw [PrivateKey.new_error hn]
      simpa only [show Err.isValueError .valueError = true from rfl, if_true] using ih

example : PrivateKey.from_random [zeros 32, zeros 31 ++ [7], []] =
    .ok (some ({ secret := zeros 31 ++ [7], compressed := true, coin := Bitcoin }, [[]])) :=
  (C77_first _ _ _).2 ⟨[zeros 32], rfl, by unfold PrivValid; decide +kernel, rfl, by dsimp only, by
    intro s hs c coin hv
    rw [List.mem_singleton.1 hs] at hv
    exact absurd hv.2.1 (show ¬ 0 < be_bytes_to_int (zeros 32) by decide +kernel)⟩

/-! ## C57: WIF -/

theorem find_coin (w : UInt8) (coin : Coin) (hc : coin ∈ all_coins) (hw : coin.WIF_byte = w) :
    ∃ c', Coin.from_WIF_byte w = .ok c' ∧ c' ∈ all_coins ∧ c'.WIF_byte = w := by
  unfold Coin.from_WIF_byte
  cases hf : all_coins.find? (fun coin => w == coin.WIF_byte) with
  | none =>
    have := List.find?_eq_none.1 hf coin hc
    simp [hw] at this
  | some c' =>
    refine ⟨c', rfl, List.mem_of_find?_eq_some hf, ?_⟩
    have := List.find?_some hf
    exact (beq_iff_eq.1 this).symm

theorem pack_byte_uint8 (w : UInt8) : pack_byte (w.toNat : Nat) = .ok [w] := by
  rw [pack_byte_nat w.toNat_lt]; simp

theorem to_WIF_eq (H : Hashes) (k : PrivateKey) (c : Option Bool) (coin : Option Coin) :
    k.to_WIF H c coin = .ok (base58_encode_check H ((coin.getD k.coin).WIF_byte :: (k.secret ++
      if c.getD k.compressed then [0x01] else []))) := by
  unfold PrivateKey.to_WIF
  have h1 : pack_byte (0x01 : Int) = .ok [0x01] := by decide +kernel
  simp only [pack_byte_uint8, ok_bind', h1, pure_ok']
  split <;> simp

theorem wif_bytes : ∀ coin ∈ all_coins, coin.WIF_byte ≠ 0 := by decide +kernel

/-- A key read from its own WIF text, for any flag and coin, has the same secret, the flag, and a
coin with that version byte; `from_text` takes the text for WIF. -/
theorem C57_roundtrip (H : Hashes) (k : PrivateKey) (h : PrivValid k) (c : Option Bool) (coin : Option Coin)
    (hcoin : coin.getD k.coin ∈ all_coins) :
    ∃ t k', k.to_WIF H c coin = .ok t ∧ PrivateKey.from_WIF H t = .ok k' ∧
      PrivateKey.from_text H t = .ok k' ∧ k'.secret = k.secret ∧ k'.compressed = c.getD k.compressed ∧
      k'.coin ∈ all_coins ∧ k'.coin.WIF_byte = (coin.getD k.coin).WIF_byte := by
  obtain ⟨c', h1, h2, h3⟩ := find_coin _ _ hcoin rfl
  generalize hw : (coin.getD k.coin).WIF_byte = w at *
  have hw0 : w ≠ 0 := hw ▸ wif_bytes _ hcoin
  generalize hcc : c.getD k.compressed = cc
  have hs := h.1
  have key : PrivateKey.from_WIF H (base58_encode_check H (w :: (k.secret ++ if cc then [0x01] else []))) =
      .ok { secret := k.secret, compressed := cc, coin := c' } := by
    unfold PrivateKey.from_WIF
    rw [(C09_roundtrip H _ []).1]
    have hl : (w :: (k.secret ++ if cc then [0x01] else [])).length = if cc then 34 else 33 := by
      cases cc <;> simp [hs]
    have hc : (w :: (k.secret ++ if cc then [0x01] else [])).length = 33 ∨
        ((w :: (k.secret ++ if cc then [0x01] else [])).length = 34 ∧
          (w :: (k.secret ++ if cc then [0x01] else [])).getLastD 0 = 0x01) := by
      cases cc with
      | false => exact .inl hl
      | true =>
        refine .inr ⟨hl, ?_⟩
        simp only [if_true]
        rw [← List.cons_append, List.getLastD_concat]
    simp only [ok_bind', hc, if_true, List.headD_cons, h1]
    have hsl : slice (w :: (k.secret ++ if cc then [0x01] else [])) 1 33 = k.secret := by
      unfold slice
      rw [List.take_succ_cons, List.drop_succ_cons, List.drop_zero,
        List.take_append_of_le_length (by omega), List.take_of_length_le (by omega)]
    have hb : ((w :: (k.secret ++ if cc then [0x01] else [])).length == 34) = cc := by
      rw [hl]; cases cc <;> rfl
    rw [hsl, hb]
    exact PrivateKey.new_eq_ok.2 ⟨h, rfl⟩
  refine ⟨_, _, by rw [to_WIF_eq, hw, hcc], key, ?_, rfl, rfl, h2, h3⟩
  generalize ht : base58_encode_check H (w :: (k.secret ++ if cc then [0x01] else [])) = t at *
  have hchk : ∀ x, ((H.double_sha256 x).take 4).length = 4 := by
    intro x
    rw [List.length_take, Hashes.double_sha256, H.sha256_length]; rfl
  have hle : t.length ≤ 54 := by
    rw [← ht, base58_encode_check]
    refine (base58_length_le _).trans ?_
    rw [List.length_append, hchk]
    cases cc <;> simp [hs]
  have hge : 30 < t.length := by
    rw [← ht, base58_encode_check]
    apply base58_lt_length
    rw [List.cons_append, beValue]
    have hpos : 1 ≤ w.toNat := by
      rw [Nat.one_le_iff_ne_zero]
      intro h0
      exact hw0 (UInt8.toNat_inj.1 (by simpa using h0))
    have hlen : 36 ≤ (k.secret ++ (if cc then [0x01] else []) ++
        List.take 4 (H.double_sha256 (w :: (k.secret ++ if cc then [0x01] else [])))).length := by
      rw [List.length_append, List.length_append, hchk]; omega
    calc 58 ^ 30 ≤ 256 ^ 36 := by norm_num
      _ ≤ 256 ^ _ := Nat.pow_le_pow_right (by norm_num) hlen
      _ ≤ w.toNat * 256 ^ _ := Nat.le_mul_of_pos_left _ hpos
      _ ≤ _ := Nat.le_add_right _ _
  have c1 : ¬ t.length = 64 := by omega
  have c2 : ¬ is_minikey H t = true := by
    have e1 : (t.length == 22) = false := beq_false_of_ne (by omega)
    have e2 : (t.length == 30) = false := beq_false_of_ne (by omega)
    simp [is_minikey, e1, e2]
  simp only [PrivateKey.from_text, c1, c2, if_false]
  exact key

/-- Any WIF text accepted is the WIF text of the key returned; whatever is refused raises a
`ValueError`. -/
theorem C57_accepts (H : Hashes) (t : Str) :
    (∀ k, PrivateKey.from_WIF H t = .ok k → PrivValid k ∧ k.coin ∈ all_coins ∧ k.to_WIF H = .ok t) ∧
    (∀ e, PrivateKey.from_WIF H t = .error e → e.isValueError = true) := by
  constructor
  · intro k hk
    simp only [PrivateKey.from_WIF, bind_eq_ok] at hk
    obtain ⟨raw, h1, hk⟩ := hk
    have ht := (C09_check_iff H t).1 raw |>.1 h1
    split at hk
    · next hc =>
      simp only [bind_eq_ok] at hk
      obtain ⟨coin, h2, hk⟩ := hk
      obtain ⟨hv, hk'⟩ := PrivateKey.new_eq_ok.1 hk
      subst hk'
      unfold Coin.from_WIF_byte at h2
      split at h2
      · next c' hf =>
        cases h2
        refine ⟨hv, List.mem_of_find?_eq_some hf, ?_⟩
        rw [to_WIF_eq, ht]
        have hw : coin.WIF_byte = raw.headD 0 := by
          have := List.find?_some hf
          exact (beq_iff_eq.1 this).symm
        simp only [Option.getD_none, hw]
        suffices e : (raw.headD 0 :: (slice raw 1 33 ++ if (raw.length == 34) = true then [0x01] else [])) = raw by
          rw [e]
        clear hw hf hv hk ht h1
        cases raw with
        | nil => simp at hc
        | cons w r =>
          have e1 : slice (w :: r) 1 33 = r.take 32 := by simp [slice]
          rw [e1, List.headD_cons]
          congr 1
          rcases hc with hc | ⟨hc, hl⟩
          · have e2 : ((w :: r).length == 34) = false := by rw [hc]; rfl
            rw [e2]
            simp only [List.length_cons] at hc
            simp [List.take_of_length_le (show r.length ≤ 32 by omega)]
          · have e2 : ((w :: r).length == 34) = true := by rw [hc]; rfl
            rw [e2]
            simp only [List.length_cons] at hc
            have hrne : r ≠ [] := by intro e; rw [e] at hc; cases hc
            obtain ⟨i, x, rfl⟩ := List.eq_nil_or_concat r |>.resolve_left hrne
            rw [List.concat_eq_append, ← List.cons_append, List.getLastD_concat] at hl
            rw [List.concat_eq_append] at hc ⊢
            simp only [List.length_append, List.length_singleton] at hc
            subst hl
            rw [List.take_append_of_le_length (by omega), List.take_of_length_le (by omega)]
            rfl
      · cases h2
    · cases hk
  · intro e he
    simp only [PrivateKey.from_WIF, bind_eq_error] at he
    rcases he with he | ⟨raw, -, he⟩
    · have hbase : e = .base58Error := by
        by_contra hne
        by_cases hp : ∃ p, t = base58_encode_check H p
        · obtain ⟨p, rfl⟩ := hp
          rw [(C09_roundtrip H p []).1] at he; cases he
        · rw [(C09_check_iff H t).2 hp] at he; cases he; exact hne rfl
      rw [hbase]; rfl
    · split at he
      · simp only [bind_eq_error] at he
        rcases he with he | ⟨coin, -, he⟩
        · unfold Coin.from_WIF_byte at he
          split at he <;> cases he
          rfl
        · rw [PrivateKey.new_error he]; rfl
      · cases he; rfl

/-- The hex form of a key is taken for hex by `from_text`, a minikey for a minikey. -/
theorem C57_text (H : Hashes) (k : PrivateKey) (h : PrivValid k) (m : Str) (hm : is_minikey H m = true) :
    PrivateKey.from_text H k.to_hex = .ok { k with compressed := true, coin := Bitcoin } ∧
    PrivateKey.from_text H m = PrivateKey.new (H.sha256 (utf8 m)) false := by
  constructor
  · have hl : k.to_hex.length = 64 := by rw [PrivateKey.to_hex, hex_length, h.1]
    simp only [PrivateKey.from_text, hl, if_true, PrivateKey.from_hex]
    rw [PrivateKey.to_hex, fromhex_hex, ok_bind']
    exact PrivateKey.new_eq_ok.2 ⟨h, rfl⟩
  · have c1 : ¬ m.length = 64 := by
      intro e
      simp [is_minikey, e] at hm
    simp [PrivateKey.from_text, c1, hm, PrivateKey.from_minikey]

/-- Whatever `from_text` returns is a valid key, and its failures are `ValueError`s; `from_minikey`
accepts exactly the minikeys whose hash is a valid secret, and makes an uncompressed key of it. -/
theorem C57_text_total (H : Hashes) (t : Str) :
    (∀ k, PrivateKey.from_text H t = .ok k → PrivValid k) ∧
    (∀ e, PrivateKey.from_text H t = .error e → e.isValueError = true) ∧
    (∀ k, PrivateKey.from_minikey H t = .ok k ↔ IsMinikey H.sha256 t ∧ PrivValid k ∧
      k = { secret := H.sha256 (utf8 t), compressed := false, coin := Bitcoin }) := by
  have mini : ∀ k, PrivateKey.from_minikey H t = .ok k ↔ IsMinikey H.sha256 t ∧ PrivValid k ∧
      k = { secret := H.sha256 (utf8 t), compressed := false, coin := Bitcoin } := by
    intro k
    rw [← C10_is_minikey]
    unfold PrivateKey.from_minikey
    by_cases h : is_minikey H t = true
    · rw [if_neg (not_not.2 h), PrivateKey.new_eq_ok]
      exact ⟨fun a => ⟨h, a⟩, fun a => a.2⟩
    · rw [if_pos h]
      exact ⟨fun a => (by cases a), fun a => absurd a.1 h⟩
  refine ⟨fun k hk => ?_, fun e he => ?_, mini⟩
  · unfold PrivateKey.from_text at hk
    split at hk
    · simp only [PrivateKey.from_hex, bind_eq_ok] at hk
      obtain ⟨_, _, hk⟩ := hk
      exact (PrivateKey.new_eq_ok.1 hk).1
    · split at hk
      · exact ((mini k).1 hk).2.1
      · exact ((C57_accepts H t).1 k hk).1
  · unfold PrivateKey.from_text at he
    split at he
    · simp only [PrivateKey.from_hex, bind_eq_error] at he
      rcases he with he | ⟨_, _, he⟩
      · rw [fromhex_error he]; rfl
      · rw [PrivateKey.new_error he]; rfl
    · split at he
      · next hm =>
        rw [PrivateKey.from_minikey, if_neg (not_not.2 hm)] at he
        rw [PrivateKey.new_error he]; rfl
      · exact (C57_accepts H t).2 e he

example : PrivValid { secret := zeros 31 ++ [1], compressed := true, coin := BitcoinTestnet } ∧
    BitcoinTestnet ∈ all_coins := ⟨by unfold PrivValid; decide +kernel, by simp [all_coins]⟩

end Bitcoinx
