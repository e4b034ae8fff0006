import Verif.Props.Bip32
import Verif.Props.KeySign
import Verif.Props.Address

/-! # Properties of extended keys and their text -/

namespace Bitcoinx
open Spec

/-! ## C65: extended key strings -/

theorem xver_length : ∀ coin ∈ all_coins, coin.xprv_verbytes.length = 4 ∧ coin.xpub_verbytes.length = 4 := by
  decide +kernel

theorem xver_found : ∀ coin ∈ all_coins,
    (∃ c ∈ all_coins, Coin.lookup_xver_bytes coin.xprv_verbytes = .ok (c, false) ∧
      c.xprv_verbytes = coin.xprv_verbytes ∧ c.xpub_verbytes = coin.xpub_verbytes) ∧
    (∃ c ∈ all_coins, Coin.lookup_xver_bytes coin.xpub_verbytes = .ok (c, true) ∧
      c.xprv_verbytes = coin.xprv_verbytes ∧ c.xpub_verbytes = coin.xpub_verbytes) := by
  decide +kernel

theorem lookupXver_spec (v : Bytes) (coins : List Coin) :
    (∀ c b, lookupXver v coins = .ok (c, b) → c ∈ coins ∧ v = if b then c.xpub_verbytes else c.xprv_verbytes) ∧
    (∀ e, lookupXver v coins = .error e → e = .valueError) := by
  induction coins with
  | nil => exact ⟨fun c b h => (by cases h), fun e h => by cases h; rfl⟩
  | cons x xs ih =>
    rw [lookupXver]
    by_cases h1 : v = x.xpub_verbytes
    · rw [if_pos h1]
      refine ⟨fun c b h => ?_, fun e h => by cases h⟩
      cases h
      exact ⟨by simp, h1⟩
    · rw [if_neg h1]
      by_cases h2 : v = x.xprv_verbytes
      · rw [if_pos h2]
        refine ⟨fun c b h => ?_, fun e h => by cases h⟩
        cases h
        exact ⟨by simp, h2⟩
      · rw [if_neg h2]
        exact ⟨fun c b h => ⟨List.mem_cons_of_mem _ (ih.1 c b h).1, (ih.1 c b h).2⟩, ih.2⟩

/-- The bytes of an extended key, in order. -/
def ekeyBytes (v : Bytes) (depth : UInt8) (fp n cc key : Bytes) : Bytes := v ++ [depth] ++ fp ++ n ++ cc ++ key

theorem ekey_parts (v : Bytes) (depth : UInt8) (fp n cc key : Bytes) (hv : v.length = 4) (hf : fp.length = 4)
    (hn : n.length = 4) (hc : cc.length = 32) (hk : key.length = 33) :
    (ekeyBytes v depth fp n cc key).length = 78 ∧
    (ekeyBytes v depth fp n cc key).take 4 = v ∧ (ekeyBytes v depth fp n cc key).getD 4 0 = depth ∧
    slice (ekeyBytes v depth fp n cc key) 5 9 = fp ∧ slice (ekeyBytes v depth fp n cc key) 9 13 = n ∧
    slice (ekeyBytes v depth fp n cc key) 13 45 = cc ∧ (ekeyBytes v depth fp n cc key).drop 45 = key := by
  have e : ekeyBytes v depth fp n cc key = v ++ depth :: (fp ++ (n ++ (cc ++ key))) := by simp [ekeyBytes]
  rw [e]
  refine ⟨by simp [hv, hf, hn, hc, hk], ?_, ?_, ?_, ?_, ?_, ?_⟩
  · rw [List.take_append_of_le_length (by omega), List.take_of_length_le (by omega)]
  · rw [List.getD_eq_getElem?_getD, List.getElem?_append_right (by omega), hv]
    rfl
  · rw [slice_append_right _ _ _ _ (by omega), hv, show depth :: (fp ++ (n ++ (cc ++ key))) = [depth] ++ (fp ++ (n ++ (cc ++ key))) from rfl,
      slice_append_right _ _ _ _ (by simp), slice_append_left _ _ _ _ (by simp [hf])]
    simp [slice, hf]
  · rw [slice_append_right _ _ _ _ (by omega), hv, show depth :: (fp ++ (n ++ (cc ++ key))) = [depth] ++ (fp ++ (n ++ (cc ++ key))) from rfl,
      slice_append_right _ _ _ _ (by simp), slice_append_right _ _ _ _ (by simp [hf]), slice_append_left _ _ _ _ (by simp [hf, hn])]
    simp [slice, hf, hn]
  · rw [slice_append_right _ _ _ _ (by omega), hv, show depth :: (fp ++ (n ++ (cc ++ key))) = [depth] ++ (fp ++ (n ++ (cc ++ key))) from rfl,
      slice_append_right _ _ _ _ (by simp), slice_append_right _ _ _ _ (by simp [hf]), slice_append_right _ _ _ _ (by simp [hf, hn]),
      slice_append_left _ _ _ _ (by simp [hf, hn, hc])]
    simp [slice, hf, hn, hc]
  · rw [show v ++ depth :: (fp ++ (n ++ (cc ++ key))) = (v ++ depth :: (fp ++ (n ++ cc))) ++ key by simp]
    exact List.drop_left' (by simp [hv, hf, hn, hc])

theorem ekey_split (b : Bytes) (h : b.length = 78) :
    b = ekeyBytes (b.take 4) (b.getD 4 0) (slice b 5 9) (slice b 9 13) (slice b 13 45) (b.drop 45) := by
  have d : ∀ i j : Nat, i ≤ j → j ≤ 78 → b.drop i = slice b i j ++ b.drop j := by
    intro i j hij hj
    rw [slice, ← List.drop_append_of_le_length (by rw [List.length_take]; omega), List.take_append_drop]
  have d4 : b.drop 4 = b.getD 4 0 :: b.drop 5 := by
    rw [List.getD_eq_getElem?_getD, List.getElem?_eq_getElem (by omega), Option.getD_some]
    exact List.drop_eq_getElem_cons (by omega)
  rw [show ekeyBytes (b.take 4) (b.getD 4 0) (slice b 5 9) (slice b 9 13) (slice b 13 45) (b.drop 45) =
    b.take 4 ++ b.getD 4 0 :: (slice b 5 9 ++ (slice b 9 13 ++ (slice b 13 45 ++ b.drop 45))) by simp [ekeyBytes],
    ← d 13 45 (by omega) (by omega), ← d 9 13 (by omega) (by omega), ← d 5 9 (by omega) (by omega), ← d4]
  exact (List.take_append_drop 4 b).symm

theorem extended_key_eq (d : BIP32Derivation) (h : DerivationValid d) (coin : Coin) (raw v key : Bytes)
    (hr : (raw.length = 32 ∧ v = coin.xprv_verbytes ∧ key = 0 :: raw) ∨ (raw.length = 33 ∧ v = coin.xpub_verbytes ∧ key = raw)) :
    d.extended_key coin raw = (if d.depth ≤ 255 then
      .ok (ekeyBytes v (UInt8.ofNat d.depth.toNat) d.parent_fingerprint (beBytes 4 d.n.toNat) d.chain_code key)
      else .error .structError) := by
  obtain ⟨h1, h2, h3, h4, h5⟩ := h
  obtain ⟨n, hn⟩ := Int.eq_ofNat_of_zero_le h5
  have hp : d.extended_key coin raw = (do
      return v ++ (← pack_byte d.depth) ++ d.parent_fingerprint ++ (← pack_be_uint32 d.n) ++ d.chain_code ++ key) := by
    rw [BIP32Derivation.extended_key]
    rcases hr with ⟨hl, rfl, rfl⟩ | ⟨hl, rfl, rfl⟩
    · simp only [hl, if_true, List.length_cons]
      rfl
    · simp only [hl, show ¬ (33 = 32) by omega, if_false]
      rfl
  rw [hp, pack_be_uint32_ok d.n h3 h4, hn]
  by_cases hd : n < 256
  · rw [pack_byte_nat hd, if_pos (by omega)]
    rfl
  · have : pack_byte (n : Int) = .error .structError := by
      have : ¬ ((0 : Int) ≤ n ∧ (n : Int) < 256 ^ 1) := by omega
      rw [pack_byte, packU]
      exact if_neg this
    rw [this, if_neg (by omega)]
    rfl

theorem BIP32PrivateKey.extended_key_eq (k : BIP32PrivateKey) (h : XprvValid k) :
    k.extended_key = (if k.derivation.depth ≤ 255 then
      .ok (ekeyBytes k.key.coin.xprv_verbytes (UInt8.ofNat k.derivation.depth.toNat) k.derivation.parent_fingerprint
        (beBytes 4 k.derivation.n.toNat) k.derivation.chain_code (0 :: k.key.secret)) else .error .structError) :=
  Bitcoinx.extended_key_eq _ h.2.2 _ _ _ _ (.inl ⟨h.1.1, rfl, rfl⟩)

theorem BIP32PublicKey.extended_key_eq {L : Secp} (k : BIP32PublicKey L) (h : XpubValid k) :
    k.extended_key = (if k.derivation.depth ≤ 255 then
      .ok (ekeyBytes k.key.coin.xpub_verbytes (UInt8.ofNat k.derivation.depth.toNat) k.derivation.parent_fingerprint
        (beBytes 4 k.derivation.n.toNat) k.derivation.chain_code (L.serialize true k.key.point)) else .error .structError) := by
  rw [BIP32PublicKey.extended_key, h.bytes]
  exact Bitcoinx.extended_key_eq _ h.2.2 _ _ _ _ (.inr ⟨L.serialize_length true _, rfl, rfl⟩)

theorem unpack_be_uint32_beBytes (n : Int) (h0 : 0 ≤ n) (h1 : n < 2 ^ 32) :
    unpack_be_uint32 (beBytes 4 n.toNat) = .ok n := by
  obtain ⟨m, rfl⟩ := Int.eq_ofNat_of_zero_le h0
  have hm : m < 256 ^ 4 := by
    have : (m : Int) < 4294967296 := h1
    norm_num; omega
  rw [Int.toNat_natCast, unpack_be_uint32, unpackUBE, beBytes, List.reverse_reverse]
  exact unpackU_leBytes 4 m hm

theorem unpack_be_uint32_ok (b : Bytes) (h : b.length = 4) :
    unpack_be_uint32 b = .ok (beValue b : Int) ∧ (beValue b : Int) < 2 ^ 32 := by
  have hlt : beValue b < 2 ^ 32 := by have := beValue_lt b; rw [h] at this; exact this
  refine ⟨?_, by exact_mod_cast hlt⟩
  have := unpack_be_uint32_beBytes (beValue b) (by omega) (by exact_mod_cast hlt)
  rw [Int.toNat_natCast] at this
  rwa [show beBytes 4 (beValue b) = b by rw [← h]; exact beBytes_beValue b] at this

/-- The raw form of an extended key is 78 bytes, in BIP32's order. -/
theorem C65_raw (k : BIP32PrivateKey) (h : XprvValid k) (L : Secp) (p : BIP32PublicKey L) (hp : XpubValid p) :
    (∀ b, k.extended_key = .ok b → k.key.coin ∈ all_coins → b.length = 78) ∧
    (∀ b, p.extended_key = .ok b → p.key.coin ∈ all_coins → b.length = 78) := by
  constructor
  · intro b hb hc
    rw [BIP32PrivateKey.extended_key_eq k h] at hb
    split at hb
    · rw [← Except.ok.inj hb]
      exact (ekey_parts _ _ _ _ _ _ (xver_length _ hc).1 h.2.2.2.1 (beBytes_length _ _) h.2.2.1 (by simp [h.1.1])).1
    · cases hb
  · intro b hb hc
    rw [BIP32PublicKey.extended_key_eq p hp] at hb
    split at hb
    · rw [← Except.ok.inj hb]
      exact (ekey_parts _ _ _ _ _ _ (xver_length _ hc).2 hp.2.2.2.1 (beBytes_length _ _) hp.2.2.1 (L.serialize_length _ _)).1
    · cases hb

theorem derivation_eta (d : BIP32Derivation) (h : DerivationValid d) (hd : d.depth ≤ 255) :
    { chain_code := d.chain_code, n := d.n, depth := ((UInt8.ofNat d.depth.toNat).toNat : Int), parent_fingerprint := d.parent_fingerprint } = d := by
  have : ((UInt8.ofNat d.depth.toNat).toNat : Int) = d.depth := by
    have := h.2.2.2.2
    rw [toNat_ofNat' (by omega)]
    omega
  rw [this]

/-- The text of an extended private key reads back as that key, with a coin that has the same version bytes. -/
theorem C65_private (H : Hashes) (L : Secp) (k : BIP32PrivateKey) (h : XprvValid k) (hd : k.derivation.depth ≤ 255)
    (hc : k.key.coin ∈ all_coins) :
    ∃ t coin, k.to_extended_key_string H = .ok t ∧ coin ∈ all_coins ∧ SameVersions coin k.key.coin ∧
      bip32_key_from_string H L t = .ok (.priv (withCoin k coin)) := by
  obtain ⟨⟨c, hc1, hc2, hc3⟩, _⟩ := xver_found _ hc
  obtain ⟨p1, p2, p3, p4, p5, p6, p7⟩ := ekey_parts k.key.coin.xprv_verbytes (UInt8.ofNat k.derivation.depth.toNat)
    k.derivation.parent_fingerprint (beBytes 4 k.derivation.n.toNat) k.derivation.chain_code (0 :: k.key.secret)
    (xver_length _ hc).1 h.2.2.2.1 (beBytes_length _ _) h.2.2.1 (by simp [h.1.1])
  have he := BIP32PrivateKey.extended_key_eq k h
  rw [if_pos hd] at he
  generalize hb : ekeyBytes k.key.coin.xprv_verbytes (UInt8.ofNat k.derivation.depth.toNat)
    k.derivation.parent_fingerprint (beBytes 4 k.derivation.n.toNat) k.derivation.chain_code (0 :: k.key.secret) = b at *
  refine ⟨base58_encode_check H b, c, by rw [BIP32PrivateKey.to_extended_key_string, he]; rfl, hc1, hc3, ?_⟩
  have h45 : b.getD 45 0 = 0 ∧ b.drop 46 = k.key.secret := by
    rw [show b.drop 46 = (b.drop 45).drop 1 by rw [List.drop_drop], p7,
      show b.getD 45 0 = (b.drop 45).getD 0 0 by simp [List.getD_eq_getElem?_getD], p7]
    exact ⟨rfl, rfl⟩
  rw [bip32_key_from_string, (C09_roundtrip H b b).1, ok_bind', from_extended_key, if_neg (not_not.2 p1), p2, hc2,
    ok_bind', p5, unpack_be_uint32_beBytes _ h.2.2.2.2.1 h.2.2.2.2.2.1]
  dsimp only
  rw [ok_bind']
  rw [if_neg (by decide), if_neg (not_not.2 h45.1), h45.2, p3, p4, p6, derivation_eta _ h.2.2 hd, BIP32PrivateKey.new]
  have hn : PrivateKey.new k.key.secret true c = .ok { secret := k.key.secret, compressed := true, coin := c } :=
    PrivateKey.new_eq_ok.2 ⟨h.1, rfl⟩
  rw [hn, withCoin, h.2.1]
  rfl

/-- The same for public keys. -/
theorem C65_public (H : Hashes) (L : Secp) (k : BIP32PublicKey L) (h : XpubValid k) (hd : k.derivation.depth ≤ 255)
    (hc : k.key.coin ∈ all_coins) :
    ∃ t coin, k.to_extended_key_string H = .ok t ∧ coin ∈ all_coins ∧ SameVersions coin k.key.coin ∧
      bip32_key_from_string H L t = .ok (.pub (withCoinPub k coin)) := by
  obtain ⟨_, ⟨c, hc1, hc2, hc3⟩⟩ := xver_found _ hc
  obtain ⟨p1, p2, p3, p4, p5, p6, p7⟩ := ekey_parts k.key.coin.xpub_verbytes (UInt8.ofNat k.derivation.depth.toNat)
    k.derivation.parent_fingerprint (beBytes 4 k.derivation.n.toNat) k.derivation.chain_code (L.serialize true k.key.point)
    (xver_length _ hc).2 h.2.2.2.1 (beBytes_length _ _) h.2.2.1 (L.serialize_length _ _)
  have he := BIP32PublicKey.extended_key_eq k h
  rw [if_pos hd] at he
  generalize hb : ekeyBytes k.key.coin.xpub_verbytes (UInt8.ofNat k.derivation.depth.toNat)
    k.derivation.parent_fingerprint (beBytes 4 k.derivation.n.toNat) k.derivation.chain_code (L.serialize true k.key.point) = b at *
  refine ⟨base58_encode_check H b, c, by rw [BIP32PublicKey.to_extended_key_string, he]; rfl, hc1, hc3, ?_⟩
  rw [bip32_key_from_string, (C09_roundtrip H b b).1, ok_bind', from_extended_key, if_neg (not_not.2 p1), p2, hc2,
    ok_bind', p5, unpack_be_uint32_beBytes _ h.2.2.2.2.1 h.2.2.2.2.2.1]
  dsimp only
  rw [ok_bind']
  rw [if_pos rfl, p7, p3, p4, p6, derivation_eta _ h.2.2 hd]
  have hn := (C78_bytes L k.key h.1 (some true)).1
  rw [PublicKey.to_bytes, Option.getD_some] at hn
  rw [hn, withCoinPub, h.2.1]
  rfl

/-- The text of a key of either kind. -/
def keyText (H : Hashes) {L : Secp} : BIP32Key L → Res Str
  | .priv k => k.to_extended_key_string H
  | .pub k => k.to_extended_key_string H

/-- What a key of either kind has to satisfy. -/
def KeyValid {L : Secp} : BIP32Key L → Prop
  | .priv k => XprvValid k ∧ k.derivation.depth ≤ 255 ∧ k.key.coin ∈ all_coins
  | .pub k => XpubValid k ∧ k.derivation.depth ≤ 255 ∧ k.key.coin ∈ all_coins

/-- Every text accepted is the text of the valid key returned; other texts raise `ValueError` or a subclass. -/
theorem C65_accepts (H : Hashes) (L : Secp) (t : Str) :
    (∀ key, bip32_key_from_string H L t = .ok key → KeyValid key ∧ keyText H key = .ok t) ∧
    (∀ e, bip32_key_from_string H L t = .error e → e.isValueError = true) := by
  rw [bip32_key_from_string]
  cases hb : base58_decode_check H t with
  | error e =>
    refine ⟨fun key h => (by cases h), fun e' h => ?_⟩
    cases h
    rw [base58_decode_check_error hb]
    rfl
  | ok b =>
    have ht := ((C09_check_iff H t).1 b).1 hb
    rw [ok_bind', from_extended_key]
    by_cases hl : b.length = 78
    · rw [if_neg (not_not.2 hl)]
      cases hx : Coin.lookup_xver_bytes (b.take 4) with
      | error e =>
        refine ⟨fun key h => (by cases h), fun e' h => ?_⟩
        cases h
        rw [(lookupXver_spec _ _).2 _ hx]
        rfl
      | ok cb =>
        obtain ⟨coin, ispub⟩ := cb
        obtain ⟨hcoin, hver⟩ := (lookupXver_spec _ _).1 _ _ hx
        have hn := unpack_be_uint32_ok (slice b 9 13) (slice_length b 9 13 (by omega))
        have hd : DerivationValid { chain_code := slice b 13 45, n := (beValue (slice b 9 13) : Int), depth := ((b.getD 4 0).toNat : Int), parent_fingerprint := slice b 5 9 } :=
          ⟨slice_length b 13 45 (by omega), slice_length b 5 9 (by omega), Int.natCast_nonneg _, hn.2, Int.natCast_nonneg _⟩
        have hdep : ((b.getD 4 0).toNat : Int) ≤ 255 := by have := (b.getD 4 0).toNat_lt; omega
        have hsplit := ekey_split b hl
        have hbe : beBytes 4 (beValue (slice b 9 13)) = slice b 9 13 := by
          have := beBytes_beValue (slice b 9 13)
          rwa [slice_length b 9 13 (by omega)] at this
        have hde : UInt8.ofNat (((b.getD 4 0).toNat : Int)).toNat = b.getD 4 0 := by
          rw [Int.toNat_natCast]; simp
        rw [ok_bind', hn.1]
        dsimp only
        rw [ok_bind']
        cases ispub with
        | true =>
          rw [if_pos rfl]
          cases hp : PublicKey.from_bytes L (b.drop 45) with
          | error e =>
            refine ⟨fun key h => (by cases h), fun e' h => ?_⟩
            cases h
            rw [(C78_accepts L _).2 _ hp]
            rfl
          | ok p =>
            refine ⟨fun key h => ?_, fun e' h => by cases h⟩
            rw [← Except.ok.inj h]
            obtain ⟨q1, q2, q3⟩ := (C78_accepts L _).1 _ hp
            have h33 : (b.drop 45).length = 33 := by rw [List.length_drop, hl]
            have hv : XpubValid (BIP32PublicKey.new p.point { chain_code := slice b 13 45, n := (beValue (slice b 9 13) : Int), depth := ((b.getD 4 0).toNat : Int), parent_fingerprint := slice b 5 9 } coin) :=
              ⟨q1, rfl, hd⟩
            refine ⟨⟨hv, hdep, hcoin⟩, ?_⟩
            have hser : L.serialize true p.point = b.drop 45 := by
              have hlen := q3 (.inl h33)
              rw [PublicKey.to_bytes, Option.getD_none] at hlen
              cases hpc : p.compressed with
              | true => rw [← hlen, hpc]
              | false =>
                rw [hpc] at hlen
                have := L.serialize_length false p.point
                rw [hlen, h33] at this
                cases this
            rw [keyText, BIP32PublicKey.to_extended_key_string, BIP32PublicKey.extended_key_eq _ hv]
            rw [BIP32PublicKey.new]
            dsimp only
            rw [if_pos hdep, hser, hde, Int.toNat_natCast, hbe, ht]
            rw [if_pos rfl] at hver
            rw [← hver, ← hsplit]
            rfl
        | false =>
          rw [if_neg (by decide)]
          by_cases h45 : b.getD 45 0 = 0
          · rw [if_neg (not_not.2 h45), BIP32PrivateKey.new]
            cases hp : PrivateKey.new (b.drop 46) true coin with
            | error e =>
              refine ⟨fun key h => (by cases h), fun e' h => ?_⟩
              cases h
              rw [PrivateKey.new_error hp]
              rfl
            | ok k =>
              refine ⟨fun key h => ?_, fun e' h => by cases h⟩
              rw [← Except.ok.inj h]
              obtain ⟨q1, q2⟩ := PrivateKey.new_eq_ok.1 hp
              have hv : XprvValid { key := k, derivation := { chain_code := slice b 13 45, n := (beValue (slice b 9 13) : Int), depth := ((b.getD 4 0).toNat : Int), parent_fingerprint := slice b 5 9 } } :=
                ⟨q1, by rw [q2], hd⟩
              have hcoin' : k.coin = coin := by rw [q2]
              have hsec : k.secret = b.drop 46 := by rw [q2]
              refine ⟨⟨hv, hdep, by rw [show _ = k.coin from rfl, hcoin']; exact hcoin⟩, ?_⟩
              rw [keyText, BIP32PrivateKey.to_extended_key_string, BIP32PrivateKey.extended_key_eq _ hv]
              dsimp only
              have h46 : (0 : UInt8) :: b.drop 46 = b.drop 45 := by
                rw [List.drop_eq_getElem_cons (i := 45) (by omega)]
                rw [List.getD_eq_getElem?_getD, List.getElem?_eq_getElem (by omega), Option.getD_some] at h45
                rw [h45]
              rw [if_pos hdep, hcoin', hsec, h46, hde, Int.toNat_natCast, hbe, ht]
              rw [if_neg (by decide)] at hver
              rw [← hver, ← hsplit]
              rfl
          · rw [if_pos h45]
            refine ⟨fun key h => (by cases h), fun e' h => ?_⟩
            cases h
            rfl
    · rw [if_pos hl]
      refine ⟨fun key h => (by cases h), fun e' h => ?_⟩
      cases h
      rfl

end Bitcoinx
