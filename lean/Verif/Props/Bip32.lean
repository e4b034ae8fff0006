import Verif.Spec.Bip32
import Verif.Props.KeyMath
import Verif.Props.Classify

/-! # Properties of BIP32 -/

namespace Bitcoinx
open Spec

theorem pack_be_uint32_ok (n : Int) (h0 : 0 ≤ n) (h1 : n < 2 ^ 32) :
    pack_be_uint32 n = .ok (beBytes 4 n.toNat) := by
  obtain ⟨m, rfl⟩ := Int.eq_ofNat_of_zero_le h0
  have hm : m < 256 ^ 4 := by
    have : (m : Int) < 4294967296 := h1
    norm_num; omega
  rw [pack_be_uint32, packUBE, packU_ok 4 m hm]
  rfl

theorem BIP32PrivateKey.public_key_ok (L : Secp) (k : BIP32PrivateKey) (h : XprvValid k) :
    k.public_key L = .ok { key := { point := secretNumber k.key • L.gen, compressed := true, coin := k.key.coin }, derivation := k.derivation } := by
  rw [BIP32PrivateKey.public_key, PrivateKey.public_key_ok L k.key h.1]
  rfl

theorem Spec.XpubValid.bytes {L : Secp} {k : BIP32PublicKey L} (h : XpubValid k) :
    k.key.to_bytes = L.serialize true k.key.point := by
  rw [PublicKey.to_bytes, Option.getD_none, h.2.1]

/-- A public key's private key's bytes are the key. -/
theorem Spec.XprvValid.secret {k : BIP32PrivateKey} (h : XprvValid k) : beBytes 32 (secretNumber k.key) = k.key.secret := by
  rw [secretNumber, be_bytes_to_int_eq]
  have := beBytes_beValue k.key.secret
  rw [h.1.1] at this
  exact this

theorem hmac_half_length (H : Hashes) (key msg : Bytes) :
    ((H.hmac_sha512 key msg).take 32).length = 32 ∧ ((H.hmac_sha512 key msg).drop 32).length = 32 := by
  rw [List.length_take, List.length_drop, H.hmac_sha512_length]
  exact ⟨rfl, rfl⟩


/-! ## C64: public and private derivation -/

/-- The derivation data of a child. -/
def childDerivation (H : Hashes) (L : Secp) (p : L.Point) (d : BIP32Derivation) (n : Int) (I : Bytes) :
    BIP32Derivation :=
  { chain_code := I.drop 32, n := n, depth := d.depth + 1, parent_fingerprint := pointFingerprint H L p }

theorem BIP32PrivateKey.child_range (H : Hashes) (L : Secp) (k : BIP32PrivateKey) (n : Int)
    (h : ¬ (0 ≤ n ∧ n < 2 ^ 32)) : k.child H L n = .error .valueError := by
  rw [BIP32PrivateKey.child, if_pos h]

theorem BIP32PublicKey.child_range {L : Secp} (H : Hashes) (k : BIP32PublicKey L) (n : Int)
    (h : ¬ (0 ≤ n ∧ n < 2 ^ 31)) : k.child H n = .error .valueError := by
  have hc : ¬ (0 ≤ n ∧ n < HARDENED) := h
  rw [BIP32PublicKey.child, if_pos hc]

theorem BIP32PrivateKey.child_eq (H : Hashes) (L : Secp) (k : BIP32PrivateKey) (h : XprvValid k) (n : Int)
    (hn : 0 ≤ n ∧ n < 2 ^ 32) :
    k.child H L n = (k.key.add ((ckdPrivHash H L k n.toNat).take 32)).map (fun s =>
      { key := s, derivation := childDerivation H L (secretNumber k.key • L.gen) k.derivation n (ckdPrivHash H L k n.toNat) }) := by
  have hs : k.child_serkey L n = .ok (if 2 ^ 31 ≤ n.toNat then 0 :: beBytes 32 (secretNumber k.key)
      else L.serialize true (secretNumber k.key • L.gen)) := by
    rw [BIP32PrivateKey.child_serkey, h.secret]
    have e : (n ≥ HARDENED) ↔ 2 ^ 31 ≤ n.toNat := by rw [HARDENED]; omega
    by_cases hc : n ≥ HARDENED
    · rw [if_pos hc, if_pos (e.1 hc)]; rfl
    · rw [if_neg hc, if_neg (fun x => hc (e.2 x)), BIP32PrivateKey.public_key_ok L k h]; rfl
  have hf : k.fingerprint H L = .ok (pointFingerprint H L (secretNumber k.key • L.gen)) := by
    rw [BIP32PrivateKey.fingerprint, BIP32PrivateKey.public_key_ok L k h]; rfl
  have hc : ¬ ¬ (0 ≤ n ∧ n < 2 ^ 32) := not_not.2 hn
  rw [BIP32PrivateKey.child, if_neg hc, hs, ok_bind', pack_be_uint32_ok n hn.1 hn.2, ok_bind', hf, ok_bind']
  simp only [Hashes.hmac_sha512_halves]
  rw [show H.hmac_sha512 k.derivation.chain_code ((if 2 ^ 31 ≤ n.toNat then 0 :: beBytes 32 (secretNumber k.key)
      else L.serialize true (secretNumber k.key • L.gen)) ++ beBytes 4 n.toNat) = ckdPrivHash H L k n.toNat from rfl]
  cases ha : k.key.add ((ckdPrivHash H L k n.toNat).take 32) with
  | error e => rfl
  | ok s =>
    obtain ⟨_, _, hv, _, h1, h2⟩ := ((C62_values k.key h.1 _).1 s).1 ha
    rw [ok_bind', BIP32PrivateKey.new, ← h2]
    rw [h.2.1] at h1
    have := PrivateKey.new_ok s hv
    rw [h1] at this
    rw [this]
    rfl

theorem BIP32PublicKey.child_eq {L : Secp} (H : Hashes) (k : BIP32PublicKey L) (h : XpubValid k) (n : Int)
    (hn : 0 ≤ n ∧ n < 2 ^ 31) (I : Bytes)
    (hI : I = H.hmac_sha512 k.derivation.chain_code (L.serialize true k.key.point ++ beBytes 4 n.toNat)) :
    k.child H n = (k.key.add (I.take 32)).map (fun s =>
      { key := s, derivation := childDerivation H L k.key.point k.derivation n I }) := by
  have hc : ¬ ¬ (0 ≤ n ∧ n < HARDENED) := not_not.2 hn
  rw [BIP32PublicKey.child, if_neg hc, pack_be_uint32_ok n hn.1 (by have := hn.2; omega), ok_bind', h.bytes]
  simp only [Hashes.hmac_sha512_halves]
  rw [← hI]
  cases ha : k.key.add (I.take 32) with
  | error e => rfl
  | ok s =>
    have hs : s.compressed = k.key.compressed ∧ s.coin = k.key.coin := by
      rw [PublicKey.add] at ha
      obtain ⟨v, _, ha⟩ := bind_eq_ok.mp ha
      cases hp : L.pubkey_tweak_add k.key.point v with
      | none => rw [hp] at ha; cases ha
      | some p => rw [hp] at ha; cases ha; exact ⟨rfl, rfl⟩
    rw [ok_bind', BIP32PublicKey.new, BIP32PublicKey.fingerprint, BIP32PublicKey.identifier, h.bytes]
    obtain ⟨p, c, coin⟩ := s
    obtain ⟨hs1, hs2⟩ := hs
    simp only at hs1 hs2
    rw [h.2.1] at hs1
    rw [hs1, ← hs2]
    rfl

/-- `child` is `CKDpriv`: it returns the child if there is one and raises `ValueError` otherwise. -/
theorem C64_private (H : Hashes) (L : Secp) (k : BIP32PrivateKey) (h : XprvValid k) (n : Int) :
    (∀ c, k.child H L n = .ok c ↔ ∃ m : Nat, n = m ∧ m < 2 ^ 32 ∧ IsChildPriv H L k m c) ∧
    (∀ e, k.child H L n = .error e → e = .valueError) := by
  by_cases hn : 0 ≤ n ∧ n < 2 ^ 32
  · rw [BIP32PrivateKey.child_eq H L k h n hn]
    obtain ⟨m, rfl⟩ := Int.eq_ofNat_of_zero_le hn.1
    rw [Int.toNat_natCast]
    have hm : m < 2 ^ 32 := by have := hn.2; omega
    have hl := (hmac_half_length H k.derivation.chain_code
      ((if 2 ^ 31 ≤ m then 0 :: beBytes 32 (secretNumber k.key) else L.serialize true (secretNumber k.key • L.gen)) ++ beBytes 4 m))
    rw [show H.hmac_sha512 _ _ = ckdPrivHash H L k m from rfl] at hl
    have hv := (C62_values k.key h.1 ((ckdPrivHash H L k m).take 32))
    constructor
    · intro c
      constructor
      · intro hc
        refine ⟨m, rfl, hm, ?_⟩
        cases ha : k.key.add ((ckdPrivHash H L k m).take 32) with
        | error e => rw [ha] at hc; cases hc
        | ok s =>
          rw [ha] at hc
          obtain ⟨_, h1, h2, h3, h4, h5⟩ := (hv.1 s).1 ha
          rw [be_bytes_to_int_eq] at h1 h3
          rw [← Except.ok.inj hc]
          have hne : secretNumber s ≠ 0 := by have := h2.2.1; rw [secretNumber]; omega
          exact ⟨h1, by rw [h3, Nat.add_comm], hne, h2.1, by rw [h4, h.2.1], h5, rfl, rfl, rfl, rfl⟩
      · rintro ⟨m', hm', _, h1, h2, h3, h4, h5, h6, h7, h8, h9, h10⟩
        obtain rfl : m = m' := by omega
        have hk : PrivValid c.key := ⟨h4, by rw [secretNumber] at h3; omega, by
          rw [secretNumber] at h2; rw [h2]; exact Nat.mod_lt _ curve_order_pos⟩
        rw [(hv.1 c.key).2 ⟨hl.1, by rw [be_bytes_to_int_eq]; exact h1, hk, by
          rw [be_bytes_to_int_eq, h2, Nat.add_comm], by rw [h5, h.2.1], h6⟩]
        obtain ⟨ck, cc, cn, cd, cf⟩ := c
        simp only at h7 h8 h9 h10
        rw [h7, h8, h9, h10]
        rfl
    · intro e he
      cases ha : k.key.add ((ckdPrivHash H L k m).take 32) with
      | error e' => rw [ha] at he; cases he; exact hv.2.2 _ (.inl ha)
      | ok s => rw [ha] at he; cases he
  · rw [BIP32PrivateKey.child_range H L k n hn]
    refine ⟨fun c => ⟨(by intro hc; cases hc), ?_⟩, (by intro e he; cases he; rfl)⟩
    rintro ⟨m, rfl, hm, _⟩
    exact absurd ⟨by omega, by omega⟩ hn

theorem PublicKey.add_values {L : Secp} (k : PublicKey L) (v : Bytes) (hv : v.length = 32) :
    (∀ p, k.add v = .ok p ↔ beValue v < CURVE_ORDER ∧ p.point = beValue v • L.gen + k.point ∧ p.point ≠ 0 ∧
      p.compressed = k.compressed ∧ p.coin = k.coin) ∧
    (∀ e, k.add v = .error e → e = .valueError) := by
  rw [PublicKey.add, to_32_bytes_ok v hv, ok_bind', Secp.pubkey_tweak_add, be_bytes_to_int_eq, add_comm]
  by_cases hc : beValue v < CURVE_ORDER ∧ beValue v • L.gen + k.point ≠ 0
  · rw [if_pos hc]
    refine ⟨fun p => ⟨?_, ?_⟩, (by intro e he; cases he)⟩
    · intro hp; cases hp
      exact ⟨hc.1, rfl, hc.2, rfl, rfl⟩
    · rintro ⟨_, h2, _, h4, h5⟩
      obtain ⟨pp, pc, pcoin⟩ := p
      simp only at h2 h4 h5
      rw [h2, h4, h5]
      rfl
  · rw [if_neg hc]
    refine ⟨fun p => ⟨(by intro hp; cases hp), ?_⟩, (by intro e he; cases he; rfl)⟩
    rintro ⟨h1, h2, h3, _⟩
    exact absurd ⟨h1, h2 ▸ h3⟩ hc

/-- `child` of a public key is `CKDpub`; for hardened indexes there is none. -/
theorem C64_public {L : Secp} (H : Hashes) (k : BIP32PublicKey L) (h : XpubValid k) (n : Int) :
    (∀ c, k.child H n = .ok c ↔ ∃ m : Nat, n = m ∧ m < 2 ^ 31 ∧ IsChildPub H k m c) ∧
    (∀ e, k.child H n = .error e → e = .valueError) := by
  by_cases hn : 0 ≤ n ∧ n < 2 ^ 31
  · rw [BIP32PublicKey.child_eq H k h n hn _ rfl]
    obtain ⟨m, rfl⟩ := Int.eq_ofNat_of_zero_le hn.1
    rw [Int.toNat_natCast]
    have hm : m < 2 ^ 31 := by have := hn.2; omega
    have hl := hmac_half_length H k.derivation.chain_code (L.serialize true k.key.point ++ beBytes 4 m)
    generalize hI : H.hmac_sha512 k.derivation.chain_code (L.serialize true k.key.point ++ beBytes 4 m) = I at hl ⊢
    have hv := PublicKey.add_values k.key (I.take 32) hl.1
    constructor
    · intro c
      constructor
      · intro hc
        refine ⟨m, rfl, hm, ?_⟩
        cases ha : k.key.add (I.take 32) with
        | error e => rw [ha] at hc; cases hc
        | ok s =>
          rw [ha] at hc
          obtain ⟨h1, h3, h2, h4, h5⟩ := (hv.1 s).1 ha
          rw [← Except.ok.inj hc, IsChildPub, hI]
          exact ⟨h1, h3, h2, by rw [h4, h.2.1], h5, rfl, rfl, rfl, rfl⟩
      · rintro ⟨m', hm', _, hc⟩
        obtain rfl : m = m' := by omega
        rw [IsChildPub, hI] at hc
        obtain ⟨h1, h2, h3, h5, h6, h7, h8, h9, h10⟩ := hc
        rw [(hv.1 c.key).2 ⟨h1, h2, h3, by rw [h5, h.2.1], h6⟩]
        obtain ⟨ck, cc, cn, cd, cf⟩ := c
        simp only at h7 h8 h9 h10
        rw [h7, h8, h9, h10]
        rfl
    · intro e he
      cases ha : k.key.add (I.take 32) with
      | error e' => rw [ha] at he; cases he; exact hv.2 _ ha
      | ok s => rw [ha] at he; cases he
  · rw [BIP32PublicKey.child_range H k n hn]
    refine ⟨fun c => ⟨(by intro hc; cases hc), ?_⟩, (by intro e he; cases he; rfl)⟩
    rintro ⟨m, rfl, hm, _⟩
    exact absurd ⟨by omega, by omega⟩ hn

/-- The children of valid keys are valid keys, and the public key of a valid key is valid. -/
theorem Spec.XprvValid.child {H : Hashes} {L : Secp} {k c : BIP32PrivateKey} {n : Int} (h : XprvValid k)
    (hc : k.child H L n = .ok c) : XprvValid c := by
  obtain ⟨m, _, hm, h1, h2, h3, h4, h5, h6, h7, h8, h9, h10⟩ := ((C64_private H L k h n).1 c).1 hc
  refine ⟨⟨h4, by rw [secretNumber] at h3; omega, by
    rw [secretNumber] at h2; rw [h2]; exact Nat.mod_lt _ curve_order_pos⟩, h5, ?_, ?_, ?_, ?_, ?_⟩
  · rw [h7]; exact (hmac_half_length H _ _).2
  · rw [h10, pointFingerprint, List.length_take, H.ripemd160_length]; rfl
  · rw [h8]; omega
  · rw [h8]; omega
  · rw [h9]; have := h.2.2.2.2.2.2; omega

theorem Spec.XpubValid.child {H : Hashes} {L : Secp} {k c : BIP32PublicKey L} {n : Int} (h : XpubValid k)
    (hc : k.child H n = .ok c) : XpubValid c := by
  obtain ⟨m, _, hm, h1, h2, h3, h5, h6, h7, h8, h9, h10⟩ := ((C64_public H k h n).1 c).1 hc
  refine ⟨h3, h5, ?_, ?_, ?_, ?_, ?_⟩
  · rw [h7]; exact (hmac_half_length H _ _).2
  · rw [h10, pointFingerprint, List.length_take, H.ripemd160_length]; rfl
  · rw [h8]; omega
  · rw [h8]; omega
  · rw [h9]; have := h.2.2.2.2.2.2; omega

theorem Spec.XprvValid.public_key {L : Secp} {k : BIP32PrivateKey} {p : BIP32PublicKey L} (h : XprvValid k)
    (hp : k.public_key L = .ok p) : XpubValid p := by
  rw [BIP32PrivateKey.public_key_ok L k h] at hp
  rw [← Except.ok.inj hp]
  exact ⟨L.pub_ne k.key h.1, rfl, h.2.2⟩

/-- Deriving and then taking the public key is the same as taking the public key and then deriving: the same
extended key or the same exception.  Public derivation at a hardened index raises `ValueError`. -/
theorem C64_commutes (H : Hashes) (L : Secp) (k : BIP32PrivateKey) (h : XprvValid k) (n : Int) :
    (n < 2 ^ 31 → (k.child H L n >>= BIP32PrivateKey.public_key L) = (k.public_key L >>= fun p => p.child H n)) ∧
    (2 ^ 31 ≤ n → ∀ p : BIP32PublicKey L, p.child H n = .error .valueError) := by
  refine ⟨fun hn => ?_, fun hn p => BIP32PublicKey.child_range H p n (by omega)⟩
  by_cases h0 : 0 ≤ n
  · have hp := BIP32PrivateKey.public_key_ok L k h
    have hpv := h.public_key hp
    rw [BIP32PrivateKey.child_eq H L k h n ⟨h0, by omega⟩, hp, ok_bind']
    have hI : ckdPrivHash H L k n.toNat = H.hmac_sha512 k.derivation.chain_code
        (L.serialize true (secretNumber k.key • L.gen) ++ beBytes 4 n.toNat) := by
      rw [ckdPrivHash, if_neg (by omega)]
    rw [BIP32PublicKey.child_eq H _ hpv n ⟨h0, hn⟩ (ckdPrivHash H L k n.toNat) hI]
    dsimp only
    have hadd := C62_add L k.key h.1 ((ckdPrivHash H L k n.toNat).take 32)
    rw [PrivateKey.public_key_ok L k.key h.1, ok_bind', h.2.1] at hadd
    rw [show be_bytes_to_int k.key.secret • L.gen = secretNumber k.key • L.gen from rfl] at hadd
    rw [← hadd]
    cases ha : k.key.add ((ckdPrivHash H L k n.toNat).take 32) with
    | error e => rfl
    | ok s =>
      obtain ⟨_, _, hv, _, h1, h2⟩ := ((C62_values k.key h.1 _).1 s).1 ha
      rw [ok_bind', PrivateKey.public_key_ok L s hv]
      rw [h.2.1] at h1
      simp only [Except.map, ok_bind', BIP32PrivateKey.public_key, PrivateKey.public_key_ok L s hv, h1]
      rfl
  · rw [BIP32PrivateKey.child_range H L k n (by omega), BIP32PrivateKey.public_key_ok L k h, ok_bind',
      BIP32PublicKey.child_range H _ n (by omega)]
    rfl

/-- The same along paths of any length. -/
theorem C64_path (H : Hashes) (L : Secp) (path : List Int) (hp : ∀ n ∈ path, n < 2 ^ 31) (k : BIP32PrivateKey)
    (h : XprvValid k) :
    (derivePriv H L k path >>= BIP32PrivateKey.public_key L) = (k.public_key L >>= fun p => derivePub H p path) := by
  induction path generalizing k with
  | nil =>
    simp only [derivePriv, derivePub, ok_bind', BIP32PrivateKey.public_key_ok L k h]
  | cons n path ih =>
    have hc := (C64_commutes H L k h n).1 (hp n (by simp))
    rw [BIP32PrivateKey.public_key_ok L k h, ok_bind'] at hc ⊢
    rw [derivePriv, derivePub, ← hc]
    cases hk : k.child H L n with
    | error e => rfl
    | ok c =>
      have hcv := h.child hk
      have := ih (fun m hm => hp m (by simp [hm])) c hcv
      rw [ok_bind']
      rw [BIP32PrivateKey.public_key_ok L c hcv] at this ⊢
      exact this

end Bitcoinx
