import Verif.Props.KeyMath

/-! # Properties of padding, encryption, message signatures and key encodings -/

namespace Bitcoinx
open Spec

/-! ## C58: PKCS#7 padding -/

theorem append_padded (d : Bytes) : IsPadded d (append_PKCS7_padding d) := by
  have h : 16 - d.length % 16 < 256 := by omega
  have e : (UInt8.ofNat (16 - d.length % 16)).toNat = 16 - d.length % 16 := toNat_ofNat' h
  refine ⟨UInt8.ofNat (16 - d.length % 16), by omega, by omega, ?_, ?_⟩
  · rw [e]; rfl
  · simp only [append_PKCS7_padding, List.length_append, List.length_replicate]; omega

theorem padded_unique (d p : Bytes) (h : IsPadded d p) : p = append_PKCS7_padding d := by
  obtain ⟨n, h1, h2, rfl, h4⟩ := h
  rw [List.length_append, List.length_replicate] at h4
  have : n.toNat = 16 - d.length % 16 := by omega
  rw [append_PKCS7_padding, ← this]
  simp

theorem lastN_append {α : Type} (a b : List α) : lastN (a ++ b) b.length = b := by simp [lastN]

theorem dropEnd_append {α : Type} (a b : List α) : dropEnd (a ++ b) b.length = a := by simp [dropEnd]

theorem strip_iff (p d : Bytes) : strip_PKCS7_padding p = .ok d ↔ IsPadded d p := by
  constructor
  · intro h
    unfold strip_PKCS7_padding at h
    split at h
    · cases h
    · next n hn =>
      split at h
      · cases h
      · next c1 =>
        split at h
        · cases h
        · next c2 =>
          split at h
          · cases h
          · next c3 =>
            cases h
            have c2 := not_not.1 c2
            rw [UInt8.lt_iff_toNat_lt, UInt8.le_iff_toNat_le] at c2
            refine ⟨n, c2.1, c2.2, ?_, not_not.1 c1⟩
            rw [← not_not.1 c3, dropEnd_append_lastN]
  · rintro ⟨n, h1, h2, rfl, h4⟩
    have hlast : (d ++ List.replicate n.toNat n).getLast? = some n := by
      obtain ⟨m, hm⟩ : ∃ m, n.toNat = m + 1 := ⟨n.toNat - 1, by omega⟩
      rw [hm, List.replicate_succ', ← List.append_assoc, List.getLast?_append]; rfl
    have c2 : ¬ ¬ (0 < n ∧ n ≤ 16) := by
      rw [not_not, UInt8.lt_iff_toNat_lt, UInt8.le_iff_toNat_le]; exact ⟨h1, h2⟩
    have c3 : lastN (d ++ List.replicate n.toNat n) n.toNat = List.replicate n.toNat n := by
      have := lastN_append d (List.replicate n.toNat n)
      rwa [List.length_replicate] at this
    have c4 : dropEnd (d ++ List.replicate n.toNat n) n.toNat = d := by
      have := dropEnd_append d (List.replicate n.toNat n)
      rwa [List.length_replicate] at this
    simp only [strip_PKCS7_padding, hlast, h4, ne_eq, not_true, if_false, c2, c3, c4]

/-- Padding is PKCS#7 padding, and it is removed. -/
theorem C58_roundtrip (d : Bytes) :
    IsPadded d (append_PKCS7_padding d) ∧ strip_PKCS7_padding (append_PKCS7_padding d) = .ok d :=
  ⟨append_padded d, (strip_iff _ _).2 (append_padded d)⟩

/-- Exactly the padded byte strings are accepted, and each for one data; others raise
`BadPaddingError`. -/
theorem C58_accepts (p : Bytes) :
    (∀ d, strip_PKCS7_padding p = .ok d ↔ p = append_PKCS7_padding d) ∧
    ((¬ ∃ d, IsPadded d p) → strip_PKCS7_padding p = .error .badPaddingError) := by
  constructor
  · intro d
    rw [strip_iff]
    exact ⟨padded_unique d p, fun h => h ▸ append_padded d⟩
  · intro h
    cases hs : strip_PKCS7_padding p with
    | ok d => exact absurd ⟨d, (strip_iff _ _).1 hs⟩ h
    | error e =>
      unfold strip_PKCS7_padding at hs
      split at hs
      · cases hs; rfl
      · split at hs
        · cases hs; rfl
        · split at hs
          · cases hs; rfl
          · split at hs <;> cases hs
            rfl

example : append_PKCS7_padding [1, 2, 3] = [1, 2, 3] ++ List.replicate 13 13 ∧
    strip_PKCS7_padding (List.replicate 15 0 ++ [17]) = .error .badPaddingError := by decide +kernel

/-! ## C59: ECIES round trip -/

theorem ecies_lengths (H : Hashes) (x : Bytes) :
    (ecies_keys (H.sha512 x)).1.length = 16 ∧ (ecies_keys (H.sha512 x)).2.1.length = 16 := by
  simp [ecies_keys, slice, H.sha512_length]

theorem aes_roundtrip (E : Cipher) (key iv d : Bytes) (h1 : key.length = 16) (h2 : iv.length = 16) :
    aes_decrypt_with_iv E key iv (aes_encrypt_with_iv E key iv d) = .ok d := by
  obtain ⟨n, -, -, -, h4⟩ := append_padded d
  rw [aes_decrypt_with_iv, aes_encrypt_with_iv, E.decrypt_encrypt _ _ _ h1 h2 h4, ok_bind',
    (C58_roundtrip d).2]

/-- What is encrypted to a public key is decrypted with the private key, whatever the ephemeral key,
the magic and the flags of the keys. -/
theorem C59_roundtrip (H : Hashes) (L : Secp) (E : Cipher) (k e : PrivateKey) (hk : PrivValid k)
    (he : PrivValid e) (hec : e.compressed = true) (p : PublicKey L) (hp : k.public_key L = .ok p)
    (m magic : Bytes) :
    ∃ c, p.encrypt_message H E e m magic = .ok c ∧ k.decrypt_message H L E c magic = .ok m := by
  obtain ⟨P, hP, -, hPp, hPc, -⟩ := (C76_private L e he).2.2
  obtain ⟨s, t, hs, ht, hst, -, -, -⟩ := C61_ecdh L e k he hk P p hP hp
  have hPne : P.point ≠ 0 := by rw [hPp]; exact L.pub_ne e he
  -- the ephemeral key as the receiver parses it
  have hbytes : P.to_bytes = L.serialize true P.point := by
    rw [PublicKey.to_bytes, Option.getD_none, hPc, hec]
  have hlen33 : P.to_bytes.length = 33 := by rw [hbytes, L.serialize_length]; rfl
  have hparse : PublicKey.from_bytes L P.to_bytes = .ok { point := P.point, compressed := true, coin := Bitcoin } := by
    rw [PublicKey.from_bytes, hbytes, L.parse_serialize true _ hPne]
    simp [L.serialize_length]
  -- the shared secret the receiver computes
  have hshared : ∃ t' : PublicKey L, k.ecdh_shared_secret { point := P.point, compressed := true, coin := Bitcoin } = .ok t' ∧
      t'.to_bytes = s.to_bytes (some true) := by
    simp only [PrivateKey.ecdh_shared_secret, PublicKey.multiply, to_32_bytes_ok _ hk.1, ok_bind'] at ht ⊢
    split at ht
    · cases ht
    · next q hq =>
      cases ht
      refine ⟨_, rfl, ?_⟩
      simp only [PublicKey.to_bytes, Option.getD_none, Option.getD_some]
      rw [hst]
  obtain ⟨t', ht', htb⟩ := hshared
  generalize hK : ecies_keys (H.sha512 (s.to_bytes (some true))) = K
  obtain ⟨iv, key_e, key_m⟩ := K
  have hlens := ecies_lengths H (s.to_bytes (some true))
  rw [hK] at hlens
  generalize hct : aes_encrypt_with_iv E key_e iv m = ct
  have hctlen : 16 ≤ ct.length := by
    obtain ⟨n, h1, h2, h3, h4⟩ := append_padded m
    rw [← hct, aes_encrypt_with_iv, E.encrypt_length _ _ _ hlens.2 hlens.1 h4]
    have : (append_PKCS7_padding m).length = m.length + n.toNat := by rw [h3]; simp
    omega
  generalize hmac : H.hmac_sha256 key_m (magic ++ P.to_bytes ++ ct) = mac
  have hmaclen : mac.length = 32 := by rw [← hmac, H.hmac_sha256_length]
  refine ⟨magic ++ P.to_bytes ++ ct ++ mac, ?_, ?_⟩
  · simp only [PublicKey.encrypt_message, hs, ok_bind', hK, hct, hP, hmac, pure_ok']
  · have c1 : ¬ (magic ++ P.to_bytes ++ ct ++ mac).length < 81 + magic.length := by
      simp only [List.length_append, hlen33, hmaclen]; omega
    have c2 : ¬ ¬ magic.isPrefixOf (magic ++ P.to_bytes ++ ct ++ mac) = true := by
      rw [not_not, List.isPrefixOf_iff_prefix, List.append_assoc, List.append_assoc]
      exact List.prefix_append _ _
    have e1 : slice (magic ++ P.to_bytes ++ ct ++ mac) magic.length (magic.length + 33) = P.to_bytes := by
      unfold slice
      rw [List.append_assoc (magic ++ P.to_bytes), List.take_left' (by simp [hlen33])]
      simp
    have e2 : (magic ++ P.to_bytes ++ ct ++ mac).drop (magic.length + 33) = ct ++ mac := by
      rw [List.append_assoc (magic ++ P.to_bytes), List.drop_left' (by simp [hlen33])]
    have e3 : dropEnd (ct ++ mac) 32 = ct := by rw [← hmaclen, dropEnd_append]
    have e4 : lastN (magic ++ P.to_bytes ++ ct ++ mac) 32 = mac := by rw [← hmaclen, lastN_append]
    have e5 : dropEnd (magic ++ P.to_bytes ++ ct ++ mac) 32 = magic ++ P.to_bytes ++ ct := by
      rw [← hmaclen, dropEnd_append]
    have e6 : aes_decrypt_with_iv E key_e iv ct = .ok m := by
      rw [← hct]; exact aes_roundtrip E _ _ _ hlens.2 hlens.1
    simp only [PrivateKey.decrypt_message, c1, c2, if_false, e1, hparse, e2, e3, e4, e5, ht', ok_bind', htb,
      hK, hmac, ne_eq, not_true, e6, pure_ok']

/-! ## C60: decryption of anything -/

/-- Whatever the bytes and the key, decryption returns or raises `DecryptionError`. -/
theorem C60_errors (H : Hashes) (L : Secp) (E : Cipher) (k : PrivateKey) (hk : PrivValid k)
    (m magic : Bytes) (e : Err) (h : k.decrypt_message H L E m magic = .error e) : e = .decryptionError := by
  unfold PrivateKey.decrypt_message at h
  simp only at h
  split at h
  · cases h; rfl
  · split at h
    · cases h; rfl
    · split at h
      · next e' he =>
        unfold PublicKey.from_bytes at he
        split at he
        · cases he
          cases h; rfl
        · cases he
      · next P hP =>
        have hsh : ∃ s, k.ecdh_shared_secret P = .ok s := by
          simp only [PrivateKey.ecdh_shared_secret, PublicKey.multiply, to_32_bytes_ok _ hk.1, ok_bind',
            Secp.pubkey_tweak_mul, if_pos (And.intro hk.2.2 hk.2.1.ne'), pure_ok']
          exact ⟨_, rfl⟩
        obtain ⟨s, hs⟩ := hsh
        rw [hs, ok_bind'] at h
        split at h
        · cases h; rfl
        · split at h <;> cases h
          rfl

/-- What is decrypted was authenticated: the message is the magic, an ephemeral public key, a
ciphertext and the HMAC of all that, under keys derived from the shared secret; the ciphertext
decrypts to the padded data. -/
theorem C60_authentic (H : Hashes) (L : Secp) (E : Cipher) (k : PrivateKey) (m magic d : Bytes)
    (h : k.decrypt_message H L E m magic = .ok d) :
    ∃ (P : PublicKey L) (ct mac shared : Bytes), m = magic ++ L.serialize true P.point ++ ct ++ mac ∧
      P.point ≠ 0 ∧ mac.length = 32 ∧ shared = L.serialize true (secretNumber k • P.point) ∧
      mac = H.hmac_sha256 ((H.sha512 shared).drop 32) (magic ++ L.serialize true P.point ++ ct) ∧
      E.decrypt (((H.sha512 shared).drop 16).take 16) ((H.sha512 shared).take 16) ct = .ok (append_PKCS7_padding d) := by
  unfold PrivateKey.decrypt_message at h
  simp only at h
  split at h
  · cases h
  next c1 =>
  split at h
  · cases h
  next c2 =>
  split at h
  · split at h <;> cases h
  next P hP =>
  simp only [bind_eq_ok] at h
  obtain ⟨s, hs, h⟩ := h
  split at h
  · cases h
  next c3 =>
  split at h
  next data hdata =>
    cases h
    have c3 := not_not.1 c3
    rw [not_not, List.isPrefixOf_iff_prefix] at c2
    obtain ⟨r, rfl⟩ := c2
    have hrlen : 81 ≤ r.length := by rw [List.length_append] at c1; omega
    have e1 : slice (magic ++ r) magic.length (magic.length + 33) = r.take 33 := by
      unfold slice
      rw [List.take_append, List.take_of_length_le (by omega)]; simp
    rw [e1] at hP
    have e2 : (magic ++ r).drop (magic.length + 33) = r.drop 33 := by
      rw [List.drop_append, List.drop_of_length_le (by omega)]; simp
    rw [e2] at hdata
    unfold PublicKey.from_bytes at hP
    split at hP
    · cases hP
    next pt hpt =>
    cases hP
    have h33 : (r.take 33).length = 33 := by rw [List.length_take]; omega
    have hser := L.parse_compressed _ _ hpt h33
    have hpne := L.parse_ne _ _ hpt
    simp only [PrivateKey.ecdh_shared_secret, PublicKey.multiply, bind_eq_ok] at hs
    obtain ⟨v, hv, hs⟩ := hs
    unfold to_32_bytes at hv
    split at hv
    · cases hv
    cases hv
    unfold Secp.pubkey_tweak_mul at hs
    simp only at hs
    split at hs
    · next hnone => cases hs
    next q hq =>
    cases hs
    split at hq
    · cases hq
      refine ⟨{ point := pt, compressed := true, coin := Bitcoin }, dropEnd (r.drop 33) 32, lastN (r.drop 33) 32,
        _, ?_, hpne, ?_, rfl, ?_, ?_⟩
      · simp only
        rw [List.append_assoc, dropEnd_append_lastN, ← hser, List.append_assoc, List.take_append_drop]
      · simp only [lastN, List.length_drop]; omega
      · have e3 : dropEnd (magic ++ r) 32 = magic ++ L.serialize true pt ++ dropEnd (r.drop 33) 32 := by
          conv_lhs => rw [← List.take_append_drop 33 r, ← List.append_assoc]
          rw [dropEnd, List.take_append, List.take_of_length_le (by simp; omega), ← hser]
          congr 1
          rw [dropEnd]
          congr 1
          simp only [List.length_append, List.length_drop, h33]
          omega
        have e4 : lastN (magic ++ r) 32 = lastN (r.drop 33) 32 := by
          unfold lastN
          rw [List.drop_append, List.drop_of_length_le (by simp; omega), List.nil_append, List.drop_drop]
          congr 1
          simp only [List.length_append, List.length_drop]
          omega
        rw [e3, e4] at c3
        rw [← c3]
        simp only [ecies_keys, PublicKey.to_bytes, Option.getD_none, h33, beq_self_eq_true, secretNumber]
      · simp only [aes_decrypt_with_iv, bind_eq_ok] at hdata
        obtain ⟨pd, hpd, hstrip⟩ := hdata
        rw [(C58_accepts pd).1 d] at hstrip
        subst hstrip
        rw [← hpd]
        simp only [ecies_keys, PublicKey.to_bytes, Option.getD_none, h33, beq_self_eq_true, secretNumber, slice,
          List.drop_take, List.drop_zero, Nat.reduceSub]
    · cases hq
  · cases h

/-- There are such keys, and a cipher. -/
example : ∃ (k e : PrivateKey), PrivValid k ∧ PrivValid e ∧ e.compressed = true ∧
    (∃ p, k.public_key toySecp = .ok p) ∧ k.compressed = false := by
  refine ⟨{ secret := zeros 31 ++ [9], compressed := false, coin := Bitcoin },
    { secret := zeros 31 ++ [7], compressed := true, coin := Bitcoin }, by unfold PrivValid; decide +kernel,
    by unfold PrivValid; decide +kernel, rfl, ?_, rfl⟩
  exact ⟨_, PrivateKey.public_key_ok _ _ (by unfold PrivValid; decide +kernel)⟩

end Bitcoinx
