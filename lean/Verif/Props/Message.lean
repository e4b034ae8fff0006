import Verif.Spec.Message
import Verif.Props.Ecies
import Verif.Props.KeySign
import Verif.Props.Secp256k1
import Verif.Lemmas.ToySecp
import Verif.Lemmas.Tx
import Verif.Lemmas.Aes128

/-! # C103, C104: what is signed and sent for a message -/

namespace Bitcoinx
open Spec

theorem normalize_message_eq (m : Bytes) (hm : m.length < 2 ^ 64) : normalize_message m = .ok (signedText m) := by
  rw [normalize_message, pack_varbytes_eq m hm, ok_bind', pure_ok']
  rfl

/-- Signing, verifying and recovering a key for a message are those operations on the text of the specification. -/
theorem C103_text (L : Secp) (m : Bytes) (hm : m.length < 2 ^ 64) (hasher : Bytes → Bytes) :
    (∀ k : PrivateKey, k.sign_message L m (some hasher) =
      (k.sign_recoverable L (signedText m) (some hasher)).bind (fun s => to_message_signature s k.compressed)) ∧
    (∀ (p : PublicKey L) (s : Bytes), p.verify_message s m (some hasher) =
      (to_recoverable_signature s).bind (fun s => p.verify_recoverable_signature s (signedText m) (some hasher))) ∧
    (∀ s : Bytes, PublicKey.from_signed_message L s m (some hasher) =
      (to_recoverable_signature s).bind
        (fun s => PublicKey.from_recoverable_signature L s (signedText m) (some hasher))) := by
  have hn := normalize_message_eq m hm
  refine ⟨fun k => ?_, fun p s => ?_, fun s => ?_⟩
  · simp only [PrivateKey.sign_message, hn, ok_bind']; rfl
  · simp only [PublicKey.verify_message, hn, ok_bind']; rfl
  · simp only [PublicKey.from_signed_message, hn, ok_bind']; rfl

theorem utf8_injective {s t : Str} (h : utf8 s = utf8 t) : s = t := by
  have h2 : s.utf8Encode = t.utf8Encode := by
    unfold List.utf8Encode
    exact congrArg List.toByteArray h
  have h3 := congrArg ByteArray.utf8Decode? h2
  rw [List.utf8Decode?_utf8Encode, List.utf8Decode?_utf8Encode] at h3
  simpa using h3

/-- Different messages are signed as different texts, and so are different strings. -/
theorem C103_unambiguous (m m' : Bytes) (hm : m.length < 2 ^ 64) (hm' : m'.length < 2 ^ 64)
    (h : signedText m = signedText m') : m = m' ∧ ∀ s t : Str, m = utf8 s → m' = utf8 t → s = t := by
  have hb : varbytes m = varbytes m' := List.append_cancel_left h
  have h4 : m' = m := (varbytes_inj (x := []) (y := []) hm hm' (by rw [hb])).1.symm
  refine ⟨h4.symm, ?_⟩
  rintro s t rfl rfl
  exact (utf8_injective h4).symm

/-- A signature belongs to one message: if it gives the same public key for two of them, the digests of their texts are
the same number modulo the order of the curve. -/
theorem C103_commits (nonces : Bytes → Bytes → List Nat) (s m m' : Bytes) (hm : m.length < 2 ^ 64)
    (hm' : m'.length < 2 ^ 64) (hasher : Bytes → Bytes) (k k' : PublicKey (K1.secp256k1 nonces))
    (h : PublicKey.from_signed_message (K1.secp256k1 nonces) s m (some hasher) = .ok k)
    (h' : PublicKey.from_signed_message (K1.secp256k1 nonces) s m' (some hasher) = .ok k')
    (hk : k.point = k'.point) :
    beValue (hasher (signedText m)) % CURVE_ORDER = beValue (hasher (signedText m')) % CURVE_ORDER := by
  rw [(C103_text _ m hm hasher).2.2 s] at h
  rw [(C103_text _ m' hm' hasher).2.2 s] at h'
  cases hs : to_recoverable_signature s with
  | error e => rw [hs] at h; cases h
  | ok r =>
    rw [hs] at h h'
    obtain ⟨rs, v, hl, rfl⟩ : ∃ rs v, rs.length = 64 ∧ r = rs ++ [v] := by
      unfold to_recoverable_signature at hs
      split at hs
      · cases hs
      · next hlen =>
        simp only at hs
        split at hs
        · cases hs
        · have hlt : ((List.headD s 0).toNat - 27) &&& 3 < 256 := lt_of_le_of_lt Nat.and_le_right (by decide)
          rw [pack_byte_nat hlt, ok_bind', pure_ok'] at hs
          exact ⟨s.drop 1, _, by rw [List.length_drop]; omega, (Except.ok.inj hs).symm⟩
    exact C96_commits nonces rs v hl _ _ _ _ (some hasher) rfl rfl k k' h h' hk

example : signedText [0x68, 0x69] = 24 :: utf8 "Bitcoin Signed Message:\n".toList ++ [2, 0x68, 0x69] := by decide +kernel
example : utf8 "€".toList = [0xe2, 0x82, 0xac] := by decide +kernel

/-! ## Encrypted messages -/

/-- The bytes of an encrypted message are those of the specification, for the ephemeral key used and the point that
it shares with the receiver; its length depends on that of the message only. -/
theorem C104_layout (H : Hashes) (L : Secp) (E : Cipher) (k e : PrivateKey) (hk : PrivValid k) (he : PrivValid e)
    (hec : e.compressed = true) (p : PublicKey L) (hp : k.public_key L = .ok p) (m magic : Bytes) :
    ∃ c, p.encrypt_message H E e m magic = .ok c ∧
      IsEncrypted H L E magic (secretNumber e • L.gen) ((secretNumber e * secretNumber k) • L.gen) m c ∧
      c.length = magic.length + 33 + 16 * (m.length / 16 + 1) + 32 := by
  obtain ⟨P, hP, -, hPp, hPc, -⟩ := (C76_private L e he).2.2
  obtain ⟨s, t, hs, -, -, -, -, hsp⟩ := C61_ecdh L e k he hk P p hP hp
  have hbytes : P.to_bytes = L.serialize true (secretNumber e • L.gen) := by
    rw [PublicKey.to_bytes, Option.getD_none, hPc, hec, hPp]
  have hsb : s.to_bytes (some true) = L.serialize true ((secretNumber e * secretNumber k) • L.gen) := by
    rw [PublicKey.to_bytes, Option.getD_some, hsp]
  generalize hK : ecies_keys (H.sha512 (s.to_bytes (some true))) = K
  obtain ⟨iv, key_e, key_m⟩ := K
  have hlens := ecies_lengths H (s.to_bytes (some true))
  rw [hK] at hlens
  have hkey : iv ++ key_e ++ key_m = H.sha512 (s.to_bytes (some true)) := by
    rw [ecies_keys, Prod.mk.injEq, Prod.mk.injEq] at hK
    obtain ⟨rfl, rfl, rfl⟩ := hK
    generalize H.sha512 (s.to_bytes (some true)) = x
    simp only [slice, List.drop_zero]
    have : x.take 16 = (x.take 32).take 16 := by rw [List.take_take]; rfl
    rw [this, List.take_append_drop, List.take_append_drop]
  have hml : key_m.length = 32 := by
    have := congrArg List.length hkey
    rw [H.sha512_length, List.length_append, List.length_append, hlens.1, hlens.2] at this
    omega
  refine ⟨_, ?_, ⟨iv, key_e, key_m, append_PKCS7_padding m, _, hlens.1, hlens.2, hml, ?_, append_padded m, rfl, rfl⟩, ?_⟩
  · simp only [PublicKey.encrypt_message, hs, ok_bind', hK, hP, pure_ok', hbytes, aes_encrypt_with_iv]
  · rw [hkey, hsb]
  · obtain ⟨n, h1, h2, h3, h4⟩ := append_padded m
    have hl : (append_PKCS7_padding m).length = m.length + n.toNat := by rw [h3]; simp
    rw [List.length_append, H.hmac_sha256_length, List.length_append, List.length_append, L.serialize_length,
      E.encrypt_length _ _ _ hlens.2 hlens.1 h4]
    simp only [if_true]
    rw [hl] at h4 ⊢
    omega

/-- With a cipher that decrypts nothing but what it encrypts, a byte string is decrypted to a message exactly when it is
an encryption of it for some ephemeral key. -/
theorem C104_exact (H : Hashes) (L : Secp) (E : Cipher)
    (hE : ∀ key iv ct pt, key.length = 16 → iv.length = 16 → E.decrypt key iv ct = .ok pt → E.encrypt key iv pt = ct)
    (k : PrivateKey) (hk : PrivValid k) (c magic m : Bytes) :
    k.decrypt_message H L E c magic = .ok m ↔
      ∃ P : L.Point, P ≠ 0 ∧ IsEncrypted H L E magic P (secretNumber k • P) m c := by
  constructor
  · intro h
    obtain ⟨P, ct, mac, shared, rfl, hne, hml, rfl, rfl, hd⟩ := C60_authentic H L E k c magic m h
    have hx := H.sha512_length (L.serialize true (secretNumber k • P.point))
    generalize hX : H.sha512 (L.serialize true (secretNumber k • P.point)) = x at *
    have l1 : (x.take 16).length = 16 := by rw [List.length_take]; omega
    have l2 : ((x.drop 16).take 16).length = 16 := by rw [List.length_take, List.length_drop]; omega
    refine ⟨P.point, hne, x.take 16, (x.drop 16).take 16, x.drop 32, append_PKCS7_padding m, _, l1, l2, ?_, ?_,
      append_padded m, rfl, ?_⟩
    · rw [List.length_drop]; omega
    · have : x.drop 32 = (x.drop 16).drop 16 := by rw [List.drop_drop]
      rw [hX, this, List.append_assoc, List.take_append_drop, List.take_append_drop]
    · rw [hE _ _ _ _ l2 l1 hd]
  · rintro ⟨P, hne, iv, key_e, key_m, padded, body, l1, l2, l3, hkey, hpad, rfl, rfl⟩
    obtain rfl := padded_unique m padded hpad
    have hK : ecies_keys (H.sha512 (L.serialize true (secretNumber k • P))) = (iv, key_e, key_m) := by
      rw [ecies_keys, ← hkey]
      refine Prod.ext ?_ (Prod.ext ?_ ?_)
      · show slice (iv ++ key_e ++ key_m) 0 16 = iv
        rw [List.append_assoc, slice, List.take_left' l1, List.drop_zero]
      · show slice (iv ++ key_e ++ key_m) 16 32 = key_e
        rw [slice, List.take_left' (by rw [List.length_append]; omega), List.drop_left' l1]
      · show (iv ++ key_e ++ key_m).drop 32 = key_m
        rw [List.drop_left' (by rw [List.length_append]; omega)]
    have l33 : (L.serialize true P).length = 33 := by rw [L.serialize_length]; rfl
    generalize hct : E.encrypt key_e iv (append_PKCS7_padding m) = ct
    have hctlen : 16 ≤ ct.length := by
      obtain ⟨n, h1, h2, h3, h4⟩ := append_padded m
      rw [← hct, E.encrypt_length _ _ _ l2 l1 h4]
      have : (append_PKCS7_padding m).length = m.length + n.toNat := by rw [h3]; simp
      omega
    have hparse : PublicKey.from_bytes L (L.serialize true P) = .ok { point := P, compressed := true, coin := Bitcoin } := by
      rw [PublicKey.from_bytes, L.parse_serialize true _ hne]
      simp [L.serialize_length]
    have hshared : k.ecdh_shared_secret { point := P, compressed := true, coin := Bitcoin } =
        .ok { point := secretNumber k • P, compressed := true, coin := Bitcoin } := by
      simp only [PrivateKey.ecdh_shared_secret, PublicKey.multiply, to_32_bytes_ok _ hk.1, ok_bind',
        Secp.pubkey_tweak_mul, if_pos (And.intro hk.2.2 hk.2.1.ne'), pure_ok', secretNumber]
    generalize hmac : H.hmac_sha256 key_m (magic ++ L.serialize true P ++ ct) = mac
    have hmaclen : mac.length = 32 := by rw [← hmac, H.hmac_sha256_length]
    have c1 : ¬ (magic ++ L.serialize true P ++ ct ++ mac).length < 81 + magic.length := by
      simp only [List.length_append, l33, hmaclen]; omega
    have c2 : ¬ ¬ magic.isPrefixOf (magic ++ L.serialize true P ++ ct ++ mac) = true := by
      rw [not_not, List.isPrefixOf_iff_prefix, List.append_assoc, List.append_assoc]
      exact List.prefix_append _ _
    have e1 : slice (magic ++ L.serialize true P ++ ct ++ mac) magic.length (magic.length + 33) = L.serialize true P := by
      unfold slice
      rw [List.append_assoc (magic ++ L.serialize true P), List.take_left' (by simp [l33])]
      simp
    have e2 : (magic ++ L.serialize true P ++ ct ++ mac).drop (magic.length + 33) = ct ++ mac := by
      rw [List.append_assoc (magic ++ L.serialize true P), List.drop_left' (by simp [l33])]
    have e3 : dropEnd (ct ++ mac) 32 = ct := by rw [← hmaclen, dropEnd_append]
    have e4 : lastN (magic ++ L.serialize true P ++ ct ++ mac) 32 = mac := by rw [← hmaclen, lastN_append]
    have e5 : dropEnd (magic ++ L.serialize true P ++ ct ++ mac) 32 = magic ++ L.serialize true P ++ ct := by
      rw [← hmaclen, dropEnd_append]
    have e6 : aes_decrypt_with_iv E key_e iv ct = .ok m := by
      rw [← hct]; exact aes_roundtrip E _ _ _ l2 l1
    have htb : PublicKey.to_bytes ({ point := secretNumber k • P, compressed := true, coin := Bitcoin } : PublicKey L) =
        L.serialize true (secretNumber k • P) := by
      rw [PublicKey.to_bytes, Option.getD_none]
    simp only [PrivateKey.decrypt_message, c1, c2, if_false, e1, hparse, e2, e3, e4, e5, hshared, ok_bind', htb,
      hK, hmac, e6]
    simp

/-- AES-128 in CBC mode is such a cipher. -/
theorem C104_aes (H : Hashes) (L : Secp) (k : PrivateKey) (hk : PrivValid k) (c magic m : Bytes) :
    k.decrypt_message H L Aes128.aes128 c magic = .ok m ↔
      ∃ P : L.Point, P ≠ 0 ∧ IsEncrypted H L Aes128.aes128 magic P (secretNumber k • P) m c :=
  C104_exact H L _ Aes128.aes128_exact k hk c magic m

/-- The text of the specification is read in one way only: an encrypted message has one ephemeral key and, for a given
receiver, one message. -/
theorem C104_unique (H : Hashes) (L : Secp) (k : PrivateKey) (hk : PrivValid k) (c magic m m' : Bytes) (P P' : L.Point)
    (hP : P ≠ 0) (hP' : P' ≠ 0) (h : IsEncrypted H L Aes128.aes128 magic P (secretNumber k • P) m c)
    (h' : IsEncrypted H L Aes128.aes128 magic P' (secretNumber k • P') m' c) : P = P' ∧ m = m' := by
  have e := (C104_aes H L k hk c magic m).2 ⟨P, hP, h⟩
  rw [(C104_aes H L k hk c magic m').2 ⟨P', hP', h'⟩] at e
  refine ⟨?_, (Except.ok.inj e).symm⟩
  obtain ⟨_, _, _, _, _, _, _, _, _, _, rfl, rfl⟩ := h
  obtain ⟨_, _, _, _, _, _, _, _, _, _, rfl, hc⟩ := h'
  simp only [List.append_assoc] at hc
  have h1 := List.append_cancel_left hc
  have h2 := List.append_inj_left h1 (by rw [L.serialize_length, L.serialize_length])
  have h3 := L.parse_serialize true P hP
  rw [h2, L.parse_serialize true P' hP'] at h3
  exact (Option.some.inj h3).symm

/-- Keys for which there are encrypted messages. -/
example : ∃ (k e : PrivateKey), PrivValid k ∧ PrivValid e ∧ e.compressed = true ∧
    ∃ p c, k.public_key toySecp = .ok p ∧ p.encrypt_message toyHashes Aes128.aes128 e [1, 2, 3] [66] = .ok c ∧
      c.length = 82 ∧ k.decrypt_message toyHashes toySecp Aes128.aes128 c [66] = .ok [1, 2, 3] := by
  have hk : PrivValid { secret := zeros 31 ++ [9], compressed := false, coin := Bitcoin } := by
    unfold PrivValid; decide +kernel
  have he : PrivValid { secret := zeros 31 ++ [7], compressed := true, coin := Bitcoin } := by
    unfold PrivValid; decide +kernel
  have hp := PrivateKey.public_key_ok toySecp _ hk
  obtain ⟨c, h1, h2, h3⟩ := C104_layout toyHashes toySecp Aes128.aes128 _ _ hk he rfl _ hp [1, 2, 3] [66]
  refine ⟨_, _, hk, he, rfl, _, c, hp, h1, h3, ?_⟩
  obtain ⟨m, hm, hd⟩ := C59_roundtrip toyHashes toySecp Aes128.aes128 _ _ hk he rfl _ hp [1, 2, 3] [66]
  rw [h1] at hm
  rw [Except.ok.inj hm]
  exact hd

end Bitcoinx
