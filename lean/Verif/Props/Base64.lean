import Verif.Lemmas.Base64
import Verif.Props.KeySign
import Verif.Props.Ecies

/-! # C93: the base64 forms of message signatures and encrypted messages -/

namespace Bitcoinx

open Spec

/-! ## The encoding -/

/-- **C93**.  `b64encode` writes the base64 encoding, and there is only one. -/
theorem C93_canonical (data : Bytes) (text : Str) : text = b64encode data ↔ IsBase64 data text := by
  obtain ⟨digits, k, h1, h2⟩ := b64encode_spec data
  constructor
  · rintro rfl
    exact ⟨digits, k, h1, h2⟩
  · rintro ⟨digits', k', g1, rfl⟩
    obtain ⟨rfl, rfl⟩ := data_digits h1 g1
    exact h2.symm

/-- **C93**.  What `b64decode` accepts, in any version: digits, of which the bits beyond a whole number
of bytes may be anything, with the padding needed, or, depending on the version, more. -/
theorem C93_accepts (P : PyBase64) (text : Str) (data : Bytes) :
    b64decode P text = .ok data ↔ ∃ digits k slack pads, IsDigits64 digits data k slack ∧
      text = text64 digits pads ∧ (pads = k ∨ k < pads ∧ P.excess digits.length (pads - k) = true) := by
  constructor
  · intro h
    have hp : (text.dropWhile (fun c => decide (c ∈ BASE64))).all (fun c => decide (c = '=')) = true := by
      by_contra hcon
      unfold b64decode at h
      dsimp only at h
      rw [if_pos hcon] at h
      split at h <;> cases h
    obtain ⟨digits, pads, h1, rfl⟩ := text64_of hp
    rw [b64decode_text64 P h1] at h
    split at h
    · cases h
    next c1 =>
    split at h
    · cases h
    next c2 =>
    split at h
    · cases h
    next c3 =>
    cases h
    obtain ⟨k, slack, hd⟩ := a2bDigits_spec digits h1 c1
    refine ⟨digits, k, slack, pads, hd, rfl, ?_⟩
    rw [← (digits_k hd).1] at c2 c3
    rcases Nat.lt_or_ge k pads with hlt | hge
    · right
      refine ⟨hlt, ?_⟩
      by_contra hcon
      exact c3 ⟨hlt, hcon⟩
    · left; omega
  · rintro ⟨digits, k, slack, pads, hd, rfl, hp⟩
    obtain ⟨k1, k2⟩ := digits_k hd
    obtain ⟨k', slack', hd'⟩ := a2bDigits_spec digits hd.1 k2
    rw [b64decode_text64 P hd.1, if_neg k2, ← k1, if_neg (by omega), if_neg (by
      rintro ⟨c1, c2⟩
      rcases hp with hp | hp
      · omega
      · exact c2 hp.2), (digits_data hd hd').1]

/-- **C93**.  What is encoded is decoded, in any version. -/
theorem C93_roundtrip (P : PyBase64) (data : Bytes) : b64decode P (b64encode data) = .ok data := by
  obtain ⟨digits, k, h1, h2⟩ := b64encode_spec data
  exact (C93_accepts P _ _).mpr ⟨digits, k, 0, k, h1, h2, .inl rfl⟩

/-- Text that is not ASCII is refused with a plain `ValueError`, all else with `binascii.Error`. -/
theorem b64decode_error (P : PyBase64) (text : Str) :
    (NonAscii text → b64decode P text = .error .valueError) ∧
    (¬ NonAscii text → ∀ e, b64decode P text = .error e → e = .binasciiError) := by
  have hany : text.any (fun c => decide (128 ≤ c.toNat)) = true ↔ NonAscii text := by
    simp [NonAscii]
  constructor
  · intro h
    rw [b64decode, if_pos (hany.mpr h)]
  · intro h e he
    rw [b64decode, if_neg (fun hc => h (hany.mp hc))] at he
    dsimp only at he
    split at he
    · cases he; rfl
    split at he
    · cases he; rfl
    split at he
    · cases he; rfl
    split at he
    · cases he; rfl
    · cases he

theorem b64decodeOr_ok (P : PyBase64) (err : Err) (text : Str) (data : Bytes) :
    b64decodeOr P err text = .ok data ↔ b64decode P text = .ok data := by
  unfold b64decodeOr
  split
  · next h => rw [h]; simp
  · rfl

theorem b64decodeOr_error (P : PyBase64) (err : Err) (text : Str) :
    (NonAscii text → b64decodeOr P err text = .error .valueError) ∧
    (¬ NonAscii text → ∀ e, b64decodeOr P err text = .error e → e = err) := by
  obtain ⟨h1, h2⟩ := b64decode_error P text
  constructor
  · intro h
    rw [b64decodeOr, h1 h]
  · intro h e he
    unfold b64decodeOr at he
    split at he
    · cases he; rfl
    · next hne => exact absurd he (fun he => hne (by rw [he, h2 h e he]))

/-! ## Signatures -/

/-- Functions of a signature depend on its text only through its bytes. -/
theorem text_as_bytes (P : PyBase64) (L : Secp) (t : Str) (s m : Bytes) (hasher : Option (Bytes → Bytes))
    (e1 : to_recoverable_signature_text P t = to_recoverable_signature s) :
    PublicKey.from_signed_message_text P L t m hasher = PublicKey.from_signed_message L s m hasher ∧
    (∀ p : PublicKey L, p.verify_message_text P t m hasher = p.verify_message s m hasher) ∧
    (∀ (H : Hashes) (h : Res Bytes), PublicKey.verify_message_and_hash160_text P H L t m h hasher =
        PublicKey.verify_message_and_hash160 H L s m h hasher) := by
  have e2 : PublicKey.from_signed_message_text P L t m hasher =
      PublicKey.from_signed_message L s m hasher := by
    unfold PublicKey.from_signed_message_text PublicKey.from_signed_message
    rw [e1]
    cases hasher <;> rfl
  have e3 : ∀ p : PublicKey L, p.verify_message_text P t m hasher = p.verify_message s m hasher := by
    intro p
    unfold PublicKey.verify_message_text PublicKey.verify_message
    rw [e1]
    cases hasher <;> rfl
  refine ⟨e2, e3, ?_⟩
  intro H h
  unfold PublicKey.verify_message_and_hash160_text PublicKey.verify_message_and_hash160
  simp only [e2, e3]
  cases PublicKey.from_signed_message L s m hasher with
  | ok q => rfl
  | error e => cases e <;> rfl

/-- **C93**.  The text of a signature is treated as the signature itself. -/
theorem C93_signature (P : PyBase64) (L : Secp) (s m : Bytes) (hasher : Option (Bytes → Bytes)) :
    to_recoverable_signature_text P (b64encode s) = to_recoverable_signature s ∧
    PublicKey.from_signed_message_text P L (b64encode s) m hasher =
      PublicKey.from_signed_message L s m hasher ∧
    (∀ p : PublicKey L, p.verify_message_text P (b64encode s) m hasher = p.verify_message s m hasher) ∧
    (∀ (H : Hashes) (h : Res Bytes),
      PublicKey.verify_message_and_hash160_text P H L (b64encode s) m h hasher =
        PublicKey.verify_message_and_hash160 H L s m h hasher) := by
  have e1 : to_recoverable_signature_text P (b64encode s) = to_recoverable_signature s := by
    rw [to_recoverable_signature_text, (b64decodeOr_ok P _ _ _).mpr (C93_roundtrip P s), ok_bind']
  exact ⟨e1, text_as_bytes P L _ s m hasher e1⟩

/-- **C93**.  `sign_message_to_base64` gives 88 characters, which verify. -/
theorem C93_signed (P : PyBase64) (H : Hashes) (L : Secp) (k : PrivateKey) (hk : PrivValid k)
    (p : PublicKey L) (hp : k.public_key L = .ok p) (m : Bytes) (hm : m.length < 2 ^ 64)
    (hasher : Bytes → Bytes) (hh : ∀ x, (hasher x).length = 32) :
    ∃ t, k.sign_message_to_base64 L m (some hasher) = .ok t ∧ t.length = 88 ∧
      p.verify_message_text P t m (some hasher) = .ok true ∧
      (∃ q, PublicKey.from_signed_message_text P L t m (some hasher) = .ok q ∧ q.eq p = true) ∧
      ∀ c, PublicKey.verify_message_and_hash160_text P H L t m (.ok (p.hash160 H (some c)))
        (some hasher) = .ok true := by
  obtain ⟨s, h1, h2, h3, ⟨q, h4, _, h5⟩, h6⟩ := C63_signed H L k hk p hp m hm hasher hh
  obtain ⟨_, e2, e3, e4⟩ := C93_signature P L s m (some hasher)
  refine ⟨b64encode s, ?_, ?_, ?_, ⟨q, ?_, h5⟩, ?_⟩
  · rw [PrivateKey.sign_message_to_base64, h1, ok_bind', pure_ok']
  · have hl : s.length = 65 := by
      obtain ⟨c, r, rfl, g, _⟩ := h2
      simp [g]
    obtain ⟨digits, j, g1, g2⟩ := b64encode_spec s
    rw [g2, text64]
    obtain ⟨_, g3, _, g4, _⟩ := g1
    simp only [List.length_append, List.length_map, List.length_replicate]
    omega
  · rw [e3, h3]
  · rw [e2, h4]
  · intro c; rw [e4, h6]

/-- **C93** (malleability).  Exactly four texts with one `=` decode to a given signature: its encoding
with anything in the last two bits of the last digit. -/
theorem C93_malleable (P : PyBase64) (s : Bytes) (hs : s.length = 65) :
    ∃ (front : Str) (q : Nat), q < 16 ∧ front.length = 86 ∧
      b64encode s = front ++ [char64 (4 * q), '='] ∧
      ∀ text, b64decode P text = .ok s ↔ ∃ v < 4, ∃ pads, 1 ≤ pads ∧
        (pads = 1 ∨ P.excess 87 (pads - 1) = true) ∧
        text = front ++ char64 (4 * q + v) :: List.replicate pads '=' := by
  obtain ⟨digits, k, hd, ht⟩ := b64encode_spec s
  obtain ⟨d1, d2, d3, d4, d5⟩ := id hd
  have hk : k = 1 := by omega
  subst hk
  have hl : digits.length = 87 := by omega
  have hne : digits ≠ [] := by intro h; simp [h] at hl
  obtain ⟨front, last, rfl⟩ : ∃ front last, digits = front ++ [last] :=
    ⟨digits.dropLast, digits.getLast hne, (List.dropLast_append_getLast hne).symm⟩
  have hlast := d1 last (by simp)
  have hfl : front.length = 86 := by simpa using hl
  rw [radix_snoc] at d5
  have hdiv : last.toNat % 4 = 0 := by
    have : (2 : Nat) ^ 6 = 64 := by norm_num
    rw [this] at d5
    omega
  have hv : ∀ v < 4, IsDigits64 (front ++ [UInt8.ofNat (last.toNat + v)]) s 1 v := by
    intro v hv
    have hn : (UInt8.ofNat (last.toNat + v)).toNat = last.toNat + v := toNat_ofNat' (by omega)
    refine ⟨?_, by omega, by omega, by simp only [List.length_append, List.length_singleton]; omega, ?_⟩
    · intro d hd
      rcases List.mem_append.mp hd with hd | hd
      · exact d1 d (by simp [hd])
      · rw [List.mem_singleton.mp hd, hn]; omega
    · rw [radix_snoc, hn]; omega
  refine ⟨front.map (fun d => char64 d.toNat), last.toNat / 4, by omega, by simpa using hfl, ?_, ?_⟩
  · rw [ht, text64, show 4 * (last.toNat / 4) = last.toNat by omega]
    simp
  intro text
  rw [C93_accepts]
  constructor
  · rintro ⟨digits', k', slack, pads, g1, rfl, g3⟩
    obtain ⟨f1, f2, f3, f4, f5⟩ := id g1
    have hk' : k' = 1 := by omega
    subst hk'
    have hsl : slack < 4 := by omega
    obtain ⟨rfl, _⟩ := data_digits g1 (hv slack hsl)
    refine ⟨slack, hsl, pads, by omega, ?_, ?_⟩
    · simpa [hfl] using g3.imp_right And.right
    · rw [text64, List.map_append, List.append_assoc, show 4 * (last.toNat / 4) = last.toNat by omega]
      simp only [List.map_cons, List.map_nil, List.singleton_append]
      rw [toNat_ofNat' (by omega)]
  · rintro ⟨v, hv4, pads, p1, p2, rfl⟩
    refine ⟨_, 1, v, pads, hv v hv4, ?_, ?_⟩
    · rw [text64, List.map_append, List.append_assoc, show 4 * (last.toNat / 4) = last.toNat by omega]
      simp only [List.map_cons, List.map_nil, List.singleton_append]
      rw [toNat_ofNat' (by omega)]
    · rcases p2 with p2 | p2
      · exact .inl p2
      · rcases Nat.eq_or_lt_of_le p1 with h | h
        · exact .inl h.symm
        · exact .inr ⟨h, by simpa [hfl] using p2⟩

theorem to_recoverable_error {s : Bytes} {e : Err} (h : to_recoverable_signature s = .error e) :
    e = .invalidSignatureError := by
  unfold to_recoverable_signature at h
  split at h
  · cases h; rfl
  dsimp only at h
  split at h
  · cases h; rfl
  · next hb =>
    rw [pack_byte_nat (lt_of_le_of_lt Nat.and_le_right (by norm_num)), ok_bind'] at h
    cases h

/-- **C93**.  A text that is not a signature is refused with `InvalidSignatureError` if it is ASCII, but
with a plain `ValueError` otherwise. -/
theorem C93_errors (P : PyBase64) (t : Str) :
    (NonAscii t → to_recoverable_signature_text P t = .error .valueError) ∧
    (¬ NonAscii t → ∀ e, to_recoverable_signature_text P t = .error e → e = .invalidSignatureError) := by
  obtain ⟨h1, h2⟩ := b64decodeOr_error P .invalidSignatureError t
  constructor
  · intro h
    rw [to_recoverable_signature_text, h1 h]
    rfl
  · intro h e he
    rw [to_recoverable_signature_text] at he
    rcases bind_eq_error.mp he with he | ⟨s, _, he⟩
    · exact h2 h e he
    · exact to_recoverable_error he

/-- **C93** (a failure).  For a text that is not ASCII `verify_message_and_address` does not answer
`False` but raises `ValueError`; for any other it answers. -/
theorem C93_verify_text (P : PyBase64) (H : Hashes) (L : Secp) (t : Str) (m h : Bytes)
    (hm : m.length < 2 ^ 64) (hasher : Bytes → Bytes) (hh : ∀ x, (hasher x).length = 32) :
    (NonAscii t → PublicKey.verify_message_and_hash160_text P H L t m (.ok h) (some hasher) =
      .error .valueError) ∧
    (¬ NonAscii t → ∃ b, PublicKey.verify_message_and_hash160_text P H L t m (.ok h) (some hasher) =
      .ok b) := by
  obtain ⟨b, hb, -⟩ := pack_varbytes_ok m hm
  have hn : normalize_message m = .ok (SIGNED_MESSAGE_PREFIX ++ (b ++ m)) := by
    simp only [normalize_message, hb, ok_bind', pure_ok']
  constructor
  · intro hna
    have : PublicKey.from_signed_message_text P L t m (some hasher) = .error .valueError := by
      rw [PublicKey.from_signed_message_text]
      rw [hn, ok_bind', (C93_errors P t).1 hna]
      rfl
    rw [PublicKey.verify_message_and_hash160_text, this]
  · intro hna
    cases hd : b64decode P t with
    | error e =>
      refine ⟨false, ?_⟩
      have he := (b64decode_error P t).2 hna e hd
      subst he
      have : PublicKey.from_signed_message_text P L t m (some hasher) = .error .invalidSignatureError := by
        rw [PublicKey.from_signed_message_text]
        rw [hn, ok_bind', to_recoverable_signature_text, b64decodeOr, hd]
        rfl
      rw [PublicKey.verify_message_and_hash160_text, this]
    | ok s =>
      have e1 : to_recoverable_signature_text P t = to_recoverable_signature s := by
        rw [to_recoverable_signature_text, (b64decodeOr_ok P _ _ _).mpr hd, ok_bind']
      rw [(text_as_bytes P L t s m (some hasher) e1).2.2]
      rcases (C63_sound H L s m h hm hasher hh).1 with h | h
      · exact ⟨_, h⟩
      · exact ⟨_, h⟩

/-! ## Encrypted messages -/

/-- **C93**.  What is encrypted to text is decrypted from it. -/
theorem C93_encrypted (P : PyBase64) (H : Hashes) (L : Secp) (E : Cipher) (k e : PrivateKey)
    (hk : PrivValid k) (he : PrivValid e) (hec : e.compressed = true) (p : PublicKey L)
    (hp : k.public_key L = .ok p) (m magic : Bytes) :
    ∃ t, p.encrypt_message_to_base64 H E e m magic = .ok t ∧
      k.decrypt_message_text P H L E t magic = .ok m := by
  obtain ⟨c, h1, h2⟩ := C59_roundtrip H L E k e hk he hec p hp m magic
  refine ⟨b64encode c, ?_, ?_⟩
  · rw [PublicKey.encrypt_message_to_base64, h1, ok_bind', pure_ok']
  · rw [PrivateKey.decrypt_message_text, (b64decodeOr_ok P _ _ _).mpr (C93_roundtrip P c), ok_bind', h2]

/-- **C93**.  Decryption of a text returns or raises `DecryptionError` if the text is ASCII, and raises a
plain `ValueError` otherwise. -/
theorem C93_decrypt_errors (P : PyBase64) (H : Hashes) (L : Secp) (E : Cipher) (k : PrivateKey)
    (hk : PrivValid k) (t : Str) (magic : Bytes) :
    (NonAscii t → k.decrypt_message_text P H L E t magic = .error .valueError) ∧
    (¬ NonAscii t → ∀ e, k.decrypt_message_text P H L E t magic = .error e → e = .decryptionError) := by
  obtain ⟨h1, h2⟩ := b64decodeOr_error P .decryptionError t
  constructor
  · intro h
    rw [PrivateKey.decrypt_message_text, h1 h]
    rfl
  · intro h e he
    rw [PrivateKey.decrypt_message_text] at he
    rcases bind_eq_error.mp he with he | ⟨s, _, he⟩
    · exact h2 h e he
    · exact C60_errors H L E k hk s magic e he

/-! ## Examples -/

example : b64encode (utf8 "light work".toList) = "bGlnaHQgd29yaw==".toList := by decide +kernel

/-- Bits beyond the bytes are not looked at. -/
example : b64decode base64_strict "bGlnaHQgd29yaz==".toList = .ok (utf8 "light work".toList) := by
  decide +kernel

/-- Excess padding. -/
example : b64decode base64_311 "bGlnaHQg====".toList = .ok (utf8 "light ".toList) ∧
    b64decode base64_37 "bGlnaHQg====".toList = .error .binasciiError ∧
    b64decode base64_37 "bGlnaHQg==".toList = .ok (utf8 "light ".toList) ∧
    b64decode base64_strict "bGlnaHQg==".toList = .error .binasciiError := by decide +kernel

example : b64decode base64_strict "bGlnaHQgd29yaw=".toList = .error .binasciiError ∧
    b64decode base64_strict "bGln=HQg".toList = .error .binasciiError ∧
    b64decode base64_strict "bGlnaHQé".toList = .error .valueError := by decide +kernel

/-- A signature with its four texts. -/
example : (zeros 65).length = 65 ∧ NonAscii "é".toList := ⟨by decide, 'é', by decide, by decide⟩

end Bitcoinx
