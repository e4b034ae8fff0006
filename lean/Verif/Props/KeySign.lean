import Verif.Props.Ecies

/-! # Properties of signing with keys and of public key encodings -/

namespace Bitcoinx
open Spec

/-! ## C80: signatures made by a key verify -/

theorem message_hash_ok (m : Bytes) (hasher : Option (Bytes → Bytes))
    (h : (hasher.elim m (· m)).length = 32) : message_hash m hasher = .ok (hasher.elim m (· m)) := by
  cases hasher with
  | none => simp only [Option.elim_none] at h; simp [message_hash, h]
  | some f => simp only [Option.elim_some] at h; simp [message_hash, h]

theorem message_hash_err (m : Bytes) (hasher : Option (Bytes → Bytes))
    (h : (hasher.elim m (· m)).length ≠ 32) : message_hash m hasher = .error .valueError := by
  cases hasher with
  | none => simp only [Option.elim_none] at h; simp [message_hash, h]
  | some f => simp only [Option.elim_some] at h; simp [message_hash, h]

theorem sign_recoverable_parts (L : Secp) (k : PrivateKey) (hk : PrivValid k) (d : Bytes) (hd : d.length = 32) :
    IsRecoverable (sign_recoverable L d k.secret) ∧
    cdata_recsig (sign_recoverable L d k.secret) = .ok (L.sign d k.secret, (L.sign_recoverable d k.secret).2) := by
  obtain ⟨h1, h2, h3⟩ := L.sign_recoverable_valid d k.secret hd hk.2.1 hk.2.2
  obtain ⟨g1, g2, g3, g4⟩ := L.sign_valid d k.secret hd hk.2.1 hk.2.2
  have hr : (UInt8.ofNat (L.sign_recoverable d k.secret).2).toNat = (L.sign_recoverable d k.secret).2 :=
    toNat_ofNat' (by omega)
  constructor
  · exact ⟨_, _, rfl, by rw [h1]; exact g1, by rw [hr]; exact h2⟩
  · unfold cdata_recsig sign_recoverable
    have c1 : ¬ ((L.sign_recoverable d k.secret).1 ++ [UInt8.ofNat (L.sign_recoverable d k.secret).2]).length ≠ 65 := by
      rw [h1]; simp [g1]
    have e1 : ((L.sign_recoverable d k.secret).1 ++ [UInt8.ofNat (L.sign_recoverable d k.secret).2]).getLastD 0 =
        UInt8.ofNat (L.sign_recoverable d k.secret).2 := List.getLastD_concat
    have e2 : ((L.sign_recoverable d k.secret).1 ++ [UInt8.ofNat (L.sign_recoverable d k.secret).2]).take 64 =
        L.sign d k.secret := by rw [h1, List.take_left' g1]
    have c2 : ¬ ¬ (L.sign_recoverable d k.secret).2 ≤ 3 := not_not.2 h2
    simp only [c1, if_false, e1, hr, c2, e2, Secp.parse_compact, if_pos (And.intro g2 g3)]

/-- DER and recoverable signatures verify with the public key, and the recoverable one gives the
point of the public key back.  Without a 32-byte hash nothing is signed or verified. -/
theorem C80_sign (L : Secp) (k : PrivateKey) (hk : PrivValid k) (p : PublicKey L) (hp : k.public_key L = .ok p)
    (m : Bytes) (hasher : Option (Bytes → Bytes)) :
    ((hasher.elim m (· m)).length = 32 →
      (∃ s, k.sign L m hasher = .ok s ∧ p.verify_der_signature s m hasher = .ok true) ∧
      (∃ s, k.sign_recoverable L m hasher = .ok s ∧ IsRecoverable s ∧
        p.verify_recoverable_signature s m hasher = .ok true ∧
        ∃ q, PublicKey.from_recoverable_signature L s m hasher = .ok q ∧ q.point = p.point ∧ q.eq p = true)) ∧
    ((hasher.elim m (· m)).length ≠ 32 → k.sign L m hasher = .error .valueError ∧
      k.sign_recoverable L m hasher = .error .valueError ∧
      ∀ s, p.verify_der_signature s m hasher = .error .valueError ∧
        p.verify_recoverable_signature s m hasher = .error .valueError) := by
  constructor
  · intro h
    rw [PrivateKey.public_key_ok L k hk] at hp
    cases hp
    have hm := message_hash_ok m hasher h
    generalize hasher.elim m (· m) = d at h hm
    obtain ⟨h1, h2, h3⟩ := L.sign_recoverable_valid d k.secret h hk.2.1 hk.2.2
    obtain ⟨g1, g2, g3, g4⟩ := L.sign_valid d k.secret h hk.2.1 hk.2.2
    obtain ⟨r1, r2⟩ := sign_recoverable_parts L k hk d h
    constructor
    · refine ⟨sign_der L d k.secret, by simp only [PrivateKey.sign, hm, ok_bind', pure_ok'], ?_⟩
      simp only [PublicKey.verify_der_signature, hm, ok_bind', verify_der_signature, der_signature_to_cdata, sign_der,
        L.parse_serialize_der _ g1 g2 g3, pure_ok', g4]
    · refine ⟨sign_recoverable L d k.secret, by simp only [PrivateKey.sign_recoverable, hm, ok_bind', pure_ok'], r1, ?_, ?_⟩
      · simp only [PublicKey.verify_recoverable_signature, hm, ok_bind', verify_recoverable_signature, r2, pure_ok', g4]
      · rw [h1] at h3
        refine ⟨{ point := be_bytes_to_int k.secret • L.gen, compressed := true, coin := Bitcoin },
          by simp only [PublicKey.from_recoverable_signature, hm, ok_bind', public_key_from_recoverable_signature,
          r2, h3, pure_ok'], rfl, by simp [PublicKey.eq, PublicKey.to_bytes]⟩
  · intro h
    have hm := message_hash_err m hasher h
    simp only [PrivateKey.sign, PrivateKey.sign_recoverable, PublicKey.verify_der_signature,
      PublicKey.verify_recoverable_signature, hm, error_bind', and_self, implies_true]

/-! ## C63: signed messages -/

/-- A signed message verifies with the public key, gives the key back, and verifies with the hash of
either serialization of the public key. -/
theorem C63_signed (H : Hashes) (L : Secp) (k : PrivateKey) (hk : PrivValid k) (p : PublicKey L)
    (hp : k.public_key L = .ok p) (m : Bytes) (hm : m.length < 2 ^ 64) (hasher : Bytes → Bytes)
    (hh : ∀ x, (hasher x).length = 32) :
    ∃ s, k.sign_message L m (some hasher) = .ok s ∧ IsMessageSig s ∧
      p.verify_message s m (some hasher) = .ok true ∧
      (∃ q, PublicKey.from_signed_message L s m (some hasher) = .ok q ∧ q.point = p.point ∧ q.eq p = true) ∧
      ∀ c, PublicKey.verify_message_and_hash160 H L s m (.ok (p.hash160 H (some c))) (some hasher) = .ok true := by
  obtain ⟨b, hb, -⟩ := pack_varbytes_ok m hm
  have hn : normalize_message m = .ok (SIGNED_MESSAGE_PREFIX ++ (b ++ m)) := by
    simp only [normalize_message, hb, ok_bind', pure_ok']
  generalize SIGNED_MESSAGE_PREFIX ++ (b ++ m) = N at hn
  obtain ⟨-, rs, h1, h2, h3, q, h4, h5, h6⟩ := (C80_sign L k hk p hp N (some hasher)).1 (hh N)
  obtain ⟨s, h7, h8, h9, -⟩ := C55_roundtrip rs h2 k.compressed
  have hfrom : PublicKey.from_signed_message L s m (some hasher) = .ok q := by
    simp only [PublicKey.from_signed_message, hn, ok_bind', h9, h4]
  have hver : ∀ q : PublicKey L, q.point = p.point → q.verify_message s m (some hasher) = .ok true := by
    intro q hq
    simp only [PublicKey.verify_message, hn, ok_bind', h9]
    simp only [PublicKey.verify_recoverable_signature] at h3 ⊢
    rw [hq]; exact h3
  refine ⟨s, ?_, h8, hver p rfl, ⟨q, hfrom, h5, h6⟩, ?_⟩
  · simp only [PrivateKey.sign_message, hn, ok_bind', h1, h7]
  · intro c
    simp only [PublicKey.verify_message_and_hash160, hfrom, ok_bind', hver q h5, if_true, pure_ok']
    cases c <;> simp [PublicKey.hash160, PublicKey.to_bytes, h5]

/-- Verification against an address succeeds only if the signature is valid for a key with that
hash; a signature that is malformed or gives no key is `False`, not an exception. -/
theorem C63_sound (H : Hashes) (L : Secp) (s m h : Bytes) (hm : m.length < 2 ^ 64) (hasher : Bytes → Bytes)
    (hh : ∀ x, (hasher x).length = 32) :
    (PublicKey.verify_message_and_hash160 H L s m (.ok h) (some hasher) = .ok true ∨
      PublicKey.verify_message_and_hash160 H L s m (.ok h) (some hasher) = .ok false) ∧
    (PublicKey.verify_message_and_hash160 H L s m (.ok h) (some hasher) = .ok true →
      IsMessageSig s ∧ ∃ q : PublicKey L, q.point ≠ 0 ∧ q.verify_message s m (some hasher) = .ok true ∧
        (h = H.ripemd160 (H.sha256 (L.serialize true q.point)) ∨ h = H.ripemd160 (H.sha256 (L.serialize false q.point)))) := by
  obtain ⟨b, hb, -⟩ := pack_varbytes_ok m hm
  have hn : normalize_message m = .ok (SIGNED_MESSAGE_PREFIX ++ (b ++ m)) := by
    simp only [normalize_message, hb, ok_bind', pure_ok']
  generalize SIGNED_MESSAGE_PREFIX ++ (b ++ m) = N at hn
  have hmh := message_hash_ok N (some hasher) (hh N)
  simp only [Option.elim_some] at hmh
  by_cases hs : IsMessageSig s
  · obtain ⟨rs, h1, h2, -⟩ := (C55_accepts s).1 hs
    have hrs : cdata_recsig rs = .error .invalidSignatureError ∨ ∃ c, cdata_recsig rs = .ok c := by
      unfold cdata_recsig
      split
      · exact .inl rfl
      · simp only
        split
        · exact .inl rfl
        · split
          · exact .inl rfl
          · exact .inr ⟨_, rfl⟩
    have hf : PublicKey.from_signed_message L s m (some hasher) =
        (public_key_from_recoverable_signature L rs (hasher N) >>= fun point =>
          .ok { point, compressed := true, coin := Bitcoin }) := by
      simp only [PublicKey.from_signed_message, hn, ok_bind', h1, PublicKey.from_recoverable_signature, hmh, pure_ok']
    rcases hrs with hrs | ⟨⟨c, r⟩, hrs⟩
    · have : PublicKey.from_signed_message L s m (some hasher) = .error .invalidSignatureError := by
        simp only [hf, public_key_from_recoverable_signature, hrs, error_bind']
      simp [PublicKey.verify_message_and_hash160, this]
    · cases hrec : L.recover c r (hasher N) with
      | none =>
        have : PublicKey.from_signed_message L s m (some hasher) = .error .invalidSignatureError := by
          simp only [hf, public_key_from_recoverable_signature, hrs, ok_bind', hrec, error_bind']
        simp [PublicKey.verify_message_and_hash160, this]
      | some q =>
        have hq : PublicKey.from_signed_message L s m (some hasher) =
            .ok { point := q, compressed := true, coin := Bitcoin } := by
          simp only [hf, public_key_from_recoverable_signature, hrs, ok_bind', hrec, pure_ok']
        have hv : ∀ p : PublicKey L, p.verify_message s m (some hasher) = .ok (L.verify c (hasher N) p.point) := by
          intro p
          simp only [PublicKey.verify_message, hn, ok_bind', h1, PublicKey.verify_recoverable_signature, hmh,
            verify_recoverable_signature, hrs, pure_ok']
        simp only [PublicKey.verify_message_and_hash160, hq, ok_bind', hv, pure_ok']
        cases hvv : L.verify c (hasher N) q with
        | false => simp
        | true =>
          simp only [if_true]
          refine ⟨by cases (h == PublicKey.hash160 H _ _ || _) <;> simp, fun e => ⟨hs,
            { point := q, compressed := true, coin := Bitcoin }, L.recover_ne _ _ _ _ hrec, congrArg _ hvv, ?_⟩⟩
          simpa [PublicKey.hash160, PublicKey.to_bytes, Hashes.hash160] using e
  · have : PublicKey.from_signed_message L s m (some hasher) = .error .invalidSignatureError := by
      simp only [PublicKey.from_signed_message, hn, ok_bind', (C55_accepts s).2 hs, error_bind']
    simp [PublicKey.verify_message_and_hash160, this]

example : (∃ k, PrivValid k) ∧ ∀ x, (toyHashes.double_sha256 x).length = 32 :=
  ⟨⟨{ secret := zeros 31 ++ [9], compressed := false, coin := Bitcoin }, by unfold PrivValid; decide +kernel⟩,
    fun _ => toyHashes.sha256_length _⟩

/-! ## C78: encodings of public keys -/

/-- A public key is read back from its bytes and hex, in both forms, with the form remembered. -/
theorem C78_bytes (L : Secp) (p : PublicKey L) (h : PubValid p) (c : Option Bool) :
    PublicKey.from_bytes L (p.to_bytes c) =
      .ok { point := p.point, compressed := c.getD p.compressed, coin := Bitcoin } ∧
    PublicKey.from_hex L (p.to_hex c) =
      .ok { point := p.point, compressed := c.getD p.compressed, coin := Bitcoin } := by
  have h1 : PublicKey.from_bytes L (p.to_bytes c) =
      .ok { point := p.point, compressed := c.getD p.compressed, coin := Bitcoin } := by
    rw [PublicKey.from_bytes, PublicKey.to_bytes, L.parse_serialize _ _ h]
    simp only [L.serialize_length]
    cases c.getD p.compressed <;> rfl
  refine ⟨h1, ?_⟩
  rw [PublicKey.from_hex, PublicKey.to_hex, fromhex_hex, ok_bind', h1]

/-- Bytes accepted are 33 or 65; those of 33 bytes, and those of 65 bytes beginning with 4, are the
encoding of the key returned. -/
theorem C78_accepts (L : Secp) (b : Bytes) :
    (∀ p, PublicKey.from_bytes L b = .ok p → PubValid p ∧ (b.length = 33 ∨ b.length = 65) ∧
      ((b.length = 33 ∨ b.head? = some 4) → p.to_bytes = b)) ∧
    (∀ e, PublicKey.from_bytes L b = .error e → e = .valueError) := by
  constructor
  · intro p hp
    unfold PublicKey.from_bytes at hp
    split at hp
    · cases hp
    · next q hq =>
      cases hp
      refine ⟨L.parse_ne _ _ hq, L.parse_length _ _ hq, fun hc => ?_⟩
      rw [PublicKey.to_bytes, Option.getD_none]
      simp only
      rcases L.parse_length _ _ hq with h33 | h65
      · rw [h33]; exact (L.parse_compressed _ _ hq h33).symm
      · rw [h65]
        exact (L.parse_uncompressed _ _ hq h65 (hc.resolve_left (by omega))).symm
  · intro e he
    unfold PublicKey.from_bytes at he
    split at he <;> cases he
    rfl

/-- Keys are equal exactly if their points are. -/
theorem C78_eq (L : Secp) (p q : PublicKey L) (hp : PubValid p) (hq : PubValid q) :
    p.eq q = true ↔ p.point = q.point := by
  simp only [PublicKey.eq, PublicKey.to_bytes, Option.getD_some, beq_iff_eq]
  constructor
  · intro h
    have := L.parse_serialize true _ hp
    rw [h, L.parse_serialize true _ hq] at this
    exact (Option.some.inj this).symm
  · intro h; rw [h]

/-- The coordinates of a public key determine it. -/
theorem C78_point (L : Secp) (p : PublicKey L) (h : PubValid p) :
    PublicKey.from_point L p.to_point.1 p.to_point.2 =
      .ok { point := p.point, compressed := false, coin := Bitcoin } ∧
    ∀ x y q, PublicKey.from_point L x y = .ok q → PubValid q ∧ ((q.to_point.1 : Int), (q.to_point.2 : Int)) = (x, y) := by
  have hlen := L.serialize_length false p.point
  have hhead := L.serialize_head p.point
  have conv : ∀ b : Bytes, b.length = 32 → int_to_be_bytes (be_bytes_to_int b : Nat) (some 32) = .ok b := by
    intro b hb
    have h1 := beValue_lt b
    rw [hb] at h1
    have h2 : ¬ ((beValue b : Nat) : Int) < 0 := by omega
    rw [be_bytes_to_int_eq]
    simp only [int_to_be_bytes, Option.getD_some, h2, if_false, Int.toNat_natCast, h1, if_true]
    have := beBytes_beValue b
    rw [hb] at this
    rw [this]
  constructor
  · have h1 : (slice (L.serialize false p.point) 1 33).length = 32 := by simp [slice, hlen]
    have h2 : ((L.serialize false p.point).drop 33).length = 32 := by simp [hlen]
    have h3 : [0x04] ++ slice (L.serialize false p.point) 1 33 ++ (L.serialize false p.point).drop 33 =
        L.serialize false p.point := by
      cases hs : L.serialize false p.point with
      | nil => rw [hs] at hhead; cases hhead
      | cons x xs =>
        rw [hs] at hhead
        cases hhead
        simp [slice]
    have h4 := (C78_bytes L p h (some false)).1
    simp only [PublicKey.to_bytes, Option.getD_some] at h4
    simp only [PublicKey.from_point, PublicKey.to_point, PublicKey.to_bytes, Option.getD_some, conv _ h1, conv _ h2,
      ok_bind', h3, h4]
  · intro x y q hq
    simp only [PublicKey.from_point, bind_eq_ok] at hq
    obtain ⟨xb, hx, yb, hy, hq⟩ := hq
    have conv' : ∀ (x : Int) (xb : Bytes), int_to_be_bytes x (some 32) = .ok xb →
        xb.length = 32 ∧ (be_bytes_to_int xb : Int) = x := by
      intro x xb hx
      simp only [int_to_be_bytes, Option.getD_some] at hx
      split at hx
      · cases hx
      · split at hx
        · next h2 =>
          cases hx
          exact ⟨beBytes_length _ _, by rw [be_bytes_to_int_eq, beValue_beBytes _ _ h2]; omega⟩
        · cases hx
    obtain ⟨x1, x2⟩ := conv' x xb hx
    obtain ⟨y1, y2⟩ := conv' y yb hy
    have hb := (C78_accepts L _).1 q hq
    refine ⟨hb.1, ?_⟩
    have hto := hb.2.2 (.inr rfl)
    have hcomp : q.compressed = false := by
      unfold PublicKey.from_bytes at hq
      split at hq
      · cases hq
      · cases hq; simp [x1, y1]
    rw [PublicKey.to_bytes, Option.getD_none, hcomp] at hto
    simp only [PublicKey.to_point, PublicKey.to_bytes, Option.getD_some, hto, slice]
    have e1 : (([0x04] ++ xb ++ yb).take 33).drop 1 = xb := by
      rw [List.take_left' (by simp [x1])]; rfl
    have e2 : ([0x04] ++ xb ++ yb).drop 33 = yb := by rw [List.drop_left' (by simp [x1])]
    rw [e1, e2, x2, y2]

/-- The complement of a public key is the same key in the other form. -/
theorem C78_complement (L : Secp) (p : PublicKey L) :
    p.complement.eq p = true ∧ p.complement.to_bytes = p.to_bytes (some !p.compressed) ∧
    p.complement.coin = p.coin ∧ p.complement.to_bytes ≠ p.to_bytes ∧ p.complement.complement = p := by
  refine ⟨by simp [PublicKey.eq, PublicKey.complement, PublicKey.to_bytes], rfl, rfl, fun h => ?_, ?_⟩
  · have := congrArg List.length h
    simp only [PublicKey.to_bytes, PublicKey.complement, Option.getD_none, L.serialize_length] at this
    cases hc : p.compressed <;> rw [hc] at this <;> simp at this
  · simp [PublicKey.complement]

example : PubValid (L := toySecp) { point := toySecp.gen, compressed := false, coin := Bitcoin } := toySecp.gen_ne

/-! ## C79: combining public keys -/

theorem foldl_add (L : Secp) (ps : List L.Point) (a : L.Point) :
    ps.foldl (· + ·) a = a + ps.foldl (· + ·) 0 := by
  induction ps generalizing a with
  | nil => simp
  | cons p ps ih => rw [List.foldl_cons, List.foldl_cons, ih, ih (0 + p), zero_add, add_assoc]

/-- Combining the public keys of private keys gives the public key of the sum of the secrets, with
the flag and coin of the first, and fails exactly if there are none or the sum is zero modulo the
group order. -/
theorem C79_combine (L : Secp) (ks : List PrivateKey) (ps : List (PublicKey L))
    (hv : ∀ k ∈ ks, PrivValid k) (hp : ks.map (PrivateKey.public_key L) = ps.map Except.ok) :
    (∀ q, PublicKey.combine_keys ps = .ok q ↔ ∃ k rest, ks = k :: rest ∧
      (ks.map secretNumber).sum % CURVE_ORDER ≠ 0 ∧
      q = { point := (ks.map secretNumber).sum • L.gen, compressed := k.compressed, coin := k.coin }) ∧
    (∀ e, PublicKey.combine_keys ps = .error e → e = .valueError) := by
  have hsum : ∀ (ks : List PrivateKey) (ps : List (PublicKey L)), (∀ k ∈ ks, PrivValid k) →
      ks.map (PrivateKey.public_key L) = ps.map Except.ok →
      (ps.map (·.point)).foldl (· + ·) 0 = (ks.map secretNumber).sum • L.gen := by
    intro ks
    induction ks with
    | nil =>
      intro ps _ hp
      cases ps with
      | nil => simp
      | cons p ps => simp at hp
    | cons k ks ih =>
      intro ps hv hp
      cases ps with
      | nil => simp at hp
      | cons p ps =>
        simp only [List.map_cons, List.cons.injEq] at hp
        rw [List.map_cons, List.map_cons, List.sum_cons, List.foldl_cons, foldl_add, zero_add,
          ih ps (fun k hk => hv k (by simp [hk])) hp.2, add_nsmul]
        rw [PrivateKey.public_key_ok L k (hv k (by simp))] at hp
        rw [← Except.ok.inj hp.1]
        rfl
  cases ks with
  | nil =>
    cases ps with
    | cons p ps => simp at hp
    | nil =>
      refine ⟨fun q => ⟨fun h => (by cases h), ?_⟩, fun e he => by cases he; rfl⟩
      rintro ⟨k, rest, h, -⟩
      cases h
  | cons k ks =>
    cases ps with
    | nil => simp at hp
    | cons p ps =>
      have hs := hsum _ _ hv hp
      simp only [List.map_cons, List.cons.injEq] at hp
      have hp1 := hp.1
      rw [PrivateKey.public_key_ok L k (hv k (by simp))] at hp1
      have hp1 := Except.ok.inj hp1
      have hpc : p.compressed = k.compressed ∧ p.coin = k.coin := by rw [← hp1]; exact ⟨rfl, rfl⟩
      by_cases hz : ((k :: ks).map secretNumber).sum % CURVE_ORDER = 0
      · have hz' := (gen_smul_eq_zero L _).2 hz
        have : PublicKey.combine_keys (p :: ps) = .error .valueError := by
          simp only [PublicKey.combine_keys, Secp.pubkey_combine, hs, hz', ne_eq, not_true, if_false]
        rw [this]
        refine ⟨fun q => ⟨fun h => (by cases h), ?_⟩, fun e he => by cases he; rfl⟩
        rintro ⟨k', rest, -, h, -⟩
        exact absurd hz h
      · have hz' : ((k :: ks).map secretNumber).sum • L.gen ≠ 0 := fun e => hz ((gen_smul_eq_zero L _).1 e)
        have : PublicKey.combine_keys (p :: ps) =
            .ok { point := ((k :: ks).map secretNumber).sum • L.gen, compressed := k.compressed, coin := k.coin } := by
          simp only [PublicKey.combine_keys, Secp.pubkey_combine, hs, if_pos hz', hpc.1, hpc.2]
        rw [this]
        refine ⟨fun q => ⟨fun h => ⟨k, ks, rfl, hz, (Except.ok.inj h).symm⟩, ?_⟩, fun e he => by cases he⟩
        rintro ⟨k', rest, h, -, rfl⟩
        cases h
        rfl

/-- The keys 3 and 4. -/
def key34 (n : UInt8) : PrivateKey := { secret := zeros 31 ++ [n], compressed := true, coin := Bitcoin }

example : ∃ q : PublicKey toySecp, (∃ ps, ps.length = 2 ∧ PublicKey.combine_keys ps = .ok q) ∧ q.point = 7 • toySecp.gen := by
  have h3 : PrivValid (key34 3) ∧ secretNumber (key34 3) = 3 := by unfold PrivValid secretNumber; decide +kernel
  have h4 : PrivValid (key34 4) ∧ secretNumber (key34 4) = 4 := by unfold PrivValid secretNumber; decide +kernel
  have hp : [key34 3, key34 4].map (PrivateKey.public_key toySecp) =
      [(⟨secretNumber (key34 3) • toySecp.gen, true, Bitcoin⟩ : PublicKey toySecp),
        ⟨secretNumber (key34 4) • toySecp.gen, true, Bitcoin⟩].map Except.ok := by
    rw [List.map_cons, List.map_cons, PrivateKey.public_key_ok _ _ h3.1, PrivateKey.public_key_ok _ _ h4.1]
    simp only [secretNumber, key34, List.map_cons, List.map_nil]
  have hv : ∀ k ∈ [key34 3, key34 4], PrivValid k := by
    intro k hk
    rcases List.mem_cons.1 hk with rfl | hk
    · exact h3.1
    · rw [List.mem_singleton.1 hk]; exact h4.1
  have hs : ([key34 3, key34 4].map secretNumber).sum = 7 := by
    simp only [List.map_cons, List.map_nil, h3.2, h4.2]; rfl
  refine ⟨_, ⟨_, rfl, ((C79_combine toySecp _ _ hv hp).1 _).2 ⟨_, _, rfl, ?_, rfl⟩⟩, ?_⟩
  · rw [hs]; decide +kernel
  · rw [hs]

end Bitcoinx
