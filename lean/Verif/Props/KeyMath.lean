import Verif.Props.Keys

/-! # Properties of key arithmetic, shared secrets and message signatures -/

namespace Bitcoinx
open Spec

/-! ## C62: private and public arithmetic commute -/

theorem gen_smul_eq_zero (L : Secp) (m : Nat) : m • L.gen = 0 ↔ m % CURVE_ORDER = 0 := by
  rw [L.smul_eq_zero L.gen L.gen_ne, Nat.dvd_iff_mod_eq_zero]

/-- Adding to the private key and taking the public key is the same as adding to the public key:
the same key, or the same exception. -/
theorem C62_add (L : Secp) (k : PrivateKey) (h : PrivValid k) (v : Bytes) :
    (k.add v >>= PrivateKey.public_key L) = (k.public_key L >>= fun p => p.add v) := by
  rw [PrivateKey.public_key_ok L k h, ok_bind', PrivateKey.add, PublicKey.add]
  by_cases hv : v.length = 32
  · simp only [to_32_bytes_ok v hv, ok_bind', Secp.privkey_tweak_add, Secp.pubkey_tweak_add, ← add_nsmul]
    have hlt := Nat.mod_lt (be_bytes_to_int k.secret + be_bytes_to_int v) curve_order_pos
    by_cases hc : be_bytes_to_int v < CURVE_ORDER ∧
        (be_bytes_to_int k.secret + be_bytes_to_int v) % CURVE_ORDER ≠ 0
    · have hc' : be_bytes_to_int v < CURVE_ORDER ∧
          (be_bytes_to_int k.secret + be_bytes_to_int v) • L.gen ≠ 0 :=
        ⟨hc.1, fun e => hc.2 ((gen_smul_eq_zero L _).1 e)⟩
      simp only [if_pos hc, if_pos hc', pure_ok', ok_bind']
      rw [PrivateKey.public_key_ok L]
      · simp only [beBytes32 _ hlt, L.smul_mod]
      · exact ⟨beBytes_length _ _, by simp only [beBytes32 _ hlt]; omega, by simp only [beBytes32 _ hlt]; exact hlt⟩
    · have hc' : ¬ (be_bytes_to_int v < CURVE_ORDER ∧
          (be_bytes_to_int k.secret + be_bytes_to_int v) • L.gen ≠ 0) :=
        fun e => hc ⟨e.1, fun e' => e.2 ((gen_smul_eq_zero L _).2 e')⟩
      simp only [if_neg hc, if_neg hc', error_bind']
  · simp only [to_32_bytes_err v hv, error_bind']

/-- The same for multiplication. -/
theorem C62_multiply (L : Secp) (k : PrivateKey) (h : PrivValid k) (v : Bytes) :
    (k.multiply v >>= PrivateKey.public_key L) = (k.public_key L >>= fun p => p.multiply v) := by
  rw [PrivateKey.public_key_ok L k h, ok_bind', PrivateKey.multiply, PublicKey.multiply]
  by_cases hv : v.length = 32
  · simp only [to_32_bytes_ok v hv, ok_bind', Secp.privkey_tweak_mul, Secp.pubkey_tweak_mul]
    have hlt := Nat.mod_lt (be_bytes_to_int k.secret * be_bytes_to_int v) curve_order_pos
    by_cases hc : be_bytes_to_int v < CURVE_ORDER ∧ be_bytes_to_int v ≠ 0
    · simp only [if_pos hc, pure_ok', ok_bind']
      have hval : PrivValid { k with secret := beBytes 32 (be_bytes_to_int k.secret * be_bytes_to_int v % CURVE_ORDER) } := by
        refine (C76_private L k h).2.1 v _ ?_
        simp only [PrivateKey.multiply, to_32_bytes_ok v hv, ok_bind', Secp.privkey_tweak_mul, if_pos hc, pure_ok']
      rw [PrivateKey.public_key_ok L _ hval]
      simp only [beBytes32 _ hlt, L.smul_mod]
      rw [Nat.mul_comm, mul_nsmul']
    · simp only [if_neg hc, error_bind']
  · simp only [to_32_bytes_err v hv, error_bind']

/-- What the operations compute, and when they fail: the secret is the sum or product modulo the
group order. -/
theorem C62_values (k : PrivateKey) (h : PrivValid k) (v : Bytes) :
    (∀ k', k.add v = .ok k' ↔ v.length = 32 ∧ be_bytes_to_int v < CURVE_ORDER ∧ PrivValid k' ∧
      secretNumber k' = (secretNumber k + be_bytes_to_int v) % CURVE_ORDER ∧
      k'.compressed = k.compressed ∧ k'.coin = k.coin) ∧
    (∀ k', k.multiply v = .ok k' ↔ v.length = 32 ∧ be_bytes_to_int v < CURVE_ORDER ∧ be_bytes_to_int v ≠ 0 ∧
      PrivValid k' ∧ secretNumber k' = (secretNumber k * be_bytes_to_int v) % CURVE_ORDER ∧
      k'.compressed = k.compressed ∧ k'.coin = k.coin) ∧
    (∀ e, k.add v = .error e ∨ k.multiply v = .error e → e = .valueError) := by
  have hsec : ∀ (k' : PrivateKey) (r : Nat), r < CURVE_ORDER → PrivValid k' → secretNumber k' = r →
      k'.secret = beBytes 32 r := by
    intro k' r hr hv e
    refine beValue_inj _ _ (by rw [hv.1, beBytes_length]) ?_
    rw [← be_bytes_to_int_eq, ← be_bytes_to_int_eq, beBytes32 _ hr]
    exact e
  by_cases hv : v.length = 32
  · have hlt := Nat.mod_lt (be_bytes_to_int k.secret + be_bytes_to_int v) curve_order_pos
    have hlt' := Nat.mod_lt (be_bytes_to_int k.secret * be_bytes_to_int v) curve_order_pos
    refine ⟨fun k' => ⟨fun hk => ?_, fun hk => ?_⟩, fun k' => ⟨fun hk => ?_, fun hk => ?_⟩, ?_⟩
    · have hval := (C76_private toySecp k h).1 v k' hk
      simp only [PrivateKey.add, to_32_bytes_ok v hv, ok_bind', Secp.privkey_tweak_add] at hk
      split at hk
      · cases hk
      · next s hs =>
        split at hs
        · next hc =>
          cases hs; cases hk
          exact ⟨hv, hc.1, hval, beBytes32 _ hlt, rfl, rfl⟩
        · cases hs
    · obtain ⟨-, h1, h2, h3, h4, h5⟩ := hk
      have hs := hsec k' _ hlt h2 h3
      have hne : (be_bytes_to_int k.secret + be_bytes_to_int v) % CURVE_ORDER ≠ 0 := by
        have := h2.2.1
        rw [hs, beBytes32 _ hlt] at this
        omega
      simp only [PrivateKey.add, to_32_bytes_ok v hv, ok_bind', Secp.privkey_tweak_add,
        if_pos (And.intro h1 hne), pure_ok', ← hs, ← h4, ← h5]
    · have hval := (C76_private toySecp k h).2.1 v k' hk
      simp only [PrivateKey.multiply, to_32_bytes_ok v hv, ok_bind', Secp.privkey_tweak_mul] at hk
      split at hk
      · cases hk
      · next s hs =>
        split at hs
        · next hc =>
          cases hs; cases hk
          exact ⟨hv, hc.1, hc.2, hval, beBytes32 _ hlt', rfl, rfl⟩
        · cases hs
    · obtain ⟨-, h1, h1', h2, h3, h4, h5⟩ := hk
      have hs := hsec k' _ hlt' h2 h3
      simp only [PrivateKey.multiply, to_32_bytes_ok v hv, ok_bind', Secp.privkey_tweak_mul,
        if_pos (And.intro h1 h1'), pure_ok', ← hs, ← h4, ← h5]
    · rintro e (he | he)
      · simp only [PrivateKey.add, to_32_bytes_ok v hv, ok_bind'] at he
        split at he <;> cases he
        rfl
      · simp only [PrivateKey.multiply, to_32_bytes_ok v hv, ok_bind'] at he
        split at he <;> cases he
        rfl
  · have e1 : k.add v = .error .valueError := by simp only [PrivateKey.add, to_32_bytes_err v hv, error_bind']
    have e2 : k.multiply v = .error .valueError := by
      simp only [PrivateKey.multiply, to_32_bytes_err v hv, error_bind']
    refine ⟨fun k' => ?_, fun k' => ?_, ?_⟩
    · rw [e1]; exact ⟨fun e => (by cases e), fun e => absurd e.1 hv⟩
    · rw [e2]; exact ⟨fun e => (by cases e), fun e => absurd e.1 hv⟩
    · rintro e (he | he)
      · rw [e1] at he; cases he; rfl
      · rw [e2] at he; cases he; rfl

/-- 5 + 9 and 5 * 9. -/
example : ∃ k : PrivateKey, PrivValid k ∧ secretNumber k = 5 ∧
    ∃ k', k.add (zeros 31 ++ [9]) = .ok k' ∧ secretNumber k' = 14 := by
  obtain ⟨k, hk⟩ := (C76_from_int 5).2 (by decide +kernel)
  have h := (C76_from_int 5).1 k hk
  have h5 : secretNumber k = 5 := by have := h.2; unfold PrivateKey.to_int at this; unfold secretNumber; omega
  obtain ⟨k', hk'⟩ := (C76_from_int 14).2 (by decide +kernel)
  have h' := (C76_from_int 14).1 k' hk'
  have h14 : secretNumber k' = 14 := by have := h'.2; unfold PrivateKey.to_int at this; unfold secretNumber; omega
  refine ⟨k, h.1, h5, { k' with compressed := k.compressed, coin := k.coin }, ?_, h14⟩
  refine ((C62_values k h.1 _).1 _).2 ⟨by decide +kernel, by decide +kernel, h'.1, ?_, rfl, rfl⟩
  rw [h5]
  exact h14.trans (by decide +kernel)

/-! ## C61: shared secrets -/

/-- Both sides compute the same point or raise the same exception. -/
theorem C61_shared (L : Secp) (a b : PrivateKey) (ha : PrivValid a) (hb : PrivValid b) (A B : PublicKey L)
    (hA : a.public_key L = .ok A) (hB : b.public_key L = .ok B) (m : Bytes) (hasher : Option (Bytes → Bytes)) :
    (a.shared_secret B m hasher).map (·.point) = (b.shared_secret A m hasher).map (·.point) := by
  have key : ∀ (a b : PrivateKey) (A B : PublicKey L), PrivValid a → PrivValid b →
      a.public_key L = .ok A → b.public_key L = .ok B →
      (a.shared_secret B m hasher).map (·.point) = (message_hash m hasher >>= fun d =>
        match a.add d, b.add d with
        | .ok a2, .ok b2 => .ok ((secretNumber a2 * secretNumber b2) • L.gen)
        | _, _ => .error .valueError) := by
    intro a b A B ha hb hA hB
    unfold PrivateKey.shared_secret
    cases hd : message_hash m hasher with
    | error e => rfl
    | ok d =>
      simp only [ok_bind']
      have hcomm := C62_add L b hb d
      rw [hB, ok_bind'] at hcomm
      rw [← hcomm]
      cases ha2 : a.add d with
      | error e =>
        rw [(C62_values a ha d).2.2 e (.inl ha2)]
        rfl
      | ok a2 =>
        cases hb2 : b.add d with
        | error e =>
          rw [(C62_values b hb d).2.2 e (.inl hb2)]
          rfl
        | ok b2 =>
          have va := (C76_private L a ha).1 d a2 ha2
          have vb := (C76_private L b hb).1 d b2 hb2
          simp only [ok_bind', PrivateKey.public_key_ok L b2 vb, PublicKey.multiply, to_32_bytes_ok _ va.1,
            Secp.pubkey_tweak_mul, if_pos (And.intro va.2.2 va.2.1.ne'), pure_ok']
          rw [show ∀ x : PublicKey L, Except.map (fun p : PublicKey L => p.point) (Except.ok x : Res (PublicKey L)) =
            .ok x.point from fun _ => rfl, secretNumber, secretNumber, Nat.mul_comm, mul_nsmul']
          simp only [Nat.mul_comm]
          rw [← mul_nsmul', ← mul_nsmul', Nat.mul_comm]
  rw [key a b A B ha hb hA hB, key b a B A hb ha hB hA]
  cases message_hash m hasher with
  | error e => rfl
  | ok d =>
    simp only [ok_bind']
    cases a.add d <;> cases b.add d <;> simp [Nat.mul_comm]

/-- The simple shared secret always exists and is the product of the secrets times the generator. -/
theorem C61_ecdh (L : Secp) (a b : PrivateKey) (ha : PrivValid a) (hb : PrivValid b) (A B : PublicKey L)
    (hA : a.public_key L = .ok A) (hB : b.public_key L = .ok B) :
    ∃ s t, a.ecdh_shared_secret B = .ok s ∧ b.ecdh_shared_secret A = .ok t ∧ s.point = t.point ∧
      PubValid s ∧ s.eq t = true ∧ s.point = (secretNumber a * secretNumber b) • L.gen := by
  have key : ∀ (a b : PrivateKey) (B : PublicKey L), PrivValid a → PrivValid b → b.public_key L = .ok B →
      a.ecdh_shared_secret B = .ok { B with point := (secretNumber a * secretNumber b) • L.gen } := by
    intro a b B ha hb hB
    rw [PrivateKey.public_key_ok L b hb] at hB
    cases hB
    simp only [PrivateKey.ecdh_shared_secret, PublicKey.multiply, to_32_bytes_ok _ ha.1, ok_bind',
      Secp.pubkey_tweak_mul, if_pos (And.intro ha.2.2 ha.2.1.ne'), pure_ok', secretNumber, mul_nsmul']
  refine ⟨_, _, key a b B ha hb hB, key b a A hb ha hA, by rw [Nat.mul_comm], ?_, ?_, rfl⟩
  · show (secretNumber a * secretNumber b) • L.gen ≠ 0
    rw [ne_eq, gen_smul_eq_zero]
    intro h0
    rcases (Nat.Prime.dvd_mul curve_order_prime).1 (Nat.dvd_of_mod_eq_zero h0) with hd | hd
    · exact absurd (Nat.le_of_dvd ha.2.1 hd) (by have := ha.2.2; omega)
    · exact absurd (Nat.le_of_dvd hb.2.1 hd) (by have := hb.2.2; omega)
  · simp [PublicKey.eq, PublicKey.to_bytes, Nat.mul_comm]

end Bitcoinx
