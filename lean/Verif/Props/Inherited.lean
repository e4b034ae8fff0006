import Verif.Model.Inherited
import Verif.Props.TextForms
import Verif.Props.Bip32
import Verif.Props.Classify

/-! # C110: the class methods that the BIP32 classes inherit -/

namespace Bitcoinx
open Spec

theorem inherited_from_int (v : Int) :
    (0 ≤ v ∧ v < 2 ^ 256 → FlaggedPrivateKey.from_int v = .error .typeError) ∧
    (¬(0 ≤ v ∧ v < 2 ^ 256) → FlaggedPrivateKey.from_int v = .error .overflowError ∧
      PrivateKey.from_int v = .error .overflowError) := by
  rw [FlaggedPrivateKey.from_int, PrivateKey.from_int, int_to_be_bytes]
  simp only [Option.getD_some]
  have hp : (256 : Nat) ^ 32 = 2 ^ 256 := by norm_num
  constructor
  · rintro ⟨h1, h2⟩
    rw [if_neg (by omega), if_pos (by rw [hp]; omega)]
    rfl
  · intro h
    by_cases h0 : v < 0
    · rw [if_pos h0]; exact ⟨rfl, rfl⟩
    · rw [if_neg h0, if_neg (by rw [hp]; omega)]
      exact ⟨rfl, rfl⟩

/-- C110: the class methods that take a number, bytes, hexadecimal digits or a minikey never return a BIP32 private key:
where the argument is read at all they raise `TypeError`, also for numbers and lengths that `PrivateKey` refuses. -/
theorem C110_private (H : Hashes) :
    (∀ v, (0 ≤ v ∧ v < 2 ^ 256 → FlaggedPrivateKey.from_int v = .error .typeError) ∧
      (¬(0 ≤ v ∧ v < 2 ^ 256) → FlaggedPrivateKey.from_int v = .error .overflowError ∧
        PrivateKey.from_int v = .error .overflowError)) ∧
    (∀ b, FlaggedPrivateKey.from_arbitrary_bytes b = .error .typeError) ∧
    (∀ t, (∀ b, fromhex t = .ok b → FlaggedPrivateKey.from_hex t = .error .typeError) ∧
      (∀ e, fromhex t = .error e → FlaggedPrivateKey.from_hex t = .error e ∧ PrivateKey.from_hex t = .error e)) ∧
    (∀ t, (is_minikey H t = true → FlaggedPrivateKey.from_minikey H t = .error .typeError) ∧
      (is_minikey H t = false → FlaggedPrivateKey.from_minikey H t = .error .valueError)) := by
  refine ⟨inherited_from_int, fun b => ?_, fun t => ⟨fun b h => ?_, fun e h => ?_⟩, fun t => ⟨fun h => ?_, fun h => ?_⟩⟩
  · have hlt := Nat.mod_lt (be_bytes_to_int b) curve_order_pos
    have h1 : CURVE_ORDER < 2 ^ 256 := by decide +kernel
    exact (inherited_from_int _).1 ⟨by omega, by omega⟩
  · rw [FlaggedPrivateKey.from_hex, h]; rfl
  · rw [FlaggedPrivateKey.from_hex, PrivateKey.from_hex, h]; exact ⟨rfl, rfl⟩
  · rw [FlaggedPrivateKey.from_minikey, h]; rfl
  · rw [FlaggedPrivateKey.from_minikey, h]; rfl

theorem new_flag (s : Bytes) (c c' : Bool) (coin : Coin) :
    PrivateKey.new s c coin = (PrivateKey.new s c' coin).map (fun k => { k with compressed := c }) := by
  unfold PrivateKey.new
  split
  · rfl
  · split <;> rfl

theorem inherited_WIF (H : Hashes) (t : Str) :
    FlaggedPrivateKey.from_WIF H t =
      (PrivateKey.from_WIF H t).map (fun k => { key := { k with compressed := true }, derivation := k.compressed }) := by
  rw [FlaggedPrivateKey.from_WIF, PrivateKey.from_WIF]
  cases base58_decode_check H t with
  | error e => rfl
  | ok raw =>
    simp only [ok_bind']
    split
    · cases Coin.from_WIF_byte (raw.headD 0) with
      | error e => rfl
      | ok coin =>
        simp only [ok_bind', FlaggedPrivateKey.new]
        generalize (raw.length == 34) = c
        rw [new_flag _ true c coin]
        cases h : PrivateKey.new (slice raw 1 33) c coin with
        | error e => rfl
        | ok k =>
          obtain ⟨_, hk⟩ := (PrivateKey.new_eq_ok).1 h
          subst hk
          rfl
    · rfl

/-- C110: `from_WIF` returns an object of the class for exactly the texts that `PrivateKey.from_WIF` reads, with the same
secret and coin, but always compressed; its "derivation" is the flag. -/
theorem C110_WIF (H : Hashes) (t : Str) :
    (∀ k, PrivateKey.from_WIF H t = .ok k → ∃ x, FlaggedPrivateKey.from_WIF H t = .ok x ∧ x.key.secret = k.secret ∧
      x.key.coin = k.coin ∧ x.key.compressed = true ∧ x.derivation = k.compressed) ∧
    (∀ e, PrivateKey.from_WIF H t = .error e → FlaggedPrivateKey.from_WIF H t = .error e) := by
  rw [inherited_WIF]
  constructor
  · intro k h
    rw [h]
    exact ⟨_, rfl, rfl, rfl, rfl, rfl⟩
  · intro e h
    rw [h]
    rfl

/-- C110: so a text for an uncompressed key is silently read as one of a compressed key: its own text is another one,
and its public key has other bytes, 33 and not 65 of them. -/
theorem C110_uncompressed (H : Hashes) (L : Secp) (t : Str) (k : PrivateKey) (h : PrivateKey.from_WIF H t = .ok k)
    (hk : k.compressed = false) (x : FlaggedPrivateKey) (hx : FlaggedPrivateKey.from_WIF H t = .ok x) :
    (∃ t', x.key.to_WIF H = .ok t' ∧ t' ≠ t) ∧
    ∃ p q, k.public_key L = .ok p ∧ x.public_key L = .ok q ∧ p.point = q.key.point ∧ p.to_bytes.length = 65 ∧
      q.key.to_bytes.length = 33 ∧ q.key.coin = p.coin ∧ q.derivation = false := by
  obtain ⟨hv, hc, hw⟩ := (C57_accepts H t).1 k h
  rw [inherited_WIF, h] at hx
  cases hx
  constructor
  · obtain ⟨t', k', h1, h2, _, _, h3, _⟩ := C57_roundtrip H { k with compressed := true } hv none none hc
    refine ⟨t', h1, ?_⟩
    rintro rfl
    rw [h] at h2
    cases h2
    rw [hk] at h3
    cases h3
  · have hp := PrivateKey.public_key_ok L k hv
    have hp' := PrivateKey.public_key_ok L { k with compressed := true } hv
    refine ⟨_, _, hp, by rw [FlaggedPrivateKey.public_key, hp']; rfl, rfl, ?_, ?_, rfl, hk⟩
    · rw [PublicKey.to_bytes, L.serialize_length]
      simp [hk]
    · rw [PublicKey.to_bytes, L.serialize_length]
      simp

/-- C110: the public key of such an object has its secret's point, and the flag of the text as its "derivation". -/
theorem C110_public_key (H : Hashes) (L : Secp) (t : Str) (k : PrivateKey) (h : PrivateKey.from_WIF H t = .ok k)
    (x : FlaggedPrivateKey) (hx : FlaggedPrivateKey.from_WIF H t = .ok x) :
    ∃ q, x.public_key L = .ok q ∧ q.key.point = secretNumber k • L.gen ∧ q.key.compressed = true ∧
      q.key.coin = k.coin ∧ q.derivation = k.compressed := by
  obtain ⟨hv, -, -⟩ := (C57_accepts H t).1 k h
  rw [inherited_WIF, h] at hx
  cases hx
  have hp' := PrivateKey.public_key_ok L { k with compressed := true } hv
  exact ⟨_, by rw [FlaggedPrivateKey.public_key, hp']; rfl, rfl, rfl, rfl, rfl⟩

theorem inherited_valid (H : Hashes) (t : Str) (x : FlaggedPrivateKey) (hx : FlaggedPrivateKey.from_WIF H t = .ok x) :
    PrivValid x.key ∧ (t.length = 51 ∨ t.length = 52) := by
  rw [inherited_WIF] at hx
  cases h : PrivateKey.from_WIF H t with
  | error e => rw [h] at hx; cases hx
  | ok k =>
    rw [h] at hx
    cases hx
    have hf := (C88_WIF_accepted H t k h)
    exact ⟨((C57_accepts H t).1 k h).1, by
      by_cases hc : k.coin = Bitcoin
      · have := hf.main hc
        split at this
        · exact .inr this.1
        · exact .inl this.1
      · have := hf.test hc
        split at this
        · exact .inr this.1
        · exact .inl this.1⟩

/-- C110: nothing can be derived from such an object, nor is there a text for it: `child` raises `ValueError` for a number
out of range and otherwise `AttributeError`. -/
theorem C110_useless (H : Hashes) (L : Secp) (t : Str) (x : FlaggedPrivateKey) (hx : FlaggedPrivateKey.from_WIF H t = .ok x) :
    x.to_extended_key_string = .error .attributeError ∧
    (∀ n, (0 ≤ n ∧ n < 2 ^ 32) → x.child L n = .error .attributeError) ∧
    (∀ n, ¬(0 ≤ n ∧ n < 2 ^ 32) → x.child L n = .error .valueError) := by
  have hp := PrivateKey.public_key_ok L x.key (inherited_valid H t x hx).1
  refine ⟨rfl, fun n hn => ?_, fun n hn => ?_⟩
  · rw [FlaggedPrivateKey.child, if_neg (not_not.mpr hn)]
    have hs : ∃ b, x.child_serkey L n = .ok b := by
      rw [FlaggedPrivateKey.child_serkey]
      split
      · exact ⟨_, rfl⟩
      · rw [FlaggedPrivateKey.public_key, hp]
        exact ⟨_, rfl⟩
    obtain ⟨b, hb⟩ := hs
    rw [hb, pack_be_uint32_ok n hn.1 hn.2]
    rfl
  · rw [FlaggedPrivateKey.child, if_pos hn]

/-- C110: which texts `from_text` reads: those that `from_WIF` reads, and no other. -/
theorem C110_text (H : Hashes) (t : Str) (x : FlaggedPrivateKey) :
    FlaggedPrivateKey.from_text H t = .ok x ↔ FlaggedPrivateKey.from_WIF H t = .ok x := by
  constructor
  · intro h
    rw [FlaggedPrivateKey.from_text] at h
    split at h
    · obtain ⟨h1, h2⟩ := (C110_private H).2.2.1 t
      cases hf : fromhex t with
      | ok b => rw [h1 b hf] at h; cases h
      | error e => rw [(h2 e hf).1] at h; cases h
    · split at h
      · next hm => rw [((C110_private H).2.2.2 t).1 hm] at h; cases h
      · exact h
  · intro h
    have hl := (inherited_valid H t x h).2
    have c2 : ¬ is_minikey H t = true := by
      have e1 : (t.length == 22) = false := beq_false_of_ne (by omega)
      have e2 : (t.length == 30) = false := beq_false_of_ne (by omega)
      simp [is_minikey, e1, e2]
    rw [FlaggedPrivateKey.from_text, if_neg (by omega), if_neg c2]
    exact h

/-! ## Public keys -/

/-- C110: no class method that reads a public key from bytes, hexadecimal digits, a point or a signature returns a BIP32
public key: where `PublicKey` has a result it is `TypeError`, and where it has an exception it is the same one. -/
theorem C110_public (L : Secp) :
    (∀ b, FlaggedPublicKey.from_bytes L b = (PublicKey.from_bytes L b).bind fun _ => .error .typeError) ∧
    (∀ t, FlaggedPublicKey.from_hex L t = (PublicKey.from_hex L t).bind fun _ => .error .typeError) ∧
    (∀ x y, FlaggedPublicKey.from_point L x y = (PublicKey.from_point L x y).bind fun _ => .error .typeError) ∧
    (∀ s m h, FlaggedPublicKey.from_recoverable_signature L s m h =
      (PublicKey.from_recoverable_signature L s m h).bind fun _ => .error .typeError) ∧
    (∀ s m h, FlaggedPublicKey.from_signed_message L s m h =
      (PublicKey.from_signed_message L s m h).bind fun _ => .error .typeError) := by
  have hb : ∀ b, FlaggedPublicKey.from_bytes L b = (PublicKey.from_bytes L b).bind fun _ => .error .typeError := by
    intro b
    rw [FlaggedPublicKey.from_bytes, PublicKey.from_bytes]
    cases L.parse b <;> rfl
  have hr : ∀ s m h, FlaggedPublicKey.from_recoverable_signature L s m h =
      (PublicKey.from_recoverable_signature L s m h).bind fun _ => .error .typeError := by
    intro s m h
    rw [FlaggedPublicKey.from_recoverable_signature, PublicKey.from_recoverable_signature]
    cases message_hash m h with
    | error e => rfl
    | ok d =>
      simp only [ok_bind']
      cases public_key_from_recoverable_signature L s d <;> rfl
  refine ⟨hb, fun t => ?_, fun x y => ?_, hr, fun s m h => ?_⟩
  · rw [FlaggedPublicKey.from_hex, PublicKey.from_hex]
    cases fromhex t with
    | error e => rfl
    | ok b => exact hb b
  · rw [FlaggedPublicKey.from_point, PublicKey.from_point]
    cases int_to_be_bytes x (some 32) with
    | error e => rfl
    | ok a =>
      simp only [ok_bind']
      cases int_to_be_bytes y (some 32) with
      | error e => rfl
      | ok b => exact hb _
  · rw [FlaggedPublicKey.from_signed_message.eq_def, PublicKey.from_signed_message.eq_def]
    cases h with
    | none => rfl
    | some h =>
      cases normalize_message m with
      | error e => rfl
      | ok d =>
        simp only [ok_bind']
        cases to_recoverable_signature s with
        | error e => rfl
        | ok r => exact hr r d (some h)

/-- C110: hence `BIP32PublicKey.verify_message_and_address` never says that a signature is good: it says `False` exactly for
signatures that give no public key at all, and raises an exception for all others, the good ones included. -/
theorem C110_verify (H : Hashes) (L : Secp) (s m : Bytes) (address : Str) (hasher : Option (Bytes → Bytes)) :
    FlaggedPublicKey.verify_message_and_address H L s m address hasher ≠ .ok true ∧
    (FlaggedPublicKey.verify_message_and_address H L s m address hasher = .ok false ↔
      PublicKey.from_signed_message L s m hasher = .error .invalidSignatureError) ∧
    (PublicKey.verify_message_and_address H L s m address hasher = .ok true →
      FlaggedPublicKey.verify_message_and_address H L s m address hasher = .error .typeError) := by
  have hs := (C110_public L).2.2.2.2 s m hasher
  rw [FlaggedPublicKey.verify_message_and_address, PublicKey.verify_message_and_address,
    PublicKey.verify_message_and_hash160, hs]
  cases PublicKey.from_signed_message L s m hasher with
  | ok p =>
    refine ⟨?_, ⟨?_, ?_⟩, ?_⟩ <;> simp [Except.bind]
  | error e =>
    by_cases he : e = .invalidSignatureError
    · subst he
      refine ⟨?_, ⟨?_, ?_⟩, ?_⟩ <;> simp [Except.bind]
    · have h1 : ((Except.error e : Res (PublicKey L)).bind fun _ => (.error .typeError : Res (FlaggedPublicKey L))) =
          .error e := rfl
      rw [h1]
      refine ⟨?_, ⟨?_, ?_⟩, ?_⟩ <;> (try simp [he])

/-- C110: so for a message that was signed by any key, and the strings of its addresses, the class method raises
`TypeError` where that of `PublicKey` returns `True`. -/
theorem C110_signed (H : Hashes) (L : Secp) (k : PrivateKey) (hk : PrivValid k) (p : PublicKey L)
    (hp : k.public_key L = .ok p) (m : Bytes) (hm : m.length < 2 ^ 64) (hasher : Bytes → Bytes)
    (hh : ∀ x, (hasher x).length = 32) :
    ∃ s, k.sign_message L m (some hasher) = .ok s ∧ ∀ (c : Bool) (coin : Coin), ∃ a t,
      p.to_address H (some c) (some coin) = .ok a ∧ a.to_string H = .ok t ∧
      FlaggedPublicKey.verify_message_and_address H L s m t (some hasher) = .error .typeError := by
  obtain ⟨s, h1, h2⟩ := C84_signed H L k hk p hp m hm hasher hh
  refine ⟨s, h1, fun c coin => ?_⟩
  obtain ⟨a, t, h3, _, h4, h5⟩ := h2 c coin
  exact ⟨a, t, h3, h4, (C110_verify H L s m t (some hasher)).2.2 h5⟩

/-- C110: `BIP32PublicKey.combine_keys` returns an object of the class where `PublicKey.combine_keys` has a result, with the
same point and coin, always compressed, from which nothing can be derived and for which there is no text. -/
theorem C110_combine (L : Secp) (ks : List (PublicKey L)) :
    (∀ p, PublicKey.combine_keys ks = .ok p → ∃ x, FlaggedPublicKey.combine_keys ks = .ok x ∧ x.key.point = p.point ∧
      x.key.coin = p.coin ∧ x.key.compressed = true ∧ x.derivation = p.compressed ∧
      x.to_extended_key_string = .error .attributeError ∧
      (∀ n, 0 ≤ n ∧ n < 2 ^ 31 → x.child n = .error .attributeError) ∧
      ∀ n, ¬(0 ≤ n ∧ n < 2 ^ 31) → x.child n = .error .valueError) ∧
    (∀ e, PublicKey.combine_keys ks = .error e → FlaggedPublicKey.combine_keys ks = .error e) := by
  have hchild : ∀ x : FlaggedPublicKey L, (∀ n, 0 ≤ n ∧ n < 2 ^ 31 → x.child n = .error .attributeError) ∧
      ∀ n, ¬(0 ≤ n ∧ n < 2 ^ 31) → x.child n = .error .valueError := by
    intro x
    have hh : HARDENED = 2 ^ 31 := rfl
    refine ⟨fun n hn => ?_, fun n hn => ?_⟩
    · rw [FlaggedPublicKey.child, hh, if_neg (not_not.mpr hn), pack_be_uint32_ok n hn.1 (by omega)]
      rfl
    · rw [FlaggedPublicKey.child, hh, if_pos hn]
  rw [FlaggedPublicKey.combine_keys.eq_def, PublicKey.combine_keys.eq_def]
  cases ks with
  | nil => exact ⟨(fun p h => by cases h), (fun e h => by cases h; rfl)⟩
  | cons k ks =>
    simp only
    cases L.pubkey_combine ((k :: ks).map (·.point)) with
    | none => exact ⟨(fun p h => by cases h), (fun e h => by cases h; rfl)⟩
    | some q =>
      refine ⟨fun p h => ?_, fun e h => by cases h⟩
      cases h
      exact ⟨_, rfl, rfl, rfl, rfl, rfl, rfl, hchild _⟩

/-! Cases: the WIF text of an uncompressed key with secret one, and a good signature. -/

example : ∃ t, ({ secret := beBytes 32 1, compressed := false, coin := Bitcoin } : PrivateKey).to_WIF toyHashes = .ok t ∧
    (PrivateKey.from_WIF toyHashes t).map (·.compressed) = .ok false ∧
    (FlaggedPrivateKey.from_WIF toyHashes t).map (·.key.compressed) = .ok true := by
  refine ⟨_, to_WIF_eq _ _ _ _, ?_, ?_⟩ <;> decide +kernel

end Bitcoinx
