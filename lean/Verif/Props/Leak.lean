import Verif.Spec.Leak
import Verif.Props.Bip32Path

/-! # C127: what an extended public key and one private key below it give away, and when two children are the same -/

namespace Bitcoinx
open Spec

theorem derivePriv_offset (H : Hashes) (L : Secp) (path : List Int) (hp : ∀ n ∈ path, n < 2 ^ 31) (k c : BIP32PrivateKey)
    (p : BIP32PublicKey L) (h : XprvValid k) (hpub : k.public_key L = .ok p) (hc : derivePriv H L k path = .ok c) :
    XprvValid c ∧ secretNumber c.key = (secretNumber k.key + pathOffset H p path) % CURVE_ORDER ∧
    c.key.coin = k.key.coin := by
  induction path generalizing k p with
  | nil =>
    rw [derivePriv] at hc
    cases Except.ok.inj hc
    refine ⟨h, ?_, rfl⟩
    rw [pathOffset, Nat.add_zero]
    exact (Nat.mod_eq_of_lt h.1.2.2).symm
  | cons n path ih =>
    rw [derivePriv] at hc
    cases hk : k.child H L n with
    | error e => rw [hk] at hc; cases hc
    | ok d =>
      rw [hk] at hc
      have hd := h.child hk
      obtain ⟨m, hm, _, _, h2, _, _, _, h6, _⟩ := ((C64_private H L k h n).1 d).1 hk
      have hcom := (C64_commutes H L k h n).1 (hp n (by simp))
      have hq := BIP32PrivateKey.public_key_ok L d hd
      rw [hk, hpub, ok_bind', ok_bind', hq] at hcom
      obtain ⟨i1, i2, i3⟩ := ih (fun a ha => hp a (by simp [ha])) d _ hd hq hc
      have hpe : p = _ := (Except.ok.inj (hpub.symm.trans (BIP32PrivateKey.public_key_ok L k h)))
      refine ⟨i1, ?_, i3.trans h6⟩
      rw [i2, pathOffset, ← hcom]
      have hI : ckdPrivHash H L k m = H.hmac_sha512 p.derivation.chain_code (L.serialize true p.key.point ++ beBytes 4 n.toNat) := by
        have := hp n (by simp)
        rw [ckdPrivHash, if_neg (by omega), hpe, hm]
        rfl
      dsimp only
      generalize pathOffset H _ path = o
      rw [h2, hI, Nat.mod_add_mod]
      congr 1
      ac_rfl

/-- **C127** (one private key gives away its ancestors).  Let `c` be a private key below `k` on a path without hardened
indexes.  With the extended public key of `k` and the path, the key of `k` comes from that of `c` by one addition (or they
are the same key). -/
theorem C127_leak (H : Hashes) (L : Secp) (path : List Int) (hp : ∀ n ∈ path, n < 2 ^ 31) (k c : BIP32PrivateKey)
    (p : BIP32PublicKey L) (h : XprvValid k) (hpub : k.public_key L = .ok p) (hc : derivePriv H L k path = .ok c) :
    p.derivation = k.derivation ∧
    (pathOffset H p path % CURVE_ORDER = 0 → k.key = c.key) ∧
    (pathOffset H p path % CURVE_ORDER ≠ 0 →
      c.key.add (beBytes 32 (CURVE_ORDER - pathOffset H p path % CURVE_ORDER)) = .ok k.key) := by
  obtain ⟨h1, h2, h3⟩ := derivePriv_offset H L path hp k c p h hpub hc
  have hk : secretNumber k.key < CURVE_ORDER := h.1.2.2
  have hlt := Nat.mod_lt (pathOffset H p path) curve_order_pos
  refine ⟨?_, fun h0 => ?_, fun h0 => ?_⟩
  · rw [BIP32PrivateKey.public_key_ok L k h] at hpub
    rw [← Except.ok.inj hpub]
  · have e : secretNumber c.key = secretNumber k.key := by
      rw [h2, Nat.add_mod, h0, Nat.add_zero, Nat.mod_mod, Nat.mod_eq_of_lt hk]
    have e1 := h.secret
    have e2 := h1.secret
    rw [e, e1] at e2
    have e3 := h.2.1
    have e4 := h1.2.1
    cases hk' : k.key
    cases hc' : c.key
    rw [hk'] at e2 e3 h3
    rw [hc'] at e2 e4 h3
    simp only at e2 e3 e4 h3
    rw [e2, e3, e4, h3]
  · refine ((C62_values c.key h1.1 _).1 k.key).2 ⟨by simp, ?_, h.1, ?_, by rw [h.2.1, h1.2.1], h3.symm⟩
    · rw [beBytes32 _ (by omega)]
      omega
    · rw [beBytes32 _ (by omega), h2, Nat.add_mod, Nat.mod_mod, ← Nat.add_mod]
      have e := Nat.div_add_mod (pathOffset H p path) CURVE_ORDER
      have : secretNumber k.key + pathOffset H p path + (CURVE_ORDER - pathOffset H p path % CURVE_ORDER) =
          secretNumber k.key + CURVE_ORDER * (pathOffset H p path / CURVE_ORDER + 1) := by
        rw [Nat.mul_add, Nat.mul_one]
        omega
      rw [this, Nat.add_mul_mod_self_left, Nat.mod_eq_of_lt hk]

/-- **C127** (and so everything below them).  Two keys below the same extended public key on paths without hardened indexes
differ by a number which that extended public key and the paths give. -/
theorem C127_siblings (H : Hashes) (L : Secp) (path path' : List Int) (hp : ∀ n ∈ path, n < 2 ^ 31)
    (hp' : ∀ n ∈ path', n < 2 ^ 31) (k c c' : BIP32PrivateKey) (p : BIP32PublicKey L) (h : XprvValid k)
    (hpub : k.public_key L = .ok p) (hc : derivePriv H L k path = .ok c) (hc' : derivePriv H L k path' = .ok c') :
    (secretNumber c.key + pathOffset H p path') % CURVE_ORDER = (secretNumber c'.key + pathOffset H p path) % CURVE_ORDER := by
  rw [(derivePriv_offset H L path hp k c p h hpub hc).2.1, (derivePriv_offset H L path' hp' k c' p h hpub hc').2.1,
    Nat.mod_add_mod, Nat.mod_add_mod]
  congr 1
  omega

theorem message_ne (a b : Bytes) {m m' : Nat} (hm : m < 2 ^ 32) (hm' : m' < 2 ^ 32) (hne : m ≠ m') :
    a ++ beBytes 4 m ≠ b ++ beBytes 4 m' := by
  intro e
  have e := List.append_inj_right' e (by simp)
  have := congrArg beValue e
  rw [beValue_beBytes _ _ (by omega), beValue_beBytes _ _ (by omega)] at this
  exact hne this

/-- **C127** (different children, private).  Two children of a key with different indexes, hardened or not, have the same
secret only if the HMACs of two different messages begin with the same 32 bytes. -/
theorem C127_children (H : Hashes) (L : Secp) (k c c' : BIP32PrivateKey) (h : XprvValid k) (m m' : Nat) (hne : m ≠ m')
    (hc : k.child H L m = .ok c) (hc' : k.child H L m' = .ok c') (he : c.key.secret = c'.key.secret) :
    ∃ a b, a ≠ b ∧ (a = (if 2 ^ 31 ≤ m then 0 :: k.key.secret else L.serialize true (secretNumber k.key • L.gen)) ++ beBytes 4 m) ∧
      (b = (if 2 ^ 31 ≤ m' then 0 :: k.key.secret else L.serialize true (secretNumber k.key • L.gen)) ++ beBytes 4 m') ∧
      (H.hmac_sha512 k.derivation.chain_code a).take 32 = (H.hmac_sha512 k.derivation.chain_code b).take 32 := by
  obtain ⟨i, hi, i0, i1, i2, _⟩ := ((C64_private H L k h m).1 c).1 hc
  obtain ⟨j, hj, j0, j1, j2, _⟩ := ((C64_private H L k h m').1 c').1 hc'
  have hi : m = i := by omega
  have hj : m' = j := by omega
  subst hi hj
  refine ⟨_, _, message_ne _ _ i0 j0 hne, rfl, rfl, ?_⟩
  have e : secretNumber c.key = secretNumber c'.key := by rw [secretNumber, secretNumber, he]
  rw [i2, j2] at e
  have hk : secretNumber k.key < CURVE_ORDER := h.1.2.2
  rw [ckdPrivHash, h.secret] at e i1
  rw [ckdPrivHash, h.secret] at e j1
  refine beValue_inj _ _ (by rw [(hmac_half_length H _ _).1, (hmac_half_length H _ _).1]) ?_
  have e' := Nat.ModEq.add_right_cancel' (secretNumber k.key) (show _ ≡ _ [MOD CURVE_ORDER] from e)
  rw [Nat.ModEq, Nat.mod_eq_of_lt i1, Nat.mod_eq_of_lt j1] at e'
  exact e'

theorem gen_smul_inj (L : Secp) {x y : Nat} (hx : x < CURVE_ORDER) (hy : y < CURVE_ORDER) (h : x • L.gen = y • L.gen) : x = y := by
  have : ∀ x y : Nat, x ≤ y → y < CURVE_ORDER → x • L.gen = y • L.gen → x = y := by
    intro x y hxy hy h
    have e : (y - x) • L.gen = 0 := by
      have e : (y - x + x) • L.gen = x • L.gen := by rw [Nat.sub_add_cancel hxy, h]
      rw [add_nsmul] at e
      exact left_eq_add.1 (by rw [add_comm]; exact e.symm)
    rw [gen_smul_eq_zero, Nat.mod_eq_of_lt (by omega)] at e
    omega
  rcases Nat.le_total x y with q | q
  · exact this x y q hy h
  · exact (this y x q hx h.symm).symm

/-- **C127** (different children, public).  Two children of an extended public key with different indexes pay to the same
hash only if two different serialized points have it, or the HMACs of two different messages begin with the same 32 bytes. -/
theorem C127_addresses {L : Secp} (H : Hashes) (k c c' : BIP32PublicKey L) (h : XpubValid k) (m m' : Nat) (hne : m ≠ m')
    (hc : k.child H m = .ok c) (hc' : k.child H m' = .ok c') (he : c.key.hash160 H = c'.key.hash160 H) :
    (L.serialize true c.key.point ≠ L.serialize true c'.key.point ∧
      H.ripemd160 (H.sha256 (L.serialize true c.key.point)) = H.ripemd160 (H.sha256 (L.serialize true c'.key.point))) ∨
    ∃ a b, a ≠ b ∧ a = L.serialize true k.key.point ++ beBytes 4 m ∧ b = L.serialize true k.key.point ++ beBytes 4 m' ∧
      (H.hmac_sha512 k.derivation.chain_code a).take 32 = (H.hmac_sha512 k.derivation.chain_code b).take 32 := by
  have v := h.child hc
  have v' := h.child hc'
  obtain ⟨i, hi, i0, i1, i2, _⟩ := ((C64_public H k h m).1 c).1 hc
  obtain ⟨j, hj, j0, j1, j2, _⟩ := ((C64_public H k h m').1 c').1 hc'
  have hi : m = i := by omega
  have hj : m' = j := by omega
  subst hi hj
  by_cases hs : L.serialize true c.key.point = L.serialize true c'.key.point
  · right
    refine ⟨_, _, message_ne _ _ (by omega) (by omega) hne, rfl, rfl, ?_⟩
    have e := L.parse_serialize true _ v.1
    rw [hs, L.parse_serialize true _ v'.1] at e
    have e := Option.some.inj e
    rw [i2, j2] at e
    exact beValue_inj _ _ (by rw [(hmac_half_length H _ _).1, (hmac_half_length H _ _).1])
      (gen_smul_inj L i1 j1 (add_right_cancel e).symm)
  · left
    refine ⟨hs, ?_⟩
    rw [PublicKey.hash160, PublicKey.hash160, v.bytes, v'.bytes] at he
    exact he

/-- A key three steps below `xprv3`: what `C127_leak` and `C127_siblings` ask for. -/
example : ∃ p c, xprv3.public_key toySecp = .ok p ∧ derivePriv plusOne toySecp xprv3 [0, 0, 0] = .ok c := by
  obtain ⟨c, hc⟩ := plusOne_derive toySecp 3 xprv3 xprv3_valid (by decide +kernel)
  exact ⟨_, c, BIP32PrivateKey.public_key_ok toySecp xprv3 xprv3_valid, hc⟩

theorem plusOne_child (n : Nat) (hn : n < 2 ^ 31) : ∃ c, xprv3.child plusOne toySecp n = .ok c ∧ c.key.secret = beBytes 32 6 := by
  have ha : xprv3.key.add (beBytes 32 1) = .ok { xprv3.key with secret := beBytes 32 6 } :=
    ((C62_values xprv3.key xprv3_valid.1 _).1 _).2 ⟨by simp, by decide +kernel, by unfold PrivValid; decide +kernel,
      by decide +kernel, by dsimp only, by dsimp only⟩
  rw [BIP32PrivateKey.child_eq plusOne toySecp xprv3 xprv3_valid n ⟨by omega, by omega⟩]
  have hI : ckdPrivHash plusOne toySecp xprv3 (n : Int).toNat = beBytes 32 1 ++ zeros 32 := rfl
  have ht : (beBytes 32 1 ++ zeros 32).take 32 = beBytes 32 1 := by
    rw [List.take_append_of_le_length (by simp), List.take_of_length_le (by simp)]
  rw [hI, ht, ha]
  exact ⟨_, rfl, rfl⟩

/-- Two children with the same secret, where HMAC is constant: what `C127_children` asks for. -/
example : ∃ c c', xprv3.child plusOne toySecp 1 = .ok c ∧ xprv3.child plusOne toySecp 2 = .ok c' ∧
    c.key.secret = c'.key.secret := by
  obtain ⟨c, h1, h2⟩ := plusOne_child 1 (by norm_num)
  obtain ⟨c', h1', h2'⟩ := plusOne_child 2 (by norm_num)
  exact ⟨c, c', h1, h1', by rw [h2, h2']⟩

/-- Two public children that pay to the same hash, where HMAC is constant: what `C127_addresses` asks for. -/
example : ∃ p c c', xprv3.public_key toySecp = .ok p ∧ XpubValid p ∧ p.child plusOne 1 = .ok c ∧
    p.child plusOne 2 = .ok c' ∧ c.key.hash160 plusOne = c'.key.hash160 plusOne := by
  have hp := BIP32PrivateKey.public_key_ok toySecp xprv3 xprv3_valid
  have key : ∀ n : Nat, n < 2 ^ 31 → ∃ c, (xprv3.public_key toySecp >>= fun p => p.child plusOne n) = .ok c ∧
      c.key = { point := be_bytes_to_int (beBytes 32 6) • toySecp.gen, compressed := true, coin := xprv3.key.coin } := by
    intro n hn
    obtain ⟨d, h1, h2⟩ := plusOne_child n hn
    rw [← (C64_commutes plusOne toySecp xprv3 xprv3_valid n).1 (by omega), h1, ok_bind',
      BIP32PrivateKey.public_key_ok toySecp d (xprv3_valid.child h1)]
    obtain ⟨_, _, _, _, _, _, _, _, h6, _⟩ := ((C64_private plusOne toySecp xprv3 xprv3_valid n).1 d).1 h1
    refine ⟨_, rfl, ?_⟩
    rw [secretNumber, h2, h6]
  obtain ⟨c, h1, h2⟩ := key 1 (by norm_num)
  obtain ⟨c', h1', h2'⟩ := key 2 (by norm_num)
  rw [hp, ok_bind'] at h1 h1'
  exact ⟨_, c, c', hp, xprv3_valid.public_key hp, h1, h1', by rw [h2, h2']⟩

end Bitcoinx
