import Verif.Props.Wallet
import Verif.Props.Classify

/-! # C115: exported keys, signed messages and outputs of several owners -/

namespace Bitcoinx
open Spec
variable {H : Hashes} {L : Secp}

/-- **C115** (export).  The owner may export the private key in the WIF of any network; the key read from it has the
watched key and address, and signs as well. -/
theorem C115_export (k : BIP32PrivateKey) (h : XprvValid k) (hd : k.derivation.depth ≤ 255)
    (hc : k.key.coin ∈ all_coins) (path : List Int) (hn : ∀ n ∈ path, n < 2 ^ 31) (c : BIP32PrivateKey)
    (hk : derivePriv H L k path = .ok c) :
    ∃ p t w v, k.public_key L = .ok p ∧ p.to_extended_key_string H = .ok t ∧
      bip32_key_from_string H L t = .ok (.pub w) ∧ derivePub H w path = .ok v ∧
      ∀ coin ∈ all_coins, ∃ wif k' q a script, c.key.to_WIF H none (some coin) = .ok wif ∧
        PrivateKey.from_text H wif = .ok k' ∧ k'.public_key L = .ok q ∧ q.to_bytes = v.key.to_bytes ∧
        v.key.to_address H none (some coin) = .ok a ∧ q.to_address H none (some coin) = .ok a ∧
        a.to_script_bytes = .ok script ∧
        ∀ (tx : Tx) (i : Nat) (value : Int) (sighash : Nat), Sound tx → i < tx.inputs.length → 0 ≤ value →
          value < 2 ^ 63 → sighash < 256 → ∃ tx', signInput H L tx ⟨i, value, .hash q, [k'], sighash⟩ = .ok tx' ∧
            Spends H L tx' i value script := by
  obtain ⟨p, t, w, hp, ht, hw, hall⟩ := C115_keys (H := H) (L := L) k h hd hc
  obtain ⟨v, hv, hpt, hcomp, _⟩ := (hall path hn).2 c hk
  refine ⟨p, t, w, v, hp, ht, hw, hv, fun coin hcoin => ?_⟩
  have hcv := derive_valid h hk
  obtain ⟨wif, k', h1, _, h3, h4, h5, _, _⟩ := C57_roundtrip H c.key hcv.1 none (some coin) hcoin
  rw [Option.getD_none, hcv.2.1] at h5
  have hkv : PrivValid k' := by unfold PrivValid; rw [h4]; exact hcv.1
  have hq := PrivateKey.public_key_ok L k' hkv
  rw [h4, h5] at hq
  have hvb : v.key.to_bytes = L.serialize true (secretNumber c.key • L.gen) := by
    rw [PublicKey.to_bytes, Option.getD_none, hcomp, hpt]
  obtain ⟨a, ha, hae, has⟩ := (C100_key H v.key).2.2 none (some coin)
  rw [Option.getD_none, hcomp, hpt] at hae has
  generalize hqe : ({ point := be_bytes_to_int c.key.secret • L.gen, compressed := true, coin := k'.coin } : PublicKey L) = q
    at hq
  have hqb : q.to_bytes = L.serialize true (secretNumber c.key • L.gen) := by subst hqe; rfl
  refine ⟨wif, k', q, a, _, h1, h3, hq, hqb.trans hvb.symm, ha, ?_, has, ?_⟩
  · obtain ⟨b, hb, hbe, _⟩ := (C100_key H q).2.2 none (some coin)
    rw [hb, hbe, hae]
    subst hqe; rfl
  intro tx i value sighash hs hi hv0 hv1 hsg
  have hof : IsPublicKeyOf q k' := by
    subst hqe; exact ⟨by rw [secretNumber, h4], h5.symm, rfl⟩
  obtain ⟨tx', lock, s, e1, e2, _, _, e5⟩ := C113_input (H := H) (L := L) hs ⟨i, value, .hash q, [k'], sighash⟩
    { input := hi, value := ⟨hv0, hv1⟩, sighash := hsg
      keys := by intro x hx; rw [List.mem_singleton.1 hx]; exact hkv
      signers := ⟨k', rfl, hof⟩ }
  refine ⟨tx', e1, ?_⟩
  have e : lock = [0x76, 0xa9, 20] ++ keyHash H (L.serialize true (secretNumber c.key • L.gen)) ++ [0x88, 0xac] := by
    rw [Lock.to_script] at e2
    have := Except.ok.inj (e2.symm.trans (C100_key H q).2.1)
    rw [this]; subst hqe; rfl
  rwa [e] at e5

/-- **C115** (messages).  A message that the owner signs verifies against the text of the watched address. -/
theorem C115_message (k : BIP32PrivateKey) (h : XprvValid k) (hd : k.derivation.depth ≤ 255)
    (hc : k.key.coin ∈ all_coins) (path : List Int) (hn : ∀ n ∈ path, n < 2 ^ 31) (c : BIP32PrivateKey)
    (hk : derivePriv H L k path = .ok c) (m : Bytes) (hm : m.length < 2 ^ 64) (hasher : Bytes → Bytes)
    (hh : ∀ x, (hasher x).length = 32) :
    ∃ p t w v s, k.public_key L = .ok p ∧ p.to_extended_key_string H = .ok t ∧
      bip32_key_from_string H L t = .ok (.pub w) ∧ derivePub H w path = .ok v ∧
      c.key.sign_message L m (some hasher) = .ok s ∧
      ∀ coin : Coin, ∃ a text, v.key.to_address H none (some coin) = .ok a ∧ a.to_string H = .ok text ∧
        PublicKey.verify_message_and_address H L s m text (some hasher) = .ok true := by
  obtain ⟨p, t, w, hp, ht, hw, hall⟩ := C115_keys (H := H) (L := L) k h hd hc
  obtain ⟨v, hv, hpt, hcomp, _⟩ := (hall path hn).2 c hk
  have hcv := derive_valid h hk
  obtain ⟨s, h1, h2⟩ := C84_signed H L c.key hcv.1 _ (PrivateKey.public_key_ok L c.key hcv.1) m hm hasher hh
  refine ⟨p, t, w, v, s, hp, ht, hw, hv, h1, fun coin => ?_⟩
  obtain ⟨a, text, e1, _, e3, e4⟩ := h2 true coin
  refine ⟨a, text, ?_, e3, e4⟩
  rw [← e1, PublicKey.to_address, PublicKey.to_address, PublicKey.hash160, PublicKey.hash160, PublicKey.to_bytes,
    PublicKey.to_bytes, Option.getD_none, hcomp, hpt]
  rfl

/-- The watcher's part of what is known of one owner: the text of their extended public key and the key it leads to. -/
def Watched (H : Hashes) (L : Secp) (path : List Int) (t : Str) (v : BIP32PublicKey L) : Prop :=
  ∃ w, bip32_key_from_string H L t = .ok (.pub w) ∧ derivePub H w path = .ok v

theorem watched_all (path : List Int) (hn : ∀ n ∈ path, n < 2 ^ 31) {ks cs : List BIP32PrivateKey}
    (hk : List.Forall₂ (fun k c => derivePriv H L k path = .ok c) ks cs)
    (h : ∀ k ∈ ks, XprvValid k ∧ k.derivation.depth ≤ 255 ∧ k.key.coin ∈ all_coins) :
    ∃ ts vs, List.Forall₂ (fun (k : BIP32PrivateKey) t => (do (← k.public_key L).to_extended_key_string H) = .ok t) ks ts ∧
      List.Forall₂ (Watched H L path) ts vs ∧
      List.Forall₂ (fun (c : BIP32PrivateKey) (v : BIP32PublicKey L) => PrivValid c.key ∧
        v.key.point = secretNumber c.key • L.gen ∧ v.key.compressed = true) cs vs := by
  induction hk with
  | nil => exact ⟨[], [], .nil, .nil, .nil⟩
  | @cons k c ks cs hkc _ ih =>
    obtain ⟨ts, vs, h1, h2, h3⟩ := ih (fun k hk => h k (List.mem_cons_of_mem _ hk))
    obtain ⟨hv, hd, hc⟩ := h k List.mem_cons_self
    obtain ⟨p, t, w, hp, ht, hw, hall⟩ := C115_keys (H := H) (L := L) k hv hd hc
    obtain ⟨v, hv', hpt, hcomp, _⟩ := (hall path hn).2 c hkc
    refine ⟨t :: ts, v :: vs, .cons ?_ h1, .cons ⟨w, hw, hv'⟩ h2, .cons ⟨(derive_valid hv hkc).1, hpt, hcomp⟩ h3⟩
    rw [hp, ok_bind', ht]

theorem forall_sub {α β : Type} {R : α → β → Prop} {as as' : List α} {bs : List β} (h : List.Forall₂ R as bs)
    (hs : as'.Sublist as) : ∃ bs', bs'.Sublist bs ∧ List.Forall₂ R as' bs' := by
  induction hs generalizing bs with
  | slnil => cases h; exact ⟨[], .slnil, .nil⟩
  | cons a _ ih =>
    cases h with
    | cons hab h => obtain ⟨bs', h1, h2⟩ := ih h; exact ⟨bs', .cons _ h1, h2⟩
  | cons_cons a _ ih =>
    cases h with
    | cons hab h => obtain ⟨bs', h1, h2⟩ := ih h; exact ⟨_ :: bs', .cons_cons _ h1, .cons hab h2⟩

/-- **C115** (several owners).  Up to fifteen owners give the texts of their extended public keys to somebody, who
derives a key of each along a path, makes the script that asks for signatures of `m` of them, and the text of its
address.  The script is short enough to be pushed (520 bytes), the address is read back, and any `m` of the owners, who
sign in the order of the keys, can spend what was paid to it. -/
theorem C115_cosigners (C : PyCase) (path : List Int) (hn : ∀ n ∈ path, n < 2 ^ 31) (ks cs : List BIP32PrivateKey)
    (hk : List.Forall₂ (fun k c => derivePriv H L k path = .ok c) ks cs)
    (h : ∀ k ∈ ks, XprvValid k ∧ k.derivation.depth ≤ 255 ∧ k.key.coin ∈ all_coins) (m : Nat) (hm : 1 ≤ m)
    (hmn : m ≤ ks.length) (h15 : ks.length ≤ 15) (coin : Coin) (hcoin : coin ∈ all_coins) :
    ∃ ts vs redeem a text script,
      List.Forall₂ (fun (k : BIP32PrivateKey) t => (do (← k.public_key L).to_extended_key_string H) = .ok t) ks ts ∧
      List.Forall₂ (Watched H L path) ts vs ∧
      (Output.P2MultiSig (vs.map (·.key)) m).to_script_bytes = .ok redeem ∧ redeem.length ≤ 520 ∧
      P2SH_Address (H.hash160 redeem) coin = .ok a ∧ a.to_string H = .ok text ∧
      Address.from_string C H text coin = .ok a ∧ a.to_script_bytes = .ok script ∧
      ∀ (signers : List BIP32PrivateKey), signers.Sublist cs → signers.length = m →
        ∀ (tx : Tx) (i : Nat) (value : Int) (sighash : Nat), Sound tx → i < tx.inputs.length → 0 ≤ value →
          value < 2 ^ 63 → sighash < 256 →
          ∃ tx', signInput H L tx ⟨i, value, .script (vs.map (·.key)) m, signers.map (·.key), sighash⟩ = .ok tx' ∧
            Sound tx' ∧ Spends H L tx' i value script := by
  obtain ⟨ts, vs, h1, h2, h3⟩ := watched_all path hn hk h
  have hlen : vs.length = ks.length := by rw [← h2.length_eq, ← h1.length_eq]
  have hl' : (vs.map (·.key)).length = ks.length := by rw [List.length_map, hlen]
  have hscr := multi_script (vs.map (·.key)) m hm (by omega) (by omega)
  have hvv : ∀ v ∈ vs, PubValid v.key ∧ v.key.compressed = true := by
    intro v hv
    obtain ⟨c, hc⟩ := forall_left h3.flip hv
    exact ⟨point_valid hc.1 hc.2.1, hc.2.2⟩
  have hrl : ((UInt8.ofNat (0x50 + m) :: (((vs.map (·.key)).map (·.to_bytes)).flatMap sized ++
      [UInt8.ofNat (0x50 + ((vs.map (·.key)).map (·.to_bytes)).length), 0xae])) : Bytes).length ≤ 520 := by
    have : (((vs.map (·.key)).map (·.to_bytes)).flatMap sized).length = 34 * vs.length := by
      clear hscr h2 h3 h1 hlen hl'
      induction vs with
      | nil => rfl
      | cons v vs ih =>
        have e : (v.key.to_bytes).length = 33 := by
          rw [PublicKey.to_bytes, Option.getD_none, (hvv v List.mem_cons_self).2, L.serialize_length]; rfl
        have := ih (fun x hx => hvv x (List.mem_cons_of_mem _ hx))
        simp only [List.map_cons, List.flatMap_cons, List.length_append, sized, List.length_cons, e] at this ⊢
        omega
    simp only [List.length_cons, List.length_append, List.length_nil, this]
    omega
  generalize hre : (UInt8.ofNat (0x50 + m) :: (((vs.map (·.key)).map (·.to_bytes)).flatMap sized ++
      [UInt8.ofNat (0x50 + ((vs.map (·.key)).map (·.to_bytes)).length), 0xae])) = redeem at hscr hrl
  have hh : (H.hash160 redeem).length = 20 := H.ripemd160_length _
  have haddr : ∀ coin, P2SH_Address (H.hash160 redeem) coin = .ok (.P2SH (H.hash160 redeem) coin) := by
    intro coin
    simp only [P2SH_Address, validate_hash160, hh, ne_eq, not_true_eq_false, if_false, ok_bind', pure_ok']
  obtain ⟨text, ht1, _, ht2⟩ := C53_roundtrip C H (.P2SH (H.hash160 redeem) coin) hh hcoin
  refine ⟨ts, vs, redeem, _, text, _, h1, h2, hscr, hrl, haddr coin, ht1, ht2, address_script (.P2SH (H.hash160 redeem) coin) hh, ?_⟩
  intro signers hsub hsl tx i value sighash hs hi hv0 hv1 hsg
  obtain ⟨qs, hq1, hq2⟩ := forall_sub h3 hsub
  obtain ⟨tx', lock, s, e1, e2, _, e4, e5⟩ := C113_input (H := H) (L := L) hs
    ⟨i, value, .script (vs.map (·.key)) m, signers.map (·.key), sighash⟩
    { input := hi, value := ⟨hv0, hv1⟩, sighash := hsg
      keys := by
        intro x hx
        obtain ⟨c, hc, rfl⟩ := List.mem_map.1 hx
        obtain ⟨q, hq⟩ := forall_left hq2 hc
        exact hq.1
      signers := by
        refine ⟨hm, by rw [List.length_map, hsl], by omega, ?_, qs.map (·.key), hq1.map _, ?_⟩
        · intro p hp
          obtain ⟨v, hv, rfl⟩ := List.mem_map.1 hp
          exact (hvv v hv).1
        · rw [List.forall₂_map_left_iff, List.forall₂_map_right_iff]
          exact hq2.imp fun _ _ h => h.2.1 }
  refine ⟨tx', e1, e4, ?_⟩
  have e : lock = 0xa9 :: 20 :: (H.hash160 redeem ++ [0x87]) := by
    rw [Lock.to_script, hscr, ok_bind', haddr, ok_bind', address_script (.P2SH (H.hash160 redeem) Bitcoin) hh] at e2
    exact (Except.ok.inj e2).symm
  rwa [e] at e5

/-- A second owner. -/
def xprv8 : BIP32PrivateKey :=
  { key := { secret := beBytes 32 8, compressed := true, coin := BitcoinTestnet }, derivation := { chain_code := zeros 32, n := 0, depth := 0, parent_fingerprint := zeros 4 } }

/-- Three owners, two of whom have the same key, and an address that asks for signatures of two of them. -/
example (C : PyCase) (L : Secp) : ∃ ks cs : List BIP32PrivateKey, ks.length = 3 ∧
    List.Forall₂ (fun k c => derivePriv plusOne L k [0, 0] = .ok c) ks cs ∧
    (∀ k ∈ ks, XprvValid k ∧ k.derivation.depth ≤ 255 ∧ k.key.coin ∈ all_coins) ∧
    ∃ (vs : List (BIP32PublicKey L)) (redeem : Bytes) (a : Address) (text : Str), vs.length = 3 ∧
      (Output.P2MultiSig (vs.map (·.key)) 2).to_script_bytes = .ok redeem ∧
      P2SH_Address (plusOne.hash160 redeem) BitcoinTestnet = .ok a ∧ a.to_string plusOne = .ok text ∧
      Address.from_string C plusOne text BitcoinTestnet = .ok a := by
  have h8 : XprvValid xprv8 := by unfold XprvValid PrivValid DerivationValid; decide +kernel
  obtain ⟨c, hc⟩ := plusOne_derive L 2 xprv3 xprv3_valid (by decide +kernel)
  obtain ⟨d, hd⟩ := plusOne_derive L 2 xprv8 h8 (by decide +kernel)
  have hk : List.Forall₂ (fun k c => derivePriv plusOne L k [0, 0] = .ok c) [xprv3, xprv8, xprv3] [c, d, c] :=
    .cons hc (.cons hd (.cons hc .nil))
  have hall : ∀ k ∈ [xprv3, xprv8, xprv3], XprvValid k ∧ k.derivation.depth ≤ 255 ∧ k.key.coin ∈ all_coins := by
    intro k hk
    simp only [List.mem_cons, List.not_mem_nil, or_false] at hk
    rcases hk with rfl | rfl | rfl
    · exact ⟨xprv3_valid, by decide, by decide +kernel⟩
    · exact ⟨h8, by decide, by decide +kernel⟩
    · exact ⟨xprv3_valid, by decide, by decide +kernel⟩
  obtain ⟨ts, vs, redeem, a, text, _, h1, h2, h3, _, h5, h6, h7, _⟩ := C115_cosigners C [0, 0] (by decide) _ _ hk hall 2
    (by decide) (by simp) (by simp) BitcoinTestnet (by decide +kernel)
  exact ⟨_, _, rfl, hk, hall, vs, redeem, a, text, by rw [← h2.length_eq, ← h1.length_eq]; rfl, h3, h5, h6, h7⟩

end Bitcoinx
