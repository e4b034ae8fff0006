import Verif.Props.Spending
import Verif.Props.Bip32Path
import Verif.Props.Address

/-! # C115: wallets that only know an extended public key -/

namespace Bitcoinx
open Spec
variable {H : Hashes} {L : Secp}

theorem child_withCoin (p : BIP32PublicKey L) (coin : Coin) (n : Int) :
    (withCoinPub p coin).child H n = (p.child H n).map (withCoinPub · coin) := by
  have hb : (withCoinPub p coin).key.to_bytes = p.key.to_bytes := rfl
  rw [BIP32PublicKey.child, BIP32PublicKey.child]
  by_cases hn : ¬ (0 ≤ n ∧ n < HARDENED)
  · rw [if_pos hn, if_pos hn]; rfl
  · rw [if_neg hn, if_neg hn, hb]
    cases pack_be_uint32 n with
    | error e => rfl
    | ok b =>
      simp only [ok_bind', PublicKey.add]
      rw [show (withCoinPub p coin).derivation = p.derivation from rfl,
        show (withCoinPub p coin).key.point = p.key.point from rfl]
      cases to_32_bytes (H.hmac_sha512_halves p.derivation.chain_code (p.key.to_bytes ++ b)).1 with
      | error e => rfl
      | ok v =>
        simp only [ok_bind']
        cases L.pubkey_tweak_add p.key.point v with
        | none => rfl
        | some q => rfl

theorem derive_withCoin (coin : Coin) (path : List Int) (p : BIP32PublicKey L) :
    derivePub H (withCoinPub p coin) path = (derivePub H p path).map (withCoinPub · coin) := by
  induction path generalizing p with
  | nil => rfl
  | cons n path ih =>
    rw [derivePub, derivePub, child_withCoin]
    cases p.child H n with
    | error e => rfl
    | ok c => exact ih c

theorem derive_valid {path : List Int} {k c : BIP32PrivateKey} (h : XprvValid k)
    (hc : derivePriv H L k path = .ok c) : XprvValid c := by
  induction path generalizing k with
  | nil => rw [derivePriv] at hc; rwa [← Except.ok.inj hc]
  | cons n path ih =>
    rw [derivePriv] at hc
    cases hk : k.child H L n with
    | error e => rw [hk] at hc; cases hc
    | ok d => rw [hk] at hc; exact ih (h.child hk) hc

/-- **C115** (keys).  From the text of the extended public key, along a path that is not hardened, a program reaches
the public keys of the private keys that their owner reaches along it, and fails where they fail. -/
theorem C115_keys (k : BIP32PrivateKey) (h : XprvValid k) (hd : k.derivation.depth ≤ 255)
    (hc : k.key.coin ∈ all_coins) :
    ∃ p t w, k.public_key L = .ok p ∧ p.to_extended_key_string H = .ok t ∧
      bip32_key_from_string H L t = .ok (.pub w) ∧
      ∀ path : List Int, (∀ n ∈ path, n < 2 ^ 31) →
        (∀ e, derivePriv H L k path = .error e ↔ derivePub H w path = .error e) ∧
        ∀ c, derivePriv H L k path = .ok c → ∃ v, derivePub H w path = .ok v ∧
          v.key.point = secretNumber c.key • L.gen ∧ v.key.compressed = true ∧ v.derivation = c.derivation := by
  have hp := BIP32PrivateKey.public_key_ok L k h
  generalize hpe : BIP32PublicKey.mk (L := L) { point := secretNumber k.key • L.gen, compressed := true, coin := k.key.coin }
    k.derivation = p at hp
  have hpv : XpubValid p := by
    subst hpe; exact ⟨point_valid h.1 rfl, rfl, h.2.2⟩
  obtain ⟨t, coin, h1, h2, h3, h4⟩ := C65_public H L p hpv (by subst hpe; exact hd) (by subst hpe; exact hc)
  refine ⟨p, t, _, hp, h1, h4, fun path hn => ?_⟩
  have hpath := C64_path H L path hn k h
  rw [hp, ok_bind'] at hpath
  rw [derive_withCoin, ← hpath]
  cases hk : derivePriv H L k path with
  | error e => exact ⟨fun e' => by simp [error_bind', Except.map], fun c h => by cases h⟩
  | ok c =>
    have hcv := derive_valid h hk
    rw [ok_bind', BIP32PrivateKey.public_key_ok L c hcv]
    refine ⟨fun e' => by simp [Except.map], fun c' h' => ?_⟩
    cases h'
    exact ⟨_, rfl, rfl, rfl, rfl⟩

/-- **C115** (spending).  What is paid to the address of such a key, as read from its text, the owner can spend: an
input signed with the private key they reach satisfies the script of the address. -/
theorem C115_spend (C : PyCase) (k : BIP32PrivateKey) (h : XprvValid k) (hd : k.derivation.depth ≤ 255)
    (hc : k.key.coin ∈ all_coins) (path : List Int) (hn : ∀ n ∈ path, n < 2 ^ 31) (c : BIP32PrivateKey)
    (hk : derivePriv H L k path = .ok c) :
    ∃ p t w v, k.public_key L = .ok p ∧ p.to_extended_key_string H = .ok t ∧
      bip32_key_from_string H L t = .ok (.pub w) ∧ derivePub H w path = .ok v ∧
      ∀ coin ∈ all_coins, ∃ a text script, v.key.to_address H none (some coin) = .ok a ∧ a.to_string H = .ok text ∧
        Address.from_string C H text coin = .ok a ∧ a.to_script_bytes = .ok script ∧
        ∃ q, c.public_key L = .ok q ∧ ∀ (tx : Tx) (i : Nat) (value : Int) (sighash : Nat), Sound tx →
          i < tx.inputs.length → 0 ≤ value → value < 2 ^ 63 → sighash < 256 →
          ∃ tx', signInput H L tx ⟨i, value, .hash q.key, [c.key], sighash⟩ = .ok tx' ∧ Sound tx' ∧
            Spends H L tx' i value script := by
  obtain ⟨p, t, w, hp, ht, hw, hall⟩ := C115_keys (H := H) (L := L) k h hd hc
  obtain ⟨v, hv, hpt, hcomp, _⟩ := (hall path hn).2 c hk
  refine ⟨p, t, w, v, hp, ht, hw, hv, fun coin hcoin => ?_⟩
  obtain ⟨a, ha, hae, has⟩ := (C100_key H v.key).2.2 none (some coin)
  have hcv := derive_valid h hk
  have hav : AddressValid a := by subst hae; exact H.ripemd160_length _
  have hac : a.coin = coin := by subst hae; rfl
  obtain ⟨text, ht1, _, ht2⟩ := C53_roundtrip C H a hav (by rw [hac]; exact hcoin)
  rw [hac] at ht2
  refine ⟨a, text, _, ha, ht1, ht2, has, _, BIP32PrivateKey.public_key_ok L c hcv, ?_⟩
  intro tx i value sighash hs hi hv0 hv1 hsg
  obtain ⟨tx', lock, s, h1, h2, _, h4, h5⟩ := C113_input (H := H) (L := L) hs
    ⟨i, value, .hash { point := secretNumber c.key • L.gen, compressed := true, coin := c.key.coin }, [c.key], sighash⟩
    { input := hi, value := ⟨hv0, hv1⟩, sighash := hsg
      keys := by intro k' hk'; rw [List.mem_singleton.1 hk']; exact hcv.1
      signers := ⟨c.key, rfl, rfl, hcv.2.1.symm, rfl⟩ }
  refine ⟨tx', h1, h4, ?_⟩
  have e : lock = [0x76, 0xa9, 20] ++ keyHash H (L.serialize true (secretNumber c.key • L.gen)) ++ [0x88, 0xac] := by
    have := (C100_key H (L := L) { point := secretNumber c.key • L.gen, compressed := true, coin := c.key.coin }).2.1
    rw [Lock.to_script] at h2
    exact Except.ok.inj (h2.symm.trans this)
  rw [e] at h5
  rw [Option.getD_none, hcomp, hpt]
  exact h5

/-- The key `xprv3`, at depth 3, and the path `0/0` below it: two steps, which add one to the secret each. -/
example (C : PyCase) (L : Secp) : ∃ c, derivePriv plusOne L xprv3 [0, 0] = .ok c ∧ XprvValid c ∧
    ∃ p t w v, xprv3.public_key L = .ok p ∧ p.to_extended_key_string plusOne = .ok t ∧
      bip32_key_from_string plusOne L t = .ok (.pub w) ∧ derivePub plusOne w [0, 0] = .ok v ∧
      ∃ a text, v.key.to_address plusOne none (some Bitcoin) = .ok a ∧ a.to_string plusOne = .ok text ∧
        Address.from_string C plusOne text Bitcoin = .ok a := by
  obtain ⟨c, hc⟩ := plusOne_derive L 2 xprv3 xprv3_valid (by decide +kernel)
  obtain ⟨p, t, w, v, h1, h2, h3, h4, h5⟩ := C115_spend C xprv3 xprv3_valid (by decide) (by decide +kernel) [0, 0]
    (by decide) c hc
  obtain ⟨a, text, _, h6, h7, h8, _⟩ := h5 Bitcoin (by decide +kernel)
  exact ⟨c, hc, derive_valid xprv3_valid hc, p, t, w, v, h1, h2, h3, h4, a, text, h6, h7, h8⟩

end Bitcoinx
