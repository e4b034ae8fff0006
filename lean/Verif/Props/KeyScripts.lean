import Verif.Props.Objects
import Verif.Props.Classify
import Verif.Lemmas.Digests
import Verif.Lemmas.Secp256k1

/-! # C100: the scripts and addresses of keys, byte for byte -/

namespace Bitcoinx
open Spec

variable {L : Secp}

/-- `RIPEMD160(SHA256(x))`. -/
def Spec.keyHash (H : Hashes) (x : Bytes) : Bytes := H.ripemd160 (H.sha256 x)

/-- The length byte and the item. -/
def Spec.pushed (x : Bytes) : Bytes := UInt8.ofNat x.length :: x

theorem push_short (d : Bytes) (h1 : 2 ≤ d.length) (h2 : d.length < 0x4c) : push_item d = .ok (pushed d) := by
  have hd : push_item d = push_item_data d := by
    match d, h1 with
    | a :: b :: tl, _ => rfl
  obtain ⟨e, h3, h4, h5⟩ := push_item_data_ok d (by omega)
  rw [hd, h3]
  rw [if_pos (by omega)] at h5
  generalize hx : Op.data d = x at h4
  cases h4 with
  | code c => cases hx
  | short n d h6 h7 =>
    cases hx
    have : n = UInt8.ofNat d.length := by
      rw [← UInt8.toNat_inj, h6, UInt8.toNat_ofNat', Nat.mod_eq_of_lt (by omega)]
    rw [pushed, this]
  | pushdata1 l d h6 _ => cases hx; simp [h6] at h5
  | pushdata2 l d h6 _ => cases hx; simp [h6] at h5
  | pushdata4 l d h6 _ => cases hx; simp [h6] at h5
  | small c b => cases hx; simp at h1
  | negate => cases hx; simp at h1

theorem key_length (k : PublicKey L) : k.to_bytes.length = if k.compressed then 33 else 65 := by
  rw [PublicKey.to_bytes, L.serialize_length]; rfl

theorem push_key (k : PublicKey L) : push_item k.to_bytes = .ok (pushed (L.serialize k.compressed k.point)) := by
  have := key_length k
  exact push_short _ (by rw [this]; split <;> omega) (by rw [this]; split <;> omega)

theorem push_small (n : Nat) (h1 : 1 ≤ n) (h2 : n ≤ 16) : push_int n = .ok [UInt8.ofNat (0x50 + n)] := by
  have : ∀ n : Fin 17, 1 ≤ n.val → push_int (n.val : Int) = .ok [UInt8.ofNat (0x50 + n.val)] := by decide +kernel
  exact this ⟨n, by omega⟩ h1

/-- The scripts of a key, and the script of its address: `<key> CHECKSIG` and
`DUP HASH160 <hash> EQUALVERIFY CHECKSIG`, with the key in its own form (33 or 65 bytes). -/
theorem C100_key (H : Hashes) (k : PublicKey L) :
    k.P2PK_script = .ok (pushed (L.serialize k.compressed k.point) ++ [0xac]) ∧
    k.P2PKH_script H = .ok ([0x76, 0xa9, 20] ++ keyHash H (L.serialize k.compressed k.point) ++ [0x88, 0xac]) ∧
    (∀ (c : Option Bool) (coin : Option Coin), ∃ a, k.to_address H c coin = .ok a ∧
      a = .P2PKH (keyHash H (L.serialize (c.getD k.compressed) k.point)) (coin.getD k.coin) ∧
      a.to_script_bytes =
        .ok ([0x76, 0xa9, 20] ++ keyHash H (L.serialize (c.getD k.compressed) k.point) ++ [0x88, 0xac])) := by
  have hadr : ∀ (c : Option Bool) (coin : Option Coin), k.to_address H c coin =
      .ok (.P2PKH (keyHash H (L.serialize (c.getD k.compressed) k.point)) (coin.getD k.coin)) := by
    intro c coin
    have hl : (k.hash160 H c).length = 20 := H.ripemd160_length _
    simp only [PublicKey.to_address, P2PKH_Address, validate_hash160, hl, ne_eq, not_true_eq_false, if_false,
      ok_bind', pure_ok']
    rfl
  have hscr : ∀ (c : Option Bool) (coin : Coin),
      (Address.P2PKH (keyHash H (L.serialize (c.getD k.compressed) k.point)) coin).to_script_bytes =
        .ok ([0x76, 0xa9, 20] ++ keyHash H (L.serialize (c.getD k.compressed) k.point) ++ [0x88, 0xac]) := by
    intro c coin
    rw [address_script _ (by exact H.ripemd160_length _)]
    simp
  refine ⟨?_, ?_, fun c coin => ⟨_, hadr c coin, rfl, hscr c _⟩⟩
  · rw [PublicKey.P2PK_script, Output.to_script_bytes, push_key, ok_bind', pack_byte_uint8]; rfl
  · rw [PublicKey.P2PKH_script, hadr, ok_bind']
    exact hscr none _

/-- The script of an `m` of `n` multisig output, for up to 16 keys: `OP_m <key> ... <key> OP_n
CHECKMULTISIG`, with the keys in their order and their own forms. -/
theorem C100_multisig (keys : List (PublicKey L)) (m : Nat) (h1 : 1 ≤ m) (h2 : m ≤ keys.length)
    (h3 : keys.length ≤ 16) :
    (Output.P2MultiSig keys m).to_script_bytes =
      .ok ([UInt8.ofNat (0x50 + m)] ++ (keys.flatMap fun k => pushed (L.serialize k.compressed k.point)) ++
        [UInt8.ofNat (0x50 + keys.length), 0xae]) := by
  have hp : ∀ ks : List (PublicKey L), packAll (fun k : PublicKey L => push_item k.to_bytes) ks =
      .ok (ks.map fun k => pushed (L.serialize k.compressed k.point)) := by
    intro ks
    induction ks with
    | nil => rfl
    | cons k ks ih => rw [packAll, push_key, ok_bind', ih, ok_bind', pure_ok', List.map_cons]
  simp only [Output.to_script_bytes, Output.multisig_script_bytes, push_small m h1 (by omega), hp,
    push_small keys.length (by omega) h3, pack_byte_uint8, ok_bind', pure_ok']
  simp [List.flatMap_def, OP_CHECKMULTISIG]

/-- The scripts of a key are classified as what they are: a payment to the key, and a payment to its
address. -/
theorem C100_classified (H : Hashes) (k : PublicKey L) (hk : PubValid k) (coin : Coin) :
    (∃ s k', k.P2PK_script = .ok s ∧ classify_output_script L s coin = .ok (.P2PK k' coin) ∧
      k'.point = k.point ∧ k'.compressed = k.compressed) ∧
    (∃ s, k.P2PKH_script H = .ok s ∧
      classify_output_script L s coin = .ok (.address (.P2PKH (keyHash H (L.serialize k.compressed k.point)) coin))) := by
  constructor
  · obtain ⟨e, h1, h2⟩ := key_push k
    refine ⟨e ++ [OP_CHECKSIG], { point := k.point, compressed := k.compressed, coin := Bitcoin }, ?_, ?_, rfl, rfl⟩
    · rw [PublicKey.P2PK_script, Output.to_script_bytes, h1, ok_bind', pack_byte_uint8, ok_bind', pure_ok']
    · refine (C42_classify L _ coin _).mpr (.inl ?_)
      have hp : e ++ [OP_CHECKSIG] = [e, [OP_CHECKSIG]].flatten := by simp
      rw [hp, stripped_parts (.cons h2 (.cons (.code OP_CHECKSIG (.inl (by decide))) .nil))]
      exact Standard.pubkey _ _ (C78_bytes L k hk none).1
  · obtain ⟨s, o, h1, h2, _, h4⟩ := C42_roundtrip L
      (.address (.P2PKH (keyHash H (L.serialize k.compressed k.point)) coin))
      (by exact H.ripemd160_length _) coin
    refine ⟨s, ?_, ?_⟩
    · rw [← h1, (C100_key H k).2.1, Output.to_script_bytes, address_script _ (by exact H.ripemd160_length _)]
      simp
    · rw [h2, h4 _ rfl rfl]

/-- Different keys, and different forms of a key, have different scripts `<key> CHECKSIG`. -/
theorem C100_injective (k k' : PublicKey L) (hk : PubValid k) (hk' : PubValid k')
    (h : k.P2PK_script = k'.P2PK_script) : k.point = k'.point ∧ k.compressed = k'.compressed := by
  obtain ⟨⟨s, p, h1, h2, h3, h4⟩, _⟩ := C100_classified toyHashes k hk Bitcoin
  obtain ⟨⟨s', p', h1', h2', h3', h4'⟩, _⟩ := C100_classified toyHashes k' hk' Bitcoin
  rw [← h, h1] at h1'
  cases h1'
  rw [h2] at h2'
  cases h2'
  exact ⟨h3.symm.trans h3', h4.symm.trans h4'⟩

/-- `complement` is the other form of the same point with the same coin; twice it is the key itself. -/
theorem C100_complement (k : PublicKey L) :
    k.complement.complement = k ∧ k.complement.to_bytes = L.serialize (!k.compressed) k.point ∧
      k.complement.coin = k.coin ∧ k.complement.eq k = true := by
  refine ⟨?_, rfl, rfl, ?_⟩
  · cases k; simp [PublicKey.complement]
  · simp [PublicKey.eq, PublicKey.complement, PublicKey.to_bytes]

/-- The scripts of the key of the secret 1. -/
example : (do
    let k ← PrivateKey.new (beBytes 32 1)
    (← k.public_key (K1.secp256k1 Digest.rfc6979)).P2PKH_script Digest.fips : Res Bytes) =
    .ok (beBytes 25 0x76a914751e76e8199196d454941c45d1b3a323f1433bd688ac) := by decide +kernel

end Bitcoinx
