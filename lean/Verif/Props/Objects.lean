import Verif.Model.Objects
import Verif.Props.KeySign
import Verif.Props.Address

/-! # C89: equality and hashing of objects -/

namespace Bitcoinx
open Spec

variable {L : Secp}

/-- What an object stands for when it is compared. -/
inductive Spec.Meaning (L : Secp)
  | data (b : Bytes)
  | secret (s : Bytes)
  | point (p : L.Point)
  | derivation (d : BIP32Derivation)
  | payToHash (script : Bool) (h : Bytes)
  | payToKey (p : L.Point)
  | payToKeys (m : Int) (ps : List L.Point)
  | opReturn
  | unknown (id : Nat)

/-- Scripts, signatures and `bytes` stand for their bytes, private keys for their secret, public keys
for their point, addresses for their kind and hash; flags, coins and chain codes do not matter. -/
def Spec.meaning : Obj L → Meaning L
  | .bytes b => .data b
  | .Script b => .data b
  | .Signature b => .data b
  | .PrivateKey k => .secret k.secret
  | .BIP32PrivateKey k => .secret k.key.secret
  | .PublicKey k => .point k.point
  | .BIP32PublicKey k => .point k.key.point
  | .BIP32Derivation d => .derivation d
  | .P2PKH_Address h _ => .payToHash false h
  | .P2SH_Address h _ => .payToHash true h
  | .P2PK_Output k _ => .payToKey k.point
  | .P2MultiSig_Output ks t => .payToKeys t (ks.map (·.point))
  | .OP_RETURN_Output => .opReturn
  | .Unknown_Output i => .unknown i

/-- The public keys of an object are points other than infinity, as those of every object are. -/
def Spec.ObjValid : Obj L → Prop
  | .PublicKey k => PubValid k
  | .BIP32PublicKey k => PubValid k.key
  | .P2PK_Output k _ => PubValid k
  | .P2MultiSig_Output ks _ => ∀ k ∈ ks, PubValid k
  | _ => True

theorem tupleEq_iff (ks ks' : List (PublicKey L)) (h : ∀ k ∈ ks, PubValid k) (h' : ∀ k ∈ ks', PubValid k) :
    Obj.tupleEq ks ks' = true ↔ ks.map (·.point) = ks'.map (·.point) := by
  induction ks generalizing ks' with
  | nil => cases ks' <;> simp [Obj.tupleEq]
  | cons k ks ih =>
    cases ks' with
    | nil => simp [Obj.tupleEq]
    | cons k' ks' =>
      simp only [Obj.tupleEq, Bool.and_eq_true, List.map_cons, List.cons.injEq]
      rw [C78_eq L k k' (h k (by simp)) (h' k' (by simp)), ih ks' (fun x hx => h x (by simp [hx]))
        (fun x hx => h' x (by simp [hx]))]

/-- Objects of all classes compare equal exactly if they stand for the same thing. -/
theorem C89_equal (a b : Obj L) (ha : ObjValid a) (hb : ObjValid b) : a.eq b = true ↔ meaning a = meaning b := by
  cases a <;> cases b <;>
    simp only [Obj.eq, Obj.eqMethod, Obj.asBytes, Obj.asPrivateKey, Obj.asPublicKey, meaning, reduceCtorEq,
      PrivateKey.eq, Bool.false_eq_true, beq_iff_eq, Meaning.data.injEq, Meaning.secret.injEq, Meaning.point.injEq,
      Meaning.derivation.injEq, Meaning.payToHash.injEq, Meaning.payToKey.injEq, Meaning.payToKeys.injEq,
      Meaning.unknown.injEq, Bool.and_eq_true, true_and, false_and]
  case bytes.Script => exact eq_comm
  case bytes.Signature => exact eq_comm
  case PublicKey.PublicKey k k' => exact C78_eq L k k' ha hb
  case PublicKey.BIP32PublicKey k k' => exact C78_eq L k k'.key ha hb
  case BIP32PublicKey.PublicKey k k' => exact C78_eq L k.key k' ha hb
  case BIP32PublicKey.BIP32PublicKey k k' => exact C78_eq L k.key k'.key ha hb
  case P2PK_Output.P2PK_Output k _ k' _ => exact C78_eq L k k' ha hb
  case P2MultiSig_Output.P2MultiSig_Output ks t ks' t' => rw [tupleEq_iff ks ks' ha hb, and_comm]
  case Unknown_Output.Unknown_Output i j =>
    by_cases h : i = j
    · simp [h]
    · simp [h, Ne.symm h]

/-- Hence `==` is an equivalence relation. -/
theorem C89_equivalence (a b c : Obj L) (ha : ObjValid a) (hb : ObjValid b) (hc : ObjValid c) :
    a.eq a = true ∧ (a.eq b = b.eq a) ∧ (a.eq b = true → b.eq c = true → a.eq c = true) := by
  refine ⟨(C89_equal a a ha ha).2 rfl, ?_, fun h1 h2 => ?_⟩
  · rw [Bool.eq_iff_iff, C89_equal a b ha hb, C89_equal b a hb ha]
    exact eq_comm
  · rw [C89_equal _ _ ha hc, (C89_equal _ _ ha hb).1 h1, (C89_equal _ _ hb hc).1 h2]

/-- Equal objects have equal hashes, if Python's reduction leaves hashes alone. -/
theorem C89_hash (P : Obj.PyHash) (hr : ∀ b, P.reduce (P.bytes b) = P.bytes b) (a b : Obj L) (ha : ObjValid a)
    (hb : ObjValid b) (h : a.eq b = true) : a.hash P = b.hash P := by
  rw [C89_equal a b ha hb] at h
  have hk : ∀ ks ks' : List (PublicKey L), ks.map (·.point) = ks'.map (·.point) →
      ks.map (fun k => P.bytes (L.serialize true k.point)) = ks'.map (fun k => P.bytes (L.serialize true k.point)) := by
    intro ks ks' h
    have := congrArg (List.map (fun p => P.bytes (L.serialize true p))) h
    rwa [List.map_map, List.map_map] at this
  cases a <;> cases b <;> simp only [meaning, reduceCtorEq, Meaning.data.injEq, Meaning.secret.injEq,
    Meaning.point.injEq, Meaning.derivation.injEq, Meaning.payToHash.injEq, Meaning.payToKey.injEq,
    Meaning.payToKeys.injEq, Meaning.unknown.injEq, true_and, false_and] at h <;>
    simp only [Obj.hash, hr, Obj.hashPublicKey, PublicKey.to_bytes, Option.getD_some, h]
  case P2MultiSig_Output.P2MultiSig_Output => rw [hk _ _ h.2]

/-- An address as an object. -/
def Spec.asObj : Address → Obj L
  | .P2PKH h c => .P2PKH_Address h c
  | .P2SH h c => .P2SH_Address h c

theorem address_script (a : Address) (ha : AddressValid a) : a.to_script_bytes = .ok (match a with
    | .P2PKH h _ => 0x76 :: 0xa9 :: 20 :: (h ++ [0x88, 0xac])
    | .P2SH h _ => 0xa9 :: 20 :: (h ++ [0x87])) := by
  have push : ∀ h : Bytes, h.length = 20 → push_item h = .ok (20 :: h) := by
    intro h hl
    have hd : push_item h = push_item_data h := by
      match h, hl with
      | a :: b :: tl, _ => rfl
    obtain ⟨e, h1, h2, h3⟩ := push_item_data_ok h (by omega)
    rw [hd, h1]
    rw [if_pos (by omega)] at h3
    generalize hx : Op.data h = x at h2
    cases h2 with
    | code c => cases hx
    | short n d h4 h5 =>
      cases hx
      have : n = 20 := by rw [← UInt8.toNat_inj, h4, hl]; rfl
      rw [this]
    | pushdata1 l d h4 _ => cases hx; simp [h4, hl] at h3
    | pushdata2 l d h4 _ => cases hx; simp [h4, hl] at h3
    | pushdata4 l d h4 _ => cases hx; simp [h4, hl] at h3
    | small c b => cases hx; simp at hl
    | negate => cases hx; simp at hl
  cases a with
  | P2PKH h c => simp only [Address.to_script_bytes, push h ha, ok_bind', pure_ok']; rfl
  | P2SH h c => simp only [Address.to_script_bytes, push h ha, pack_byte_uint8, ok_bind', pure_ok']; rfl

/-- Addresses compare equal exactly if they have the same script, whatever their coins. -/
theorem C89_address (a b : Address) (ha : AddressValid a) (hb : AddressValid b) :
    ((asObj a : Obj L).eq (asObj b) = a.eq b) ∧ (a.eq b = true ↔ a.to_script_bytes = b.to_script_bytes) := by
  refine ⟨by cases a <;> cases b <;> rfl, ?_⟩
  rw [address_script a ha, address_script b hb]
  cases a <;> cases b <;> simp [Address.eq]

/-- Outputs that pay to a public key compare equal though their scripts differ, if the forms of the
key differ. -/
theorem C89_scripts_differ (k : PublicKey L) (c : Coin) :
    (Obj.P2PK_Output k c).eq (.P2PK_Output k.complement c) = true ∧
    (∃ s s', (Obj.P2PK_Output k c).to_script_bytes = .ok s ∧
      (Obj.P2PK_Output k.complement c).to_script_bytes = .ok s' ∧ s ≠ s') := by
  have len : ∀ k : PublicKey L, k.to_bytes.length < 2 ^ 32 := by
    intro k
    rw [PublicKey.to_bytes, L.serialize_length]
    split <;> omega
  refine ⟨by simp [Obj.eq, Obj.eqMethod, PublicKey.eq, PublicKey.complement, PublicKey.to_bytes], ?_⟩
  obtain ⟨e, h1, h2, _⟩ := push_item_ok k.to_bytes (len k)
  obtain ⟨e', h1', h2', _⟩ := push_item_ok k.complement.to_bytes (len _)
  refine ⟨e ++ [0xac], e' ++ [0xac], ?_, ?_, fun he => ?_⟩
  · simp only [Obj.to_script_bytes, Output.to_script_bytes, h1, pack_byte_uint8, ok_bind', pure_ok']; rfl
  · simp only [Obj.to_script_bytes, Output.to_script_bytes, h1', pack_byte_uint8, ok_bind', pure_ok']; rfl
  · have : e = e' := List.append_cancel_right he
    subst this
    exact (C78_complement L k).2.2.2.1 (push_item_inj (len k) (by rw [h1, h1'])).symm

/-- Extended keys compare equal if their secrets are, though their chain codes and thus their
children differ. -/
theorem C89_extended (k : PrivateKey) (d d' : BIP32Derivation) :
    (Obj.BIP32PrivateKey (L := L) { key := k, derivation := d }).eq (.BIP32PrivateKey { key := k, derivation := d' }) = true := by
  simp [Obj.eq, Obj.eqMethod, Obj.asPrivateKey, PrivateKey.eq]

/-! A case with its hypotheses: a script and the same bytes, an extended key and the plain one. -/

example : (Obj.Script (L := toySecp) [0x76]).eq (.bytes [0x76]) = true ∧
    (Obj.bytes (L := toySecp) [0x76]).eq (.Script [0x76]) = true ∧
    (Obj.bytes (L := toySecp) [0x76]).eq (.PrivateKey ⟨[0x76], true, Bitcoin⟩) = false := ⟨rfl, rfl, rfl⟩

example : ObjValid (L := toySecp) (.P2MultiSig_Output [⟨toySecp.gen, true, Bitcoin⟩] 1) := by
  intro k hk
  rw [List.mem_singleton.1 hk]
  exact toySecp.gen_ne

example : AddressValid (.P2SH (List.replicate 20 7) Bitcoin) ∧
    (Address.P2SH (List.replicate 20 7) Bitcoin).eq (.P2PKH (List.replicate 20 7) Bitcoin) = false := ⟨rfl, rfl⟩

end Bitcoinx
