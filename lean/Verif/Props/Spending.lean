import Verif.Spec.Spending
import Verif.Props.KeyScripts
import Verif.Props.KeySign
import Verif.Props.Sighash
import Verif.Props.Tx
import Verif.Props.Signature

/-! # C113: inputs signed by a program may spend their outputs -/

namespace Bitcoinx
open Spec

variable {L : Secp} {H : Hashes} {tx : Tx}

/-! ## Changing the script of an input -/

theorem map_modify_same {α β : Type} (g : α → β) (f : α → α) (h : ∀ x, g (f x) = g x) (l : List α) (j : Nat) :
    (l.modify j f).map g = l.map g := by
  apply List.ext_getElem?
  intro n
  rw [List.getElem?_map, List.getElem?_map, List.getElem?_modify]
  cases l[n]? with
  | none => rfl
  | some x =>
    by_cases hj : j = n
    · simp [hj, h]
    · simp [hj]

theorem flatMap_modify_same {α : Type} (g : α → Bytes) (f : α → α) (h : ∀ x, g (f x) = g x) (l : List α) (j : Nat) :
    (l.modify j f).flatMap g = l.flatMap g := by
  rw [List.flatMap_def, List.flatMap_def, map_modify_same g f h]

theorem setScript_input (j : Nat) (s : Bytes) {i : Nat} {txin : TxInput} (h : tx.inputs[i]? = some txin) :
    (setScript tx j s).inputs[i]? = some (if j = i then { txin with script_sig := s } else txin) := by
  simp only [setScript, List.getElem?_modify, h, Option.map_some]
  split <;> rfl

theorem setScript_preimage (hash : Bytes → Bytes) (j : Nat) (s : Bytes) (i : Nat) (txin : TxInput) (value : Int)
    (code : Bytes) (t : Nat) (b : Bytes) (c : Prop) [Decidable c] :
    preimage hash (setScript tx j s) i (if c then { txin with script_sig := b } else txin) value code t =
      preimage hash tx i txin value code t := by
  have h1 : prevoutsPart (setScript tx j s) = prevoutsPart tx := by
    unfold prevoutsPart Spec.setScript
    exact flatMap_modify_same _ (fun txin : TxInput => { txin with script_sig := s }) (fun _ => rfl) _ _
  have h2 : sequencePart (setScript tx j s) = sequencePart tx := by
    unfold sequencePart Spec.setScript
    exact flatMap_modify_same _ (fun txin : TxInput => { txin with script_sig := s }) (fun _ => rfl) _ _
  have h3 : outpoint (if c then { txin with script_sig := b } else txin) = outpoint txin := by split <;> rfl
  have h4 : (if c then { txin with script_sig := b } else txin).sequence = txin.sequence := by split <;> rfl
  unfold preimage
  rw [h1, h2, h3, h4]
  rfl

theorem SignedBy.setScript {i : Nat} {value : Int} {code sig : Bytes} {p : L.Point} (j : Nat) (s : Bytes)
    (h : SignedBy H L tx i value code sig p) : SignedBy H L (setScript tx j s) i value code sig p := by
  obtain ⟨der, t, txin, x, h1, h2, h3, h4, h5⟩ := h
  exact ⟨der, t, _, x, h1, h2, setScript_input j s h3, h4, by rw [setScript_preimage]; exact h5⟩

theorem Satisfied.setScript {i : Nat} {value : Int} {code unlock lock : Bytes} (j : Nat) (s : Bytes)
    (h : Satisfied H L tx i value code unlock lock) : Satisfied H L (setScript tx j s) i value code unlock lock := by
  cases h with
  | key h1 h2 => exact .key h1 (SignedBy.setScript j s h2)
  | hash h1 h2 => exact .hash h1 (SignedBy.setScript j s h2)
  | multi h1 h2 h3 h4 => exact .multi h1 h2 (h3.imp fun _ _ h => SignedBy.setScript j s h) h4

/-- Signing another input, or changing its script in any other way, does no harm. -/
theorem C113_others {i j : Nat} {value : Int} {lock : Bytes} (s : Bytes) (hj : j ≠ i)
    (h : Spends H L tx i value lock) : Spends H L (setScript tx j s) i value lock := by
  obtain ⟨txin, h1, h2⟩ := h
  refine ⟨txin, ?_, ?_⟩
  · rw [setScript_input j s h1, if_neg hj]
  · rcases h2 with h2 | ⟨redeem, unlock, e, h3, h4, h5, h6⟩
    · exact .inl (Satisfied.setScript j s h2)
    · exact .inr ⟨redeem, unlock, e, h3, h4, h5, Satisfied.setScript j s h6⟩

/-! ## One signature -/

/-- The transaction can be serialized and read back. -/
def Spec.Sound (tx : Tx) : Prop := InRangeTx tx ∧ HashSized tx ∧ Held tx

theorem txSignature_ok (hs : Sound tx) {i : Nat} (hi : i < tx.inputs.length) {value : Int}
    (hv : 0 ≤ value ∧ value < 2 ^ 63) {code : Bytes} (hc : code.length < 2 ^ 64) {t : Nat} (ht : t < 256) {k : PrivateKey}
    (hk : PrivValid k) :
    ∃ sig, txSignature H L tx i value code t k = .ok sig ∧ SignedBy H L tx i value code sig (secretNumber k • L.gen) := by
  obtain ⟨⟨r1, r2, r3, r4, r5, r6⟩, _, _⟩ := hs
  have hin : tx.inputs[i]? = some tx.inputs[i] := List.getElem?_eq_getElem hi
  have hm := r3 _ (List.getElem_mem hi)
  have hrange : SigRange tx i tx.inputs[i] value code t := by
    refine ⟨r1, r6, ?_, hm.1, hm.2.2, hc, ?_, fun _ j hj => (r3 j hj).1, fun _ _ _ j hj => (r3 j hj).2.2,
      fun _ _ => r5, fun _ o ho => r5 o (List.mem_of_getElem? ho)⟩
    · constructor <;> norm_num <;> omega
    · constructor <;> norm_num <;> omega
  set d := twice H.sha256 (preimage (twice H.sha256) tx i tx.inputs[i] value code t) with hd
  have hh : tx.signature_hash H i value code (some t) = .ok d :=
    (C46_preimage H tx i value code t d).2 ⟨by omega, hv.1, tx.inputs[i], by rw [Int.toNat_natCast]; exact hin,
      by rw [Int.toNat_natCast]; exact hrange, by rw [Int.toNat_natCast]⟩
  have hdl : d.length = 32 := H.sha256_length _
  obtain ⟨g1, g2, g3, g4⟩ := L.sign_valid d k.secret hdl hk.2.1 hk.2.2
  have hparse := L.parse_serialize_der _ g1 g2 g3
  have hder : der_signature_to_compact L (sign_der L d k.secret) = .ok (L.sign d k.secret) := by
    simp only [der_signature_to_compact, der_signature_to_cdata, sign_der, hparse]
  obtain ⟨raw, f1, _⟩ := C75_parts L (sign_der L d k.secret) t ht _ hder
  have hraw : raw = sign_der L d k.secret ++ [UInt8.ofNat t] := by
    simp only [Signature.from_der_sig, pack_byte_nat ht, ok_bind', Signature.new, bind_eq_ok] at f1
    split at f1
    · cases f1; rfl
    · simp only [bind_eq_ok, pure_ok', Except.ok.injEq] at f1
      obtain ⟨_, _, rfl⟩ := f1; rfl
  refine ⟨raw, ?_, sign_der L d k.secret, UInt8.ofNat t, _, L.sign d k.secret, hraw, ?_, hin, hparse, ?_⟩
  · simp only [txSignature, hh, ok_bind', PrivateKey.sign, message_hash, hdl, ne_eq, not_true_eq_false, if_false,
      pure_ok', f1]
  · have := (L.serialize_der_length (L.sign d k.secret)).2
    rw [hraw, List.length_append]
    simp only [sign_der, List.length_singleton]; omega
  · rw [toNat_ofNat' ht]
    exact g4

theorem SignedBy.length {i : Nat} {value : Int} {code sig : Bytes} {p : L.Point}
    (h : SignedBy H L tx i value code sig p) : 9 ≤ sig.length ∧ sig.length < 76 := by
  obtain ⟨der, t, txin, x, h1, h2, h3, h4, h5⟩ := h
  have := L.parse_der_length _ _ h4
  refine ⟨?_, h2⟩
  rw [h1, List.length_append, List.length_singleton]; omega

theorem txSignatures_ok (hs : Sound tx) {i : Nat} (hi : i < tx.inputs.length) {value : Int}
    (hv : 0 ≤ value ∧ value < 2 ^ 63) {code : Bytes} (hc : code.length < 2 ^ 64) {t : Nat} (ht : t < 256)
    (ks : List PrivateKey) (hk : ∀ k ∈ ks, PrivValid k) :
    ∃ sigs, packAll (txSignature H L tx i value code t) ks = .ok sigs ∧
      List.Forall₂ (fun sig k => SignedBy H L tx i value code sig (secretNumber k • L.gen)) sigs ks := by
  induction ks with
  | nil => exact ⟨[], rfl, .nil⟩
  | cons k ks ih =>
    obtain ⟨sig, h1, h2⟩ := txSignature_ok (H := H) (L := L) hs hi hv hc ht (hk k List.mem_cons_self)
    obtain ⟨sigs, h3, h4⟩ := ih fun k h => hk k (List.mem_cons_of_mem _ h)
    exact ⟨sig :: sigs, by rw [packAll, h1, ok_bind', h3, ok_bind', pure_ok'], .cons h2 h4⟩

/-! ## The scripts -/

theorem pushes_ok (ds : List Bytes) (h : ∀ d ∈ ds, 2 ≤ d.length ∧ d.length < 76) :
    packAll to_bytes (ds.map .data) = .ok (ds.map sized) := by
  induction ds with
  | nil => rfl
  | cons d ds ih =>
    obtain ⟨h1, h2⟩ := h d List.mem_cons_self
    rw [List.map_cons, packAll, to_bytes, push_short d h1 h2, ok_bind', ih fun d h' => h d (List.mem_cons_of_mem _ h'),
      ok_bind', pure_ok', List.map_cons]
    rfl

theorem packAll_append {α : Type} (f : α → Res Bytes) (a b : List α) (x y : List Bytes) (h1 : packAll f a = .ok x)
    (h2 : packAll f b = .ok y) : packAll f (a ++ b) = .ok (x ++ y) := by
  induction a generalizing x with
  | nil => cases h1; exact h2
  | cons c a ih =>
    simp only [packAll, bind_eq_ok, pure_ok', Except.ok.injEq] at h1
    obtain ⟨u, hu, v, hv, rfl⟩ := h1
    rw [List.cons_append, packAll, hu, ok_bind', ih v hv, ok_bind', pure_ok']; rfl

theorem key_sized (p : PublicKey L) : 2 ≤ p.to_bytes.length ∧ p.to_bytes.length < 76 := by
  have := key_length p
  rw [this]; split <;> omega

theorem flatten_sized (ds : List Bytes) (h : ∀ d ∈ ds, d.length < 76) :
    (ds.flatMap sized).length ≤ 76 * ds.length := by
  induction ds with
  | nil => simp
  | cons d ds ih =>
    have h1 := ih fun d h' => h d (List.mem_cons_of_mem _ h')
    have h2 := h d List.mem_cons_self
    simp only [List.flatMap_cons, List.length_append, List.length_cons, sized]
    omega

theorem multi_script (ps : List (PublicKey L)) (m : Nat) (h1 : 1 ≤ m) (h2 : m ≤ ps.length) (h3 : ps.length ≤ 16) :
    (Output.P2MultiSig ps m).to_script_bytes = .ok (UInt8.ofNat (0x50 + m) ::
      ((ps.map (·.to_bytes)).flatMap sized ++ [UInt8.ofNat (0x50 + (ps.map (·.to_bytes)).length), 0xae])) := by
  rw [C100_multisig ps m h1 h2 h3]
  simp only [List.flatMap_map, List.length_map, List.singleton_append, List.cons_append, Except.ok.injEq, List.cons.injEq,
    true_and]
  rfl

theorem multi_length (ps : List (PublicKey L)) (m : Nat) (h3 : ps.length ≤ 16) :
    (UInt8.ofNat (0x50 + m) ::
      ((ps.map (·.to_bytes)).flatMap sized ++ [UInt8.ofNat (0x50 + (ps.map (·.to_bytes)).length), 0xae])).length < 2 ^ 16 := by
  have := flatten_sized (ps.map (·.to_bytes)) (by
    intro d hd
    obtain ⟨p, _, rfl⟩ := List.mem_map.1 hd
    exact (key_sized p).2)
  simp only [List.length_cons, List.length_append, List.length_nil, List.length_map] at *
  omega

theorem Sound.setScript (hs : Sound tx) (i : Nat) (s : Bytes) (h : s.length < 2 ^ 63) : Sound (setScript tx i s) := by
  obtain ⟨⟨r1, r2, r3, r4, r5, r6⟩, hh, h1, h2⟩ := hs
  have hmem : ∀ x ∈ (Spec.setScript tx i s).inputs, ∃ y ∈ tx.inputs, x = y ∨ x = { y with script_sig := s } := by
    intro x hx
    obtain ⟨n, hn⟩ := List.mem_iff_getElem?.1 hx
    simp only [Spec.setScript, List.getElem?_modify] at hn
    cases hy : tx.inputs[n]? with
    | none => rw [hy] at hn; cases hn
    | some y =>
      rw [hy] at hn
      refine ⟨y, List.mem_of_getElem? hy, ?_⟩
      by_cases hi : i = n
      · simp [hi] at hn; exact .inr hn.symm
      · simp [hi] at hn; exact .inl hn.symm
  refine ⟨⟨r1, ?_, ?_, r4, r5, r6⟩, ?_, ?_, h2⟩
  · simpa [Spec.setScript] using r2
  · intro x hx
    obtain ⟨y, hy, rfl | rfl⟩ := hmem x hx
    · exact r3 _ hy
    · obtain ⟨a, _, b⟩ := r3 _ hy
      exact ⟨a, by simp only; omega, b⟩
  · intro x hx
    obtain ⟨y, hy, rfl | rfl⟩ := hmem x hx
    · exact hh _ hy
    · exact hh y hy
  · intro x hx
    obtain ⟨y, hy, rfl | rfl⟩ := hmem x hx
    · exact h1 _ hy
    · exact h

theorem parse_key (p : PublicKey L) (hp : PubValid p) : L.parse p.to_bytes = some p.point := L.parse_serialize _ _ hp

theorem point_valid {p : PublicKey L} {k : PrivateKey} (hk : PrivValid k) (h : p.point = secretNumber k • L.gen) :
    PubValid p := by
  unfold PubValid
  rw [h]
  exact L.pub_ne k hk

theorem forall_sigs {i : Nat} {value : Int} {code : Bytes} {sigs : List Bytes} {ks : List PrivateKey}
    {qs : List (PublicKey L)}
    (h1 : List.Forall₂ (fun sig k => SignedBy H L tx i value code sig (secretNumber k • L.gen)) sigs ks)
    (h2 : List.Forall₂ (fun (k : PrivateKey) (q : PublicKey L) => q.point = secretNumber k • L.gen) ks qs) :
    List.Forall₂ (SignedBy H L tx i value code) sigs (qs.map (·.point)) := by
  induction h1 generalizing qs with
  | nil => cases h2; exact .nil
  | cons a _ ih =>
    cases h2 with
    | cons b h2 => exact .cons (by simp only [b]; exact a) (ih h2)

theorem forall_left {α β : Type} {R : α → β → Prop} {a : List α} {b : List β} (h : List.Forall₂ R a b) {x : α}
    (hx : x ∈ a) : ∃ y, R x y := by
  induction h with
  | nil => cases hx
  | cons h _ ih =>
    rcases List.mem_cons.1 hx with rfl | hx
    · exact ⟨_, h⟩
    · exact ih hx

theorem encodes_length {e d : Bytes} (h : Encodes e (.data d)) : e.length ≤ d.length + 5 := by
  generalize hx : Op.data d = x at h
  cases h <;> cases hx <;> simp only [List.length_cons, List.length_append, List.length_nil] at * <;> omega

theorem forall_keys (ps : List (PublicKey L)) (h : ∀ p ∈ ps, PubValid p) :
    List.Forall₂ (fun k p => L.parse k = some p) (ps.map (·.to_bytes)) (ps.map (·.point)) := by
  induction ps with
  | nil => exact .nil
  | cons p ps ih => exact .cons (parse_key p (h p List.mem_cons_self)) (ih fun p hp => h p (List.mem_cons_of_mem _ hp))

/-- An input that is signed may spend its output, for all four kinds of outputs and all sighash types, and the
transaction can still be serialized. -/
theorem C113_input (hs : Sound tx) (job : Job L) (hj : job.Valid tx) :
    ∃ tx' lock s, signInput H L tx job = .ok tx' ∧ job.lock.to_script H = .ok lock ∧
      tx' = setScript tx job.i s ∧ Sound tx' ∧ Spends H L tx' job.i job.value lock := by
  obtain ⟨i, value, lock, ks, t⟩ := job
  obtain ⟨hi, hv, ht, hk, hsig⟩ := hj
  simp only at hi hv ht hk hsig
  have hin : tx.inputs[i]? = some tx.inputs[i] := List.getElem?_eq_getElem hi
  have hset : ∀ s, (setScript tx i s).inputs[i]? = some { tx.inputs[i] with script_sig := s } := by
    intro s; rw [setScript_input i s hin, if_pos rfl]
  cases lock with
  | key p =>
    obtain ⟨k, rfl, hp⟩ := hsig
    have hk' := hk k List.mem_cons_self
    have hpv := point_valid hk' hp.1
    have hlock : p.P2PK_script = .ok (sized p.to_bytes ++ [0xac]) := (C100_key H p).1
    have hcl : (sized p.to_bytes ++ [0xac]).length < 2 ^ 64 := by
      have := (key_sized p).2
      simp only [sized, List.length_append, List.length_cons, List.length_nil]; omega
    obtain ⟨sig, h1, h2⟩ := txSignature_ok (H := H) (L := L) hs hi hv hcl ht hk'
    have hl := SignedBy.length h2
    have hu : (Lock.key p).unlock [sig] = .ok (sized sig) := by
      simp only [Lock.unlock, Script.push_many, pushes_ok [sig] (by simp; omega), ok_bind', pure_ok']
      simp
    refine ⟨_, _, _, ?_, hlock, rfl, Sound.setScript hs i (sized sig) (by simp only [sized, List.length_cons]; omega), ?_⟩
    · simp only [signInput, Lock.code, Lock.to_script, hlock, ok_bind', packAll, h1, pure_ok', hu]
    · refine ⟨_, hset _, .inl (.key (parse_key p hpv) ?_)⟩
      rw [hp.1]
      exact SignedBy.setScript i _ h2
  | hash p =>
    obtain ⟨k, rfl, hp⟩ := hsig
    have hk' := hk k List.mem_cons_self
    have hpv := point_valid hk' hp.1
    have hlock : p.P2PKH_script H = .ok ([0x76, 0xa9, 20] ++ hashOf H p.to_bytes ++ [0x88, 0xac]) := (C100_key H p).2.1
    have hcl : ([0x76, 0xa9, 20] ++ hashOf H p.to_bytes ++ [0x88, 0xac]).length < 2 ^ 64 := by
      have : (hashOf H p.to_bytes).length = 20 := H.ripemd160_length _
      simp only [List.length_append, List.length_cons, List.length_nil, this]; omega
    obtain ⟨sig, h1, h2⟩ := txSignature_ok (H := H) (L := L) hs hi hv hcl ht hk'
    have hl := SignedBy.length h2
    have hl' := key_sized p
    have hu : (Lock.hash p).unlock [sig] = .ok (sized sig ++ sized p.to_bytes) := by
      have : ([sig].map ScriptItem.data ++ [ScriptItem.data p.to_bytes]) = [sig, p.to_bytes].map .data := rfl
      simp only [Lock.unlock, Script.push_many, this, pushes_ok [sig, p.to_bytes] (by simp; omega), ok_bind', pure_ok']
      simp
    refine ⟨_, _, _, ?_, hlock, rfl, Sound.setScript hs i (sized sig ++ sized p.to_bytes)
      (by simp only [sized, List.length_cons, List.length_append]; omega), ?_⟩
    · simp only [signInput, Lock.code, Lock.to_script, hlock, ok_bind', packAll, h1, pure_ok', hu]
    · refine ⟨_, hset _, .inl (.hash (parse_key p hpv) ?_)⟩
      rw [hp.1]
      exact SignedBy.setScript i _ h2
  | multi ps m =>
    obtain ⟨hm1, hm2, hm3, hpv, qs, hsub, hq⟩ := hsig
    have hmn : m ≤ ps.length := by rw [← hm2, hq.length_eq]; exact hsub.length_le
    have hlock := multi_script ps m hm1 hmn hm3
    have hcl := multi_length ps m hm3
    obtain ⟨sigs, h1, h2⟩ := txSignatures_ok (H := H) (L := L) hs hi hv (Nat.lt_trans hcl (by decide)) ht ks hk
    have h3 := forall_sigs h2 hq
    have hsl : ∀ d ∈ sigs, 9 ≤ d.length ∧ d.length < 76 := by
      intro d hd
      obtain ⟨q, h⟩ := forall_left h3 hd
      exact SignedBy.length h
    have hu : (Lock.multi ps m).unlock sigs = .ok (0 :: sigs.flatMap sized) := by
      simp only [Lock.unlock, Script.push_many, packAll, to_bytes, pack_byte_uint8, ok_bind',
        pushes_ok sigs (fun d hd => ⟨by have := hsl d hd; omega, (hsl d hd).2⟩), pure_ok']
      simp [List.flatMap_def]
    have hul : (0 :: sigs.flatMap sized).length < 2 ^ 16 := by
      have g1 := flatten_sized sigs fun d hd => (hsl d hd).2
      have g2 := h2.length_eq
      simp only [List.length_cons]; omega
    refine ⟨_, _, _, ?_, hlock, rfl, Sound.setScript hs i (0 :: sigs.flatMap sized) (Nat.lt_trans hul (by decide)), ?_⟩
    · simp only [signInput, Lock.code, Lock.to_script, hlock, ok_bind', h1, pure_ok', hu]
    · exact ⟨_, hset _, .inl (.multi (forall_keys ps hpv) (hsub.map _)
        (h3.imp fun _ _ h => SignedBy.setScript i _ h) (by rw [h2.length_eq, hm2]))⟩
  | script ps m =>
    obtain ⟨hm1, hm2, hm3, hpv, qs, hsub, hq⟩ := hsig
    have hmn : m ≤ ps.length := by rw [← hm2, hq.length_eq]; exact hsub.length_le
    have hcode := multi_script ps m hm1 hmn hm3
    have hcl := multi_length ps m hm3
    have hsat : ∀ (tx' : Tx) (sigs : List Bytes) (value : Int) (code : Bytes),
        List.Forall₂ (SignedBy H L tx' i value code) sigs (qs.map (·.point)) → sigs.length = m →
        Satisfied H L tx' i value code (0 :: sigs.flatMap sized) (UInt8.ofNat (0x50 + m) ::
          ((ps.map (·.to_bytes)).flatMap sized ++ [UInt8.ofNat (0x50 + (ps.map (·.to_bytes)).length), 0xae])) :=
      fun tx' sigs value code h h' => .multi (forall_keys ps hpv) (hsub.map _) h h'
    generalize (UInt8.ofNat (0x50 + m) :: ((ps.map (·.to_bytes)).flatMap sized ++
      [UInt8.ofNat (0x50 + (ps.map (·.to_bytes)).length), 0xae])) = redeem at hcode hcl hsat
    have hlock : (Lock.script ps m).to_script H = .ok ([0xa9, 20] ++ hashOf H redeem ++ [0x87]) := by
      have hl : (H.hash160 redeem).length = 20 := H.ripemd160_length _
      simp only [Lock.to_script, hcode, ok_bind', P2SH_Address, validate_hash160, hl, ne_eq, not_true_eq_false, if_false,
        pure_ok']
      rw [address_script _ (by exact hl)]
      rfl
    obtain ⟨sigs, h1, h2⟩ := txSignatures_ok (H := H) (L := L) hs hi hv (Nat.lt_trans hcl (by decide)) ht ks hk
    have h3 := forall_sigs h2 hq
    have hsl : ∀ d ∈ sigs, 9 ≤ d.length ∧ d.length < 76 := by
      intro d hd
      obtain ⟨q, h⟩ := forall_left h3 hd
      exact SignedBy.length h
    obtain ⟨e, he1, he2, he3⟩ := push_item_ok redeem (Nat.lt_trans hcl (by decide))
    have hu : (Lock.script ps m).unlock sigs = .ok ((0 :: sigs.flatMap sized) ++ e) := by
      have hp := packAll_append to_bytes (.op 0 :: sigs.map .data) [.data redeem] ([0] :: sigs.map sized) [e]
        (by
          simp only [packAll, to_bytes, pack_byte_uint8, ok_bind',
            pushes_ok sigs (fun d hd => ⟨by have := hsl d hd; omega, (hsl d hd).2⟩), pure_ok'])
        (by simp only [packAll, to_bytes, he1, ok_bind', pure_ok'])
      simp only [Lock.unlock, Script.push_many, hcode, ok_bind', hp, pure_ok']
      simp [List.flatMap_def]
    have hul : ((0 :: sigs.flatMap sized) ++ e).length < 2 ^ 63 := by
      have g1 := flatten_sized sigs fun d hd => (hsl d hd).2
      have g2 := h2.length_eq
      have g3 := encodes_length he2
      simp only [List.length_cons, List.length_append]
      omega
    refine ⟨_, _, _, ?_, hlock, rfl, Sound.setScript hs i ((0 :: sigs.flatMap sized) ++ e) hul, ?_⟩
    · simp only [signInput, Lock.code, hcode, ok_bind', h1, pure_ok', hu]
    · exact ⟨_, hset _, .inr ⟨redeem, _, e, rfl, he2, rfl, hsat _ _ _ _
        (h3.imp fun _ _ h => SignedBy.setScript i _ h) (by rw [h2.length_eq, hm2])⟩⟩

theorem packAll_congr_ok {α : Type} {f g : α → Res Bytes} (l : List α) (h : ∀ x ∈ l, ∀ b, f x = .ok b → g x = .ok b)
    (bs : List Bytes) (hf : packAll f l = .ok bs) : packAll g l = .ok bs := by
  induction l generalizing bs with
  | nil => exact hf
  | cons x l ih =>
    rw [packAll] at hf ⊢
    obtain ⟨b, hb, hf⟩ := bind_eq_ok.1 hf
    obtain ⟨cs, hcs, hf⟩ := bind_eq_ok.1 hf
    rw [h x List.mem_cons_self b hb, ok_bind', ih (fun y hy => h y (List.mem_cons_of_mem _ hy)) cs hcs, ok_bind']
    exact hf

/-- A signed input may be put into another transaction that agrees on all to which the sighash commits (which inputs or
outputs are added, removed or changed is for the sighash to say): there it may spend the output as well, with the same
script. -/
theorem C113_moved {tx2 : Tx} (hs : Sound tx) (hs2 : Sound tx2) (job : Job L) (hj : job.Valid tx) (j : Nat)
    (ha : SigAgree job.sighash tx job.i tx2 j) {tx1 : Tx} (h : signInput H L tx job = .ok tx1)
    (hsame : (tx2.inputs[j]?).map (·.script_sig) = (tx1.inputs[job.i]?).map (·.script_sig)) :
    ∃ lock, job.lock.to_script H = .ok lock ∧ Spends H L tx2 j job.value lock := by
  have hin : tx.inputs[job.i]? = some (tx.inputs[job.i]'hj.input) := List.getElem?_eq_getElem hj.input
  obtain ⟨b, hb, _⟩ := getElem?_map_eq ha.spent hin
  have hjl : j < tx2.inputs.length := (List.getElem?_eq_some_iff.1 hb).1
  unfold signInput at h
  obtain ⟨code, hcode, h⟩ := bind_eq_ok.1 h
  obtain ⟨sigs, hsigs, h⟩ := bind_eq_ok.1 h
  obtain ⟨s, hu, h⟩ := bind_eq_ok.1 h
  cases h
  have hb' : b.script_sig = s := by
    rw [hb, setScript_input _ _ hin] at hsame
    simpa using hsame
  have hsigs2 : packAll (txSignature H L tx2 j job.value code job.sighash) job.signers = .ok sigs := by
    refine packAll_congr_ok _ (fun k _ sig hk => ?_) _ hsigs
    unfold txSignature at hk ⊢
    obtain ⟨r, hr, hk⟩ := bind_eq_ok.1 hk
    rw [C47_depends_only H tx tx2 job.i j job.value code job.sighash r (by omega) (by simpa using ha) hr, ok_bind']
    exact hk
  have hself : setScript tx2 j s = tx2 := by
    have : tx2.inputs.modify j (fun txin => { txin with script_sig := s }) = tx2.inputs := by
      apply List.ext_getElem?
      intro n
      rw [List.getElem?_modify]
      by_cases hn : j = n
      · subst hn
        rw [hb, ← hb']
        simp
      · simp [hn]
    rw [setScript, this]
  have hjob : ({ job with i := j } : Job L).Valid tx2 := ⟨hjl, hj.value, hj.sighash, hj.keys, hj.signers⟩
  obtain ⟨tx3, lock, s', h1, h2, rfl, -, h4⟩ := C113_input (H := H) hs2 { job with i := j } hjob
  have h5 : signInput H L tx2 { job with i := j } = .ok (setScript tx2 j s) := by
    simp only [signInput, hcode, ok_bind', hsigs2, hu, pure_ok']
  rw [h1] at h5
  rw [Except.ok.inj h5, hself] at h4
  exact ⟨lock, h2, h4⟩

/-- All inputs are signed one after another, in any order: afterwards every one of them may spend its output,
nothing but their scripts has changed, what could be spent by other inputs still can, and the transaction is read back
from its bytes as it is. -/
theorem C113_all (hs : Sound tx) (jobs : List (Job L)) (hj : ∀ job ∈ jobs, job.Valid tx)
    (hd : (jobs.map (·.i)).Nodup) :
    ∃ tx', signAll H L tx jobs = .ok tx' ∧
      (∀ job ∈ jobs, ∃ lock, job.lock.to_script H = .ok lock ∧ Spends H L tx' job.i job.value lock) ∧
      (tx'.version = tx.version ∧ tx'.outputs = tx.outputs ∧ tx'.locktime = tx.locktime ∧
        (tx'.inputs.map fun x => (x.prev_hash, x.prev_idx, x.sequence)) =
          (tx.inputs.map fun x => (x.prev_hash, x.prev_idx, x.sequence)) ∧
        ∀ i, i ∉ jobs.map (·.i) → tx'.inputs[i]? = tx.inputs[i]?) ∧
      (∀ i value lock, i ∉ jobs.map (·.i) → Spends H L tx i value lock → Spends H L tx' i value lock) ∧
      ∃ b, tx'.to_bytes = .ok b ∧ Tx.from_bytes b = .ok tx' := by
  induction jobs generalizing tx with
  | nil =>
    obtain ⟨h1, _, h2, _⟩ := C43_roundtrip tx hs.1 hs.2.1 hs.2.2
    exact ⟨tx, rfl, by simp, ⟨rfl, rfl, rfl, rfl, fun _ _ => rfl⟩, fun _ _ _ _ h => h, _, h1, h2⟩
  | cons job jobs ih =>
    obtain ⟨tx1, lock, s, h1, h2, rfl, h4, h5⟩ := C113_input (H := H) hs job (hj job List.mem_cons_self)
    rw [List.map_cons, List.nodup_cons] at hd
    have hlen : (setScript tx job.i s).inputs.length = tx.inputs.length := by simp [setScript]
    obtain ⟨tx', g1, g2, ⟨e1, e2, e3, e4, e5⟩, g4, g5⟩ := ih h4 (fun j h => by
      obtain ⟨a, b, c, d, e⟩ := hj j (List.mem_cons_of_mem _ h)
      exact ⟨by rw [hlen]; exact a, b, c, d, e⟩) hd.2
    refine ⟨tx', by rw [signAll, h1, ok_bind', g1], ?_, ⟨e1, e2, e3, ?_, ?_⟩, ?_, g5⟩
    · intro j h
      rcases List.mem_cons.1 h with rfl | h
      · exact ⟨lock, h2, g4 _ _ _ hd.1 h5⟩
      · exact g2 j h
    · rw [e4]
      exact map_modify_same _ (fun txin : TxInput => { txin with script_sig := s }) (fun _ => rfl) _ _
    · intro i hi
      rw [List.map_cons, List.mem_cons, not_or] at hi
      rw [e5 i hi.2, setScript, List.getElem?_modify]
      cases tx.inputs[i]? with
      | none => rfl
      | some x => simp [Ne.symm hi.1]
    · intro i value lock' hi h
      rw [List.map_cons, List.mem_cons, not_or] at hi
      exact g4 _ _ _ hi.2 (C113_others s (Ne.symm hi.1) h)

/-- `q.verify_der_signature(signature.der_signature, tx.signature_hash(i, value, code, signature.sighash), None)` tells
whether the signature is one by the key of the transaction. -/
theorem C113_verify (hs : Sound tx) {i : Nat} (hi : i < tx.inputs.length) {value : Int}
    (hv : 0 ≤ value ∧ value < 2 ^ 63) {code : Bytes} (hc : code.length < 2 ^ 64) (q : PublicKey L) (sig : Bytes)
    (hl : sig.length < 76) :
    SignedBy H L tx i value code sig q.point ↔ (do
      let raw ← Signature.new L sig
      let h ← tx.signature_hash H i value code (some (← Signature.sighash raw))
      q.verify_der_signature (← Signature.der_signature raw) h none) = .ok true := by
  have hin : tx.inputs[i]? = some tx.inputs[i] := List.getElem?_eq_getElem hi
  have hhash : ∀ t, t < 256 → tx.signature_hash H i value code (some t) =
      .ok (twice H.sha256 (preimage (twice H.sha256) tx i tx.inputs[i] value code t)) := by
    intro t ht
    obtain ⟨⟨r1, r2, r3, r4, r5, r6⟩, _, _⟩ := hs
    have hm := r3 _ (List.getElem_mem hi)
    refine (C46_preimage H tx i value code t _).2 ⟨by omega, hv.1, tx.inputs[i], by rw [Int.toNat_natCast]; exact hin, ?_,
      by rw [Int.toNat_natCast]⟩
    rw [Int.toNat_natCast]
    refine ⟨r1, r6, ?_, hm.1, hm.2.2, hc, ?_, fun _ j hj => (r3 j hj).1, fun _ _ _ j hj => (r3 j hj).2.2,
      fun _ _ => r5, fun _ o ho => r5 o (List.mem_of_getElem? ho)⟩
    · constructor <;> norm_num <;> omega
    · constructor <;> norm_num <;> omega
  have h32 : ∀ x, (twice H.sha256 x).length = 32 := fun x => H.sha256_length _
  constructor
  · rintro ⟨der, t, txin, s, rfl, -, h3, h4, h5⟩
    rw [hin] at h3
    cases h3
    have hlen := L.parse_der_length _ _ h4
    have hne : der ++ [t] ≠ MISSING_SIG_BYTES := by
      intro e
      have := congrArg List.length e
      simp [MISSING_SIG_BYTES] at this
      rw [this] at hlen; simp at hlen
    simp only [Signature.new, hne, if_false, dropEnd, List.length_append, List.length_singleton, Nat.add_sub_cancel,
      List.take_left, der_signature_to_compact, der_signature_to_cdata, h4, ok_bind', pure_ok', Signature.sighash,
      List.getLast?_concat, Signature.der_signature, hhash _ t.toNat_lt, PublicKey.verify_der_signature, message_hash, h32,
      ne_eq, not_true_eq_false, verify_der_signature, h5]
  · intro h
    by_cases hm : sig = MISSING_SIG_BYTES
    · simp [Signature.new, Signature.sighash, hm] at h
    · rcases List.eq_nil_or_concat sig with rfl | ⟨der, t, rfl⟩
      · simp [Signature.new, Signature.sighash, MISSING_SIG_BYTES, bind_eq_ok] at h
      · rw [List.concat_eq_append] at *
        cases h4 : L.parse_der der with
        | none =>
          simp [Signature.new, hm, dropEnd, der_signature_to_compact, der_signature_to_cdata, h4] at h
        | some s =>
          simp only [Signature.new, hm, if_false, dropEnd, List.length_append, List.length_singleton, Nat.add_sub_cancel,
            List.take_left, der_signature_to_compact, der_signature_to_cdata, h4, ok_bind', pure_ok', Signature.sighash,
            List.getLast?_concat, Signature.der_signature, hhash _ t.toNat_lt, PublicKey.verify_der_signature, message_hash,
            h32, ne_eq, not_true_eq_false, verify_der_signature, Except.ok.injEq] at h
          exact ⟨der, t, _, s, rfl, hl, hin, h4, h⟩

/-- A transaction with two inputs, one for the key of the secret 1, one for two of three keys. -/
example (L : Secp) : ∃ (tx : Tx) (jobs : List (Job L)), Sound tx ∧ jobs.length = 2 ∧ (∀ job ∈ jobs, job.Valid tx) ∧
    (jobs.map (·.i)).Nodup := by
  have hk : ∀ n : Fin 3, PrivValid ⟨beBytes 32 (n.val + 1), true, Bitcoin⟩ := by unfold PrivValid; decide +kernel
  let k : Fin 3 → PrivateKey := fun n => ⟨beBytes 32 (n.val + 1), true, Bitcoin⟩
  let q : Fin 3 → PublicKey L := fun n => ⟨secretNumber (k n) • L.gen, true, Bitcoin⟩
  have hq : ∀ n, PubValid (q n) := fun n => L.pub_ne (k n) (hk n)
  refine ⟨⟨2, [⟨zeros 32, 0, [], 5⟩, ⟨zeros 32, 1, [], 6⟩], [⟨90, [0x51]⟩], 0⟩,
    [⟨1, 60, .hash (q 0), [k 0], 0x41⟩, ⟨0, 40, .script [q 0, q 1, q 2] 2, [k 0, k 2], 0xc3⟩],
    ⟨⟨?_, by decide, ?_, by decide, ?_, ?_⟩, ?_, ?_, ?_⟩, rfl, ?_, by simp⟩
  · unfold Spec.SInt; decide
  · simp only [List.mem_cons, List.not_mem_nil, or_false, forall_eq_or_imp, forall_eq, InRangeInput, Spec.UInt]
    decide
  · simp only [List.mem_cons, List.not_mem_nil, or_false, forall_eq, InRangeOutput, Spec.SInt]
    decide
  · unfold Spec.UInt; decide
  · simp [HashSized, zeros]
  · simp
  · simp
  · intro job hjob
    simp only [List.mem_cons, List.not_mem_nil, or_false] at hjob
    rcases hjob with rfl | rfl
    · exact ⟨by simp, by simp, by simp, fun x hx => by rw [List.mem_singleton.1 hx]; exact hk 0, k 0, rfl, rfl, rfl, rfl⟩
    · refine ⟨by simp, by simp, by simp, ?_, by simp, rfl, by simp, ?_, [q 0, q 2], ?_, ?_⟩
      · intro x hx
        simp only [List.mem_cons, List.not_mem_nil, or_false] at hx
        rcases hx with rfl | rfl
        · exact hk 0
        · exact hk 2
      · intro x hx
        simp only [List.mem_cons, List.not_mem_nil, or_false] at hx
        rcases hx with rfl | rfl | rfl <;> exact hq _
      · exact .cons_cons _ (.cons _ (.cons_cons _ .slnil))
      · exact .cons rfl (.cons rfl .nil)

/-- A transaction with one input, signed with ALL|ANYONE_CAN_PAY|FORKID, to which someone adds another in front. -/
example (H : Hashes) (L : Secp) : ∃ (tx tx1 tx2 : Tx) (job : Job L), Sound tx ∧ Sound tx2 ∧ job.Valid tx ∧
    SigAgree job.sighash tx job.i tx2 1 ∧ signInput H L tx job = .ok tx1 ∧ tx2.inputs.length = 2 ∧
    (tx2.inputs[1]?).map (·.script_sig) = (tx1.inputs[job.i]?).map (·.script_sig) := by
  have hk : PrivValid ⟨beBytes 32 1, true, Bitcoin⟩ := by unfold PrivValid; decide +kernel
  let k : PrivateKey := ⟨beBytes 32 1, true, Bitcoin⟩
  let q : PublicKey L := ⟨secretNumber k • L.gen, true, Bitcoin⟩
  let tx : Tx := ⟨2, [⟨zeros 32, 0, [], 5⟩], [⟨90, [0x51]⟩], 0⟩
  let job : Job L := ⟨0, 60, .hash q, [k], 0xc1⟩
  have hs : Sound tx := by
    refine ⟨⟨by unfold Spec.SInt; decide, by decide, ?_, by decide, ?_, by unfold Spec.UInt; decide⟩, ?_, ?_, ?_⟩
    · simp only [tx, List.mem_cons, List.not_mem_nil, or_false, forall_eq, InRangeInput, Spec.UInt]
      decide
    · simp only [tx, List.mem_cons, List.not_mem_nil, or_false, forall_eq, InRangeOutput, Spec.SInt]
      decide
    · simp [tx, HashSized, zeros]
    · simp [tx]
    · simp [tx]
  have hj : job.Valid tx := ⟨by simp [job, tx], by simp [job], by simp [job],
    fun x hx => by rw [List.mem_singleton.1 hx]; exact hk, k, rfl, rfl, rfl, rfl⟩
  obtain ⟨tx1, lock, s, h1, h2, rfl, h4, h5⟩ := C113_input (H := H) hs job hj
  have hl : s.length < 2 ^ 63 := h4.2.2.1 ⟨zeros 32, 0, s, 5⟩ (by simp [setScript, tx, job])
  refine ⟨tx, _, ⟨2, [⟨zeros 32, 7, [], 9⟩, ⟨zeros 32, 0, s, 5⟩], [⟨90, [0x51]⟩], 0⟩, job, hs, ?_, hj, ?_, h1, rfl, ?_⟩
  · refine ⟨⟨by unfold Spec.SInt; norm_num, by simp, ?_, by simp, ?_, by unfold Spec.UInt; norm_num⟩, ?_, ?_, ?_⟩
    · simp only [List.mem_cons, List.not_mem_nil, or_false, forall_eq_or_imp, forall_eq, InRangeInput, Spec.UInt]
      refine ⟨by decide, by norm_num, by omega, by norm_num⟩
    · simp only [List.mem_cons, List.not_mem_nil, or_false, forall_eq, InRangeOutput, Spec.SInt]
      decide
    · simp [HashSized, zeros]
    · simpa using hl
    · simp
  · refine ⟨rfl, rfl, rfl, fun h => absurd ?_ h, fun h => absurd ?_ h, fun _ _ => rfl, fun h => ?_⟩
    · show AnyoneCanPay 0xc1
      unfold AnyoneCanPay; decide
    · show AnyoneCanPay 0xc1
      unfold AnyoneCanPay; decide
    · exact absurd (show IsSingle 0xc1 from h) (by unfold IsSingle; decide)
  · rfl

end Bitcoinx
