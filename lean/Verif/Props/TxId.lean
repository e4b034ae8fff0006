import Verif.Props.Tx
import Verif.Props.Sighash
import Verif.Props.Base58

/-! # C125: transaction hashes -/

namespace Bitcoinx
open Spec

/-- **C125** (identity).  Two different transactions have different hashes, unless their serializations are different byte
strings with the same double SHA-256. -/
theorem C125_identity (H : Hashes) (tx tx' : Tx) (h : HashSized tx) (h' : HashSized tx') (l : Held tx) (l' : Held tx')
    (r : Bytes) (hr : tx.hash H = .ok r) (hr' : tx'.hash H = .ok r) (hne : tx ≠ tx') :
    ∃ a b, tx.to_bytes = .ok a ∧ tx'.to_bytes = .ok b ∧ a ≠ b ∧ H.sha256 (H.sha256 a) = r ∧ H.sha256 (H.sha256 b) = r := by
  simp only [Tx.hash, bind_eq_ok, pure_ok', Except.ok.injEq] at hr hr'
  obtain ⟨a, ha, ra⟩ := hr
  obtain ⟨b, hb, rb⟩ := hr'
  refine ⟨a, b, ha, hb, ?_, ra, rb⟩
  rintro rfl
  obtain ⟨i1, e1⟩ := (tx_to_bytes_iff tx a).1 ha
  obtain ⟨i2, e2⟩ := (tx_to_bytes_iff tx' a).1 hb
  have f1 := (C43_roundtrip tx i1 h l).2.2.1
  have f2 := (C43_roundtrip tx' i2 h' l').2.2.1
  rw [← e1] at f1
  rw [← e2, f1] at f2
  exact hne (Except.ok.inj f2)

/-- **C125** (text).  The text of a hash is the hash reversed in hex, from which the hash can be had back, so texts are equal
exactly if the hashes are; both exist exactly if all numbers of the transaction are in range, else `struct.error` is
raised. -/
theorem C125_text (H : Hashes) (tx : Tx) :
    (InRangeTx tx → ∃ r t, tx.hash H = .ok r ∧ tx.hex_hash H = .ok t ∧ hex_str_to_hash t = .ok r ∧ t = hex r.reverse) ∧
    (¬ InRangeTx tx → tx.hash H = .error .structError ∧ tx.hex_hash H = .error .structError) ∧
    ∀ (tx' : Tx) (t : Str), tx.hex_hash H = .ok t → (tx'.hex_hash H = .ok t ↔ tx'.hash H = tx.hash H) := by
  have key : ∀ (tx : Tx) t, tx.hex_hash H = .ok t → tx.hash H = hex_str_to_hash t := by
    intro tx t ht
    simp only [Tx.hex_hash, bind_eq_ok, pure_ok', Except.ok.injEq] at ht
    obtain ⟨r, hr, rfl⟩ := ht
    rw [hr, C06_hash_hex_hash]
  refine ⟨fun h => ?_, fun h => ?_, fun tx' t ht => ⟨fun ht' => ?_, fun hh => ?_⟩⟩
  · have hb := (tx_to_bytes_iff tx _).2 ⟨h, rfl⟩
    have hr : tx.hash H = .ok (H.double_sha256 (txBytes tx)) := by simp only [Tx.hash, hb, ok_bind', pure_ok']
    refine ⟨_, _, hr, by simp only [Tx.hex_hash, hr, ok_bind', pure_ok'], C06_hash_hex_hash _, rfl⟩
  · have := C43_out_of_range tx h
    simp only [Tx.hex_hash, Tx.hash, this, error_bind', and_self]
  · rw [key tx t ht, key tx' t ht']
  · rw [Tx.hex_hash, hh]
    exact ht

/-- **C125** (what was read).  The hash of a transaction that was read is that of its shortest serialization, from which the
same transaction is read.  The bytes given are that serialization, or longer: then they go on after the transaction, or have
some count or length in a longer form. -/
theorem C125_read (H : Hashes) (raw : Bytes) (tx : Tx) (h : Tx.from_bytes raw = .ok tx) :
    ∃ b, tx.hash H = .ok (H.sha256 (H.sha256 b)) ∧ Tx.from_bytes b = .ok tx ∧ (b = raw ∨ b.length < raw.length) := by
  simp only [Tx.from_bytes, bind_eq_ok, pure_ok', Except.ok.injEq] at h
  obtain ⟨⟨tx', rest⟩, h1, rfl⟩ := h
  obtain ⟨i, hs, hl⟩ := C43_read_in_range _ _ _ h1
  obtain ⟨b, c, h4, h5, h6, h7⟩ := C44_reserialize _ _ _ h1
  have e := ((tx_to_bytes_iff tx' b).1 h4).2
  refine ⟨b, by simp only [Tx.hash, h4, ok_bind', pure_ok', Hashes.double_sha256], ?_, ?_⟩
  · rw [e]
    exact (C43_roundtrip tx' i hs hl).2.2.1
  · have : raw.length = c.length + rest.length := by rw [h5, List.length_append]
    by_cases hb : b.length < raw.length
    · exact .inr hb
    · left
      have hr : rest = [] := List.length_eq_zero_iff.1 (by omega)
      rw [h5, hr, List.append_nil]
      exact h7 (by omega)

/-- **C125** (malleability).  Replacing the script of an input by another one changes no signature hash, of any input and
type, but it changes the bytes of which the transaction's hash is the double SHA-256. -/
theorem C125_malleable (H : Hashes) (tx : Tx) (j : Nat) (x : TxInput) (hx : tx.inputs[j]? = some x) (script : Bytes)
    (hne : script ≠ x.script_sig) (hlen : script.length < 2 ^ 63) (hi : InRangeTx tx) (hs : HashSized tx) (hl : Held tx) :
    let tx' : Tx := { tx with inputs := tx.inputs.mapIdx fun n y => if n = j then { y with script_sig := script } else y }
    (∀ (i value : Int) (code : Bytes) (t : Nat) (r : Bytes), tx.signature_hash H i value code (some t) = .ok r →
      tx'.signature_hash H i value code (some t) = .ok r) ∧
    ∃ a b, tx.to_bytes = .ok a ∧ tx'.to_bytes = .ok b ∧ a ≠ b ∧ tx.hash H = .ok (H.sha256 (H.sha256 a)) ∧
      tx'.hash H = .ok (H.sha256 (H.sha256 b)) := by
  intro tx'
  have hmem : ∀ y ∈ tx'.inputs, ∃ z ∈ tx.inputs, y = z ∨ y = { z with script_sig := script } := by
    intro y hy
    obtain ⟨n, hn, e⟩ := List.mem_mapIdx.1 hy
    refine ⟨_, List.getElem_mem hn, ?_⟩
    split at e
    · exact .inr e.symm
    · exact .inl e.symm
  have hlen' : tx'.inputs.length = tx.inputs.length := List.length_mapIdx
  have hi' : InRangeTx tx' := by
    unfold InRangeTx at hi ⊢
    rw [hlen']
    refine ⟨hi.1, hi.2.1, fun y hy => ?_, hi.2.2.2⟩
    obtain ⟨z, hz, rfl | rfl⟩ := hmem y hy
    · exact hi.2.2.1 _ hz
    · obtain ⟨g1, _, g3⟩ := hi.2.2.1 z hz
      exact ⟨g1, by simp only; omega, g3⟩
  have hs' : HashSized tx' := by
    intro y hy
    obtain ⟨z, hz, rfl | rfl⟩ := hmem y hy
    · exact hs _ hz
    · exact hs z hz
  have hl' : Held tx' := by
    refine ⟨fun y hy => ?_, hl.2⟩
    obtain ⟨z, hz, rfl | rfl⟩ := hmem y hy
    · exact hl.1 _ hz
    · exact hlen
  have ha := (tx_to_bytes_iff tx _).2 ⟨hi, rfl⟩
  have hb := (tx_to_bytes_iff tx' _).2 ⟨hi', rfl⟩
  refine ⟨fun i value code t r hr => C47_inputs H tx _ i value code t r (fun n y => ?_) hr, _, _, ha, hb, ?_,
    by simp only [Tx.hash, ha, ok_bind', pure_ok', Hashes.double_sha256],
    by simp only [Tx.hash, hb, ok_bind', pure_ok', Hashes.double_sha256]⟩
  · split
    · exact ⟨rfl, rfl, .inl rfl⟩
    · exact ⟨rfl, rfl, .inl rfl⟩
  · intro e
    have f1 := (C43_roundtrip tx hi hs hl).2.2.1
    have f2 := (C43_roundtrip tx' hi' hs' hl').2.2.1
    rw [← e, f1] at f2
    have e2 : tx'.inputs[j]? = some { x with script_sig := script } := by
      simp only [tx', List.getElem?_mapIdx, hx, Option.map_some, if_true]
    rw [← Except.ok.inj f2, hx] at e2
    exact hne (congrArg TxInput.script_sig (Option.some.inj e2)).symm

/-- The transaction of `exampleTx` and the same with another script in its input. -/
example : exampleTx.inputs[0]?.map (·.script_sig) = some [0x51] ∧ ([0x52] : Bytes) ≠ [0x51] ∧ InRangeTx exampleTx ∧
    HashSized exampleTx ∧ Held exampleTx ∧
    ∃ r r', exampleTx.hash toyHashes = .ok r ∧
      ({ exampleTx with inputs := exampleTx.inputs.mapIdx fun n y => if n = 0 then { y with script_sig := [0x52] } else y } : Tx
        ).hash toyHashes = .ok r' := by
  refine ⟨rfl, by decide, exampleTx_ok.1, exampleTx_ok.2.1, exampleTx_ok.2.2, ?_⟩
  obtain ⟨_, a, b, _, _, _, h1, h2⟩ := C125_malleable toyHashes exampleTx 0 _ rfl [0x52] (by decide) (by decide)
    exampleTx_ok.1 exampleTx_ok.2.1 exampleTx_ok.2.2
  exact ⟨_, _, h1, h2⟩

/-- Bytes that are read as a transaction whose hash is not theirs: a count is in its longer form, and a byte follows. -/
example : Tx.from_bytes [1, 0, 0, 0, 0xfd, 0, 0, 0, 9, 0, 0, 0, 0xff] = .ok ⟨1, [], [], 9⟩ ∧
    (⟨1, [], [], 9⟩ : Tx).to_bytes = .ok [1, 0, 0, 0, 0, 0, 9, 0, 0, 0] := by
  decide +kernel

end Bitcoinx
