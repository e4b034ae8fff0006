import Verif.Lemmas.Tx
import Verif.Props.Base58

/-! # Properties of transactions (C43 - C48, C04 for transaction readers) -/

namespace Bitcoinx
open Spec

/-! ## C04: reading transactions from a stream -/

theorem input_readsExactly : ReadsExactly TxInput.read ∧ OnlyReadError TxInput.read := by
  rw [input_read_eq]
  have h32 := readFixed_readsExactly (widthChecked_unpackU 4)
  have g32 := readFixed_onlyStructError (widthChecked_unpackU 4)
  exact ⟨(ReadsExactly.takeN 32).andThen fun _ => ReadsExactly.andThen h32 fun _ =>
      ReadsExactly.andThen read_varbytes_readsExactly fun _ => ReadsExactly.andThen h32 fun _ => .ret _,
    (OnlyStructError.takeN 32).weaken.andThen fun _ => OnlyReadError.andThen g32.weaken fun _ =>
      OnlyReadError.andThen read_varbytes_onlyReadError fun _ => OnlyReadError.andThen g32.weaken fun _ =>
        (OnlyStructError.ret _).weaken⟩

theorem output_read_eq : TxOutput.read = Reader.andThen read_le_int64 (fun value =>
    Reader.andThen read_varbytes (fun script_pubkey => Reader.ret { value, script_pubkey })) := by
  funext s; rfl

theorem output_readsExactly : ReadsExactly TxOutput.read ∧ OnlyReadError TxOutput.read := by
  rw [output_read_eq]
  exact ⟨ReadsExactly.andThen (readFixed_readsExactly (widthChecked_unpackS 8)) fun _ =>
      ReadsExactly.andThen read_varbytes_readsExactly fun _ => .ret _,
    OnlyReadError.andThen (readFixed_onlyStructError (widthChecked_unpackS 8)).weaken fun _ =>
      OnlyReadError.andThen read_varbytes_onlyReadError fun _ => (OnlyStructError.ret _).weaken⟩

theorem tx_read_eq : Tx.read = Reader.andThen read_le_int32 (fun version =>
    Reader.andThen (read_list TxInput.read) (fun inputs => Reader.andThen (read_list TxOutput.read) (fun outputs =>
      Reader.andThen read_le_uint32 (fun locktime => Reader.ret { version, inputs, outputs, locktime })))) := by
  funext s; rfl

/-- The readers of inputs, outputs and transactions consume exactly what they decode, raise
`struct.error` on every proper prefix of it, and raise nothing else but `OverflowError`. -/
theorem C04_tx_readers :
    (ReadsExactly TxInput.read ∧ OnlyReadError TxInput.read) ∧
    (ReadsExactly TxOutput.read ∧ OnlyReadError TxOutput.read) ∧
    (ReadsExactly Tx.read ∧ OnlyReadError Tx.read) := by
  refine ⟨input_readsExactly, output_readsExactly, ?_⟩
  rw [tx_read_eq]
  exact ⟨ReadsExactly.andThen (readFixed_readsExactly (widthChecked_unpackS 4)) fun _ =>
      ReadsExactly.andThen (read_list_readsExactly input_readsExactly.1) fun _ =>
        ReadsExactly.andThen (read_list_readsExactly output_readsExactly.1) fun _ =>
          ReadsExactly.andThen (readFixed_readsExactly (widthChecked_unpackU 4)) fun _ => .ret _,
    OnlyReadError.andThen (readFixed_onlyStructError (widthChecked_unpackS 4)).weaken fun _ =>
      OnlyReadError.andThen (read_list_onlyReadError input_readsExactly.2) fun _ =>
        OnlyReadError.andThen (read_list_onlyReadError output_readsExactly.2) fun _ =>
          OnlyReadError.andThen (readFixed_onlyStructError (widthChecked_unpackU 4)).weaken fun _ =>
            (OnlyStructError.ret _).weaken⟩

/-- A transaction whose first script has the length 2^63 by its length field raises `OverflowError`. -/
theorem C04_overflow : ∃ raw, Tx.from_bytes raw = .error .overflowError :=
  ⟨[1, 0, 0, 0, 1] ++ List.replicate 36 0 ++ [0xff, 0, 0, 0, 0, 0, 0, 0, 0x80], by decide +kernel⟩

/-! ## C43: transactions round-trip -/

/-- A transaction with fields in range is serialized to the specified bytes, and reading these bytes
in front of anything gives the transaction and leaves the rest. -/
theorem C43_roundtrip (tx : Tx) (h : InRangeTx tx) (hh : HashSized tx) (hs : Held tx) :
    tx.to_bytes = .ok (txBytes tx) ∧ (∀ rest, Tx.read (txBytes tx ++ rest) = .ok (tx, rest)) ∧
      Tx.from_bytes (txBytes tx) = .ok tx ∧ tx.to_hex = .ok (hex (txBytes tx)) ∧
      Tx.from_hex (hex (txBytes tx)) = .ok tx := by
  obtain ⟨h1, h2⟩ := inverts_tx h hh hs
  have h3 : Tx.from_bytes (txBytes tx) = .ok tx := by
    have := h2 []
    rw [List.append_nil] at this
    simp only [Tx.from_bytes, this, ok_bind', pure_ok']
  refine ⟨h1, h2, h3, ?_, ?_⟩
  · simp only [Tx.to_hex, h1, ok_bind', pure_ok']
  · simp only [Tx.from_hex, fromhex_hex, ok_bind', h3]

/-- If a field is out of range, serialization raises `struct.error`. -/
theorem C43_out_of_range (tx : Tx) (h : ¬ InRangeTx tx) : tx.to_bytes = .error .structError := by
  cases hb : tx.to_bytes with
  | ok b => exact absurd ((tx_to_bytes_iff tx b).1 hb).1 h
  | error e => rw [onlyStruct_tx tx e hb]

/-- The same for inputs and outputs. -/
theorem C43_parts (i : TxInput) (o : TxOutput) :
    (InRangeInput i → i.prev_hash.length = 32 → i.script_sig.length < 2 ^ 63 → i.to_bytes = .ok (inputBytes i) ∧
      TxInput.from_bytes (inputBytes i) = .ok i ∧ TxInput.from_hex (hex (inputBytes i)) = .ok i) ∧
    (¬ InRangeInput i → i.to_bytes = .error .structError) ∧
    (InRangeOutput o → o.script_pubkey.length < 2 ^ 63 → o.to_bytes = .ok (outputBytes o) ∧
      TxOutput.from_bytes (outputBytes o) = .ok o ∧ TxOutput.from_hex (hex (outputBytes o)) = .ok o) ∧
    (¬ InRangeOutput o → o.to_bytes = .error .structError) := by
  refine ⟨fun h hh hs => ?_, fun h => ?_, fun h hs => ?_, fun h => ?_⟩
  · obtain ⟨h1, h2⟩ := inverts_input h hh hs
    have h2 := h2 []
    rw [List.append_nil] at h2
    have h3 : TxInput.from_bytes (inputBytes i) = .ok i := by
      simp only [TxInput.from_bytes, h2, ok_bind', pure_ok']
    exact ⟨h1, h3, by simp only [TxInput.from_hex, fromhex_hex, ok_bind', h3]⟩
  · cases hb : i.to_bytes with
    | ok b => exact absurd ((input_to_bytes_iff i b).1 hb).1 h
    | error e => rw [onlyStruct_input i e hb]
  · obtain ⟨h1, h2⟩ := inverts_output h hs
    have h2 := h2 []
    rw [List.append_nil] at h2
    have h3 : TxOutput.from_bytes (outputBytes o) = .ok o := by
      simp only [TxOutput.from_bytes, h2, ok_bind', pure_ok']
    exact ⟨h1, h3, by simp only [TxOutput.from_hex, fromhex_hex, ok_bind', h3]⟩
  · cases hb : o.to_bytes with
    | ok b => exact absurd ((output_to_bytes_iff o b).1 hb).1 h
    | error e => rw [onlyStruct_output o e hb]

theorem read_varbytes_length {s d rest : Bytes} (h : read_varbytes s = .ok (d, rest)) : d.length < 2 ^ 63 := by
  simp only [read_varbytes, bind_eq_ok] at h
  obtain ⟨⟨n, s1⟩, _, h⟩ := h
  simp only at h
  split at h
  · cases h
  · split at h
    · cases h
    · simp only [pure_ok', Except.ok.injEq, Prod.mk.injEq] at h
      rw [← h.1, List.length_take]
      omega

/-- Everything read is in range, so that the round trip covers all transactions that can be read. -/
theorem C43_read_in_range (raw rest : Bytes) (tx : Tx) (h : Tx.read raw = .ok (tx, rest)) :
    InRangeTx tx ∧ HashSized tx ∧ Held tx := by
  obtain ⟨b, c, h1, _⟩ := reserializes_tx _ _ _ h
  refine ⟨((tx_to_bytes_iff tx b).1 h1).1, ?_⟩
  simp only [Tx.read, bind_eq_ok, pure_ok', Except.ok.injEq, Prod.mk.injEq] at h
  obtain ⟨⟨v, s1⟩, g1, ⟨is, s2⟩, g2, ⟨os, s3⟩, g3, ⟨lt, s4⟩, g4, rfl, rfl⟩ := h
  simp only [read_list, bind_eq_ok] at g2
  obtain ⟨⟨n, s5⟩, _, g2⟩ := g2
  simp only at g2
  simp only [read_list, bind_eq_ok] at g3
  obtain ⟨⟨m, s6⟩, _, g3⟩ := g3
  simp only at g3
  have key : ∀ {α : Type} {P : α → Prop} {r : Reader α} (_ : ∀ s x rest, r s = .ok (x, rest) → P x)
      (n : Nat) (s : Bytes) (is : List α) (rest : Bytes), readN r n s = .ok (is, rest) → ∀ i ∈ is, P i := by
    intro α P r hr n
    induction n with
    | zero =>
      intro s is rest h
      simp only [readN, Except.ok.injEq, Prod.mk.injEq] at h
      obtain ⟨rfl, rfl⟩ := h
      simp
    | succ n ih =>
      intro s is rest h
      simp only [readN, bind_eq_ok, pure_ok', Except.ok.injEq, Prod.mk.injEq] at h
      obtain ⟨⟨x, s1⟩, k1, ⟨ys, s2⟩, k2, rfl, rfl⟩ := h
      intro i hi
      rcases List.mem_cons.1 hi with rfl | hi
      · exact hr _ _ _ k1
      · exact ih _ _ _ k2 i hi
  have hin := key (P := fun i : TxInput => i.prev_hash.length = 32 ∧ i.script_sig.length < 2 ^ 63)
    (fun s x rest hx => ⟨input_read_hash hx, by
      simp only [TxInput.read, bind_eq_ok, pure_ok', Except.ok.injEq, Prod.mk.injEq] at hx
      obtain ⟨⟨_, _⟩, _, ⟨_, _⟩, q, ⟨_, _⟩, _, rfl, _⟩ := hx
      exact read_varbytes_length q⟩) _ _ _ _ g2
  have hout := key (P := fun o : TxOutput => o.script_pubkey.length < 2 ^ 63) (fun s x rest hx => by
      simp only [TxOutput.read, bind_eq_ok, pure_ok', Except.ok.injEq, Prod.mk.injEq] at hx
      obtain ⟨⟨_, _⟩, _, ⟨_, _⟩, q, rfl, _⟩ := hx
      exact read_varbytes_length q) _ _ _ _ g3
  exact ⟨fun i hi => (hin i hi).1, fun i hi => (hin i hi).2, hout⟩

/-- A transaction of one input and one output. -/
def exampleTx : Tx where
  version := -1
  inputs := [{ prev_hash := List.replicate 32 7, prev_idx := 3, script_sig := [0x51], sequence := 0xfffffffe }]
  outputs := [{ value := 5000000000, script_pubkey := [0x6a] }]
  locktime := 400000

theorem exampleTx_ok : InRangeTx exampleTx ∧ HashSized exampleTx ∧ Held exampleTx := by
  unfold InRangeTx HashSized Held InRangeInput InRangeOutput Spec.UInt Spec.SInt exampleTx
  simp

example : ∃ b, exampleTx.to_bytes = .ok b ∧ b.length = 62 ∧ Tx.from_bytes b = .ok exampleTx :=
  ⟨_, (C43_roundtrip exampleTx exampleTx_ok.1 exampleTx_ok.2.1 exampleTx_ok.2.2).1, by decide +kernel,
    (C43_roundtrip exampleTx exampleTx_ok.1 exampleTx_ok.2.1 exampleTx_ok.2.2).2.2.1⟩

/-! ## C44: a parsed transaction re-serializes to the bytes it was parsed from -/

/-- Serializing a transaction that was read gives the bytes read, or fewer bytes (if some number in
them was not in its shortest form); whether it gives the same can be told from the size. -/
theorem C44_reserialize (raw rest : Bytes) (tx : Tx) (h : Tx.read raw = .ok (tx, rest)) :
    ∃ b c, tx.to_bytes = .ok b ∧ raw = c ++ rest ∧ b.length ≤ c.length ∧ (b.length = c.length → b = c) := by
  obtain ⟨b, c, h1, h2, h3, h4⟩ := reserializes_tx _ _ _ h
  exact ⟨b, c, h1, h2, h3, h4⟩

/-- Only the number encodings can differ: a shorter result means that some count or length in the
bytes read was not in its shortest form.  Here for the counts and lengths themselves. -/
theorem C44_varint (raw rest : Bytes) (n : Int) (h : read_varint raw = .ok (n, rest)) :
    ∃ k : Nat, n = k ∧ (raw = varint k ++ rest ∨ ∃ c, raw = c ++ rest ∧ (varint k).length < c.length) := by
  obtain ⟨k, rfl, hk, _⟩ := read_varint_cases h
  obtain ⟨b, c, h1, h2, h3, h4⟩ := reserializes_varint _ _ _ h
  rw [pack_varint_eq k hk] at h1
  have := Except.ok.inj h1
  subst this
  refine ⟨k, rfl, ?_⟩
  rcases Nat.lt_or_ge (varint k).length c.length with h5 | h5
  · exact .inr ⟨c, h2, h5⟩
  · rw [← h4 (by omega)] at h2
    exact .inl h2

/-- `from_bytes` accepts bytes after the transaction and longer forms of numbers, so that without the
condition on the size the bytes need not be the same. -/
theorem C44_not_unique : ∃ raw tx b, Tx.from_bytes raw = .ok tx ∧ tx.to_bytes = .ok b ∧ b ≠ raw ∧
    b.length < raw.length := by
  refine ⟨[1, 0, 0, 0, 0xfd, 0, 0, 0, 9, 0, 0, 0], ⟨1, [], [], 9⟩, [1, 0, 0, 0, 0, 0, 9, 0, 0, 0], ?_, ?_, ?_, ?_⟩
  all_goals decide +kernel

/-! ## C45: sizes -/

theorem varint_len_eq (n : Nat) (h : n < 2 ^ 64) : varint_len (n : Int) = .ok (varint n).length := by
  obtain ⟨b, h1, h2, _⟩ := pack_varint_ok n h
  rw [pack_varint_eq n h] at h1
  cases h1
  exact h2

theorem input_size (i : TxInput) (h : i.script_sig.length < 2 ^ 64) (hh : i.prev_hash.length = 32) :
    i.size = .ok (inputBytes i).length := by
  simp only [TxInput.size, varint_len_eq _ h, ok_bind', pure_ok', inputBytes, outpoint, varbytes,
    List.length_append, hh, leInt_length, Except.ok.injEq]
  omega

theorem output_size (o : TxOutput) (h : o.script_pubkey.length < 2 ^ 64) :
    o.size = .ok (outputBytes o).length := by
  simp only [TxOutput.size, varint_len_eq _ h, ok_bind', pure_ok', outputBytes, varbytes,
    List.length_append, leInt_length, Except.ok.injEq]
  omega

theorem sumSizes_eq {α : Type} (size : α → Res Nat) (bytes : α → Bytes) (xs : List α)
    (h : ∀ x ∈ xs, size x = .ok (bytes x).length) : Tx.sumSizes size xs = .ok (xs.flatMap bytes).length := by
  induction xs with
  | nil => rfl
  | cons x xs ih =>
    simp only [Tx.sumSizes, h x (by simp), ih (fun y hy => h y (by simp [hy])), ok_bind', pure_ok',
      List.flatMap_cons, List.length_append]

/-- `size()` is the length of `to_bytes()`. -/
theorem C45_size (tx : Tx) (h : InRangeTx tx) (hh : HashSized tx) :
    ∃ b, tx.to_bytes = .ok b ∧ tx.size = .ok b.length := by
  refine ⟨txBytes tx, (tx_to_bytes_iff tx _).2 ⟨h, rfl⟩, ?_⟩
  obtain ⟨_, h2, h3, h4, h5, _⟩ := h
  have s1 := sumSizes_eq TxInput.size inputBytes tx.inputs (fun i hi => input_size i (h3 i hi).2.1 (hh i hi))
  have s2 := sumSizes_eq TxOutput.size outputBytes tx.outputs (fun o ho => output_size o (h5 o ho).2)
  simp only [Tx.size, Tx.size_io, varint_len_eq _ h2, varint_len_eq _ h4, s1, s2, ok_bind', pure_ok',
    txBytes, List.length_append, leInt_length, Except.ok.injEq]
  omega

theorem C45_input_size (i : TxInput) (h : InRangeInput i) (hh : i.prev_hash.length = 32) :
    ∃ b, i.to_bytes = .ok b ∧ i.size = .ok b.length :=
  ⟨inputBytes i, (input_to_bytes_iff i _).2 ⟨h, rfl⟩, input_size i h.2.1 hh⟩

theorem C45_output_size (o : TxOutput) (h : InRangeOutput o) :
    ∃ b, o.to_bytes = .ok b ∧ o.size = .ok b.length :=
  ⟨outputBytes o, (output_to_bytes_iff o _).2 ⟨h, rfl⟩, output_size o h.2⟩

/-- With C44: bytes whose length is the size of the transaction read from them are its
serialization. -/
theorem C44_size (raw : Bytes) (tx : Tx) (h : Tx.from_bytes raw = .ok tx) (hs : tx.size = .ok raw.length) :
    tx.to_bytes = .ok raw ∧ ∀ H : Hashes, tx.hash H = .ok (H.sha256 (H.sha256 raw)) := by
  simp only [Tx.from_bytes, bind_eq_ok, pure_ok', Except.ok.injEq] at h
  obtain ⟨⟨tx', rest⟩, h1, rfl⟩ := h
  obtain ⟨h2, h3⟩ := C43_read_in_range _ _ _ h1
  obtain ⟨b, c, h4, h5, h6, h7⟩ := C44_reserialize _ _ _ h1
  obtain ⟨b', h8, h9⟩ := C45_size tx' h2 h3.1
  rw [h4] at h8
  cases h8
  simp only at hs
  rw [h9] at hs
  simp only [Except.ok.injEq] at hs
  have hl : raw.length = c.length + rest.length := by rw [h5]; simp
  have hr : rest = [] := List.length_eq_zero_iff.1 (by omega)
  have hb : b = raw := by rw [h5, hr, List.append_nil]; exact h7 (by omega)
  subst hb
  exact ⟨h4, fun H => by simp only [Tx.hash, h4, ok_bind', pure_ok', Hashes.double_sha256]⟩

example : exampleTx.size = .ok 62 ∧ (do (← exampleTx.to_bytes).length |> pure) = Except.ok (ε := Err) 62 := by
  decide +kernel

/-! ## C48: finality -/

/-- `is_final_for_block` is the consensus rule. -/
theorem C48_final (tx : Tx) (height time : Int) : tx.is_final_for_block height time = true ↔ Final tx height time := by
  have hin : tx.are_inputs_final = true ↔ ∀ i ∈ tx.inputs, i.sequence = 2 ^ 32 - 1 := by
    simp only [Tx.are_inputs_final, List.all_eq_true, TxInput.is_final, decide_eq_true_eq]
    norm_num
  have ht : LOCKTIME_THRESHOLD = 500000000 := rfl
  by_cases h : tx.locktime < LOCKTIME_THRESHOLD
  · simp only [Tx.is_final_for_block, Bool.or_eq_true, decide_eq_true_eq, hin, Final, h, if_true]
    rw [ht] at h
    have : ¬ 500000000 ≤ tx.locktime := by omega
    simp only [h, this, true_and, false_and, false_or, or_assoc]
  · simp only [Tx.is_final_for_block, Bool.or_eq_true, decide_eq_true_eq, hin, Final, h, if_false]
    rw [ht] at h
    have : 500000000 ≤ tx.locktime := by omega
    simp only [h, this, true_and, false_and, false_or, or_assoc]

/-- Finality is not lost at greater heights and times. -/
theorem C48_monotone (tx : Tx) (h1 h2 t1 t2 : Int) (hh : h1 ≤ h2) (ht : t1 ≤ t2)
    (hf : tx.is_final_for_block h1 t1 = true) : tx.is_final_for_block h2 t2 = true := by
  rw [C48_final] at *
  unfold Final at *
  rcases hf with h | ⟨h, h'⟩ | ⟨h, h'⟩ | h
  · exact .inl h
  · exact .inr (.inl ⟨h, by omega⟩)
  · exact .inr (.inr (.inl ⟨h, by omega⟩))
  · exact .inr (.inr (.inr h))

example : exampleTx.is_final_for_block 400000 0 = false ∧ exampleTx.is_final_for_block 400001 0 = true := by
  decide

end Bitcoinx
