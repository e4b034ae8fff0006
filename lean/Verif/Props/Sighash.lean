import Verif.Lemmas.Tx
import Mathlib.Data.Nat.Bitwise

/-! # What a signature hash commits to (C46, C47) -/

namespace Bitcoinx
open Spec

theorem base_eq (t : Nat) : SigHash.base t = t % 32 := Nat.and_two_pow_sub_one_eq_mod t 5

theorem and_128 (t : Nat) : t &&& 128 = t / 128 % 2 * 128 := by
  have h := Nat.and_two_pow t 7
  rw [Nat.testBit_eq_decide_div_mod_eq] at h
  norm_num at h
  rw [h]
  rcases Nat.mod_two_eq_zero_or_one (t / 128) with h | h <;> simp [h]

theorem acp_eq (t : Nat) : SigHash.anyone_can_pay t = decide (AnyoneCanPay t) := by
  unfold SigHash.anyone_can_pay SigHash.ANYONE_CAN_PAY AnyoneCanPay
  rw [and_128]
  rcases Nat.mod_two_eq_zero_or_one (t / 128) with h | h <;> simp [h]

theorem nsn_eq (t : Nat) : Tx.sighash_not_single_none t = decide (¬ IsNone t ∧ ¬ IsSingle t) := by
  unfold Tx.sighash_not_single_none IsNone IsSingle SigHash.SINGLE SigHash.NONE
  rw [base_eq]
  by_cases h1 : t % 32 = 2 <;> by_cases h2 : t % 32 = 3 <;> simp [h1, h2]

theorem prevout_bytes_iff (i : TxInput) (b : Bytes) :
    i.prevout_bytes = .ok b ↔ Spec.UInt 4 i.prev_idx ∧ b = outpoint i := by
  simp only [TxInput.prevout_bytes, bind_eq_ok, pack_le_uint32, packU_iff, pure_ok', Except.ok.injEq, outpoint]
  constructor
  · rintro ⟨_, ⟨h1, rfl⟩, rfl⟩
    exact ⟨h1, rfl⟩
  · rintro ⟨h1, rfl⟩
    exact ⟨_, ⟨h1, rfl⟩, rfl⟩

theorem for_signature_iff (i : TxInput) (value : Int) (script b : Bytes) :
    i.to_bytes_for_signature value script = .ok b ↔ (Spec.UInt 4 i.prev_idx ∧ script.length < 2 ^ 64 ∧
      Spec.SInt 8 value ∧ Spec.UInt 4 i.sequence) ∧
      b = outpoint i ++ (varbytes script ++ (leInt 8 value ++ leInt 4 i.sequence)) := by
  simp only [TxInput.to_bytes_for_signature, bind_eq_ok, prevout_bytes_iff, pack_le_uint32, packU_iff,
    pack_le_int64, packS_iff, pack_varbytes_iff, pure_ok', Except.ok.injEq]
  constructor
  · rintro ⟨_, ⟨h1, rfl⟩, _, ⟨h2, rfl⟩, _, ⟨h3, rfl⟩, _, ⟨h4, rfl⟩, rfl⟩
    exact ⟨⟨h1, h2, h3, h4⟩, rfl⟩
  · rintro ⟨⟨h1, h2, h3, h4⟩, rfl⟩
    exact ⟨_, ⟨h1, rfl⟩, _, ⟨h2, rfl⟩, _, ⟨h3, rfl⟩, _, ⟨h4, rfl⟩, rfl⟩

theorem sighash_prevouts_iff (H : Hashes) (tx : Tx) (t : Nat) (b : Bytes) :
    Tx.sighash_prevouts H tx t = .ok b ↔ (¬ AnyoneCanPay t → ∀ j ∈ tx.inputs, Spec.UInt 4 j.prev_idx) ∧
      b = if AnyoneCanPay t then zeros 32 else H.double_sha256 (prevoutsPart tx) := by
  unfold Tx.sighash_prevouts
  rw [acp_eq]
  by_cases h : AnyoneCanPay t
  · simp [h, ZERO, eq_comm]
  · simp only [h, decide_false, Bool.not_false, if_true, not_false_eq_true, forall_const, if_false,
      Tx.hash_prevouts, bind_eq_ok, packAll_iff prevout_bytes_iff, pure_ok', Except.ok.injEq]
    constructor
    · rintro ⟨_, ⟨h1, rfl⟩, rfl⟩
      exact ⟨h1, by rw [prevoutsPart, List.flatMap]⟩
    · rintro ⟨h1, rfl⟩
      exact ⟨_, ⟨h1, rfl⟩, by rw [prevoutsPart, List.flatMap]⟩

theorem sighash_sequence_iff (H : Hashes) (tx : Tx) (t : Nat) (b : Bytes) :
    Tx.sighash_sequence H tx t = .ok b ↔ (¬ AnyoneCanPay t → ¬ IsNone t → ¬ IsSingle t →
        ∀ j ∈ tx.inputs, Spec.UInt 4 j.sequence) ∧
      b = if AnyoneCanPay t ∨ IsNone t ∨ IsSingle t then zeros 32 else H.double_sha256 (sequencePart tx) := by
  unfold Tx.sighash_sequence
  rw [acp_eq, nsn_eq]
  by_cases h : AnyoneCanPay t ∨ IsNone t ∨ IsSingle t
  · have h' : (!decide (AnyoneCanPay t) && decide (¬ IsNone t ∧ ¬ IsSingle t)) = false := by
      rcases h with h | h | h <;> simp [h]
    rw [h', if_pos h]
    simp only [Bool.false_eq_true, if_false, Except.ok.injEq, ZERO]
    constructor
    · rintro rfl
      refine ⟨fun a b c => ?_, rfl⟩
      rcases h with h | h | h
      · exact absurd h a
      · exact absurd h b
      · exact absurd h c
    · exact fun e => e.2.symm
  · rw [if_neg h]
    simp only [not_or] at h
    simp only [h.1, h.2.1, h.2.2, decide_false, Bool.not_false, not_false_eq_true, and_self, decide_true,
      Bool.and_self, if_true, forall_const, Tx.hash_sequence, bind_eq_ok, pack_le_uint32,
      packAll_iff (fun (i : TxInput) b => packU_iff 4 i.sequence b), pure_ok', Except.ok.injEq]
    constructor
    · rintro ⟨_, ⟨h1, rfl⟩, rfl⟩
      exact ⟨h1, by rw [sequencePart, List.flatMap]⟩
    · rintro ⟨h1, rfl⟩
      exact ⟨_, ⟨h1, rfl⟩, by rw [sequencePart, List.flatMap]⟩

theorem sighash_outputs_iff (H : Hashes) (tx : Tx) (i t : Nat) (b : Bytes) :
    Tx.sighash_outputs H tx i t = .ok b ↔
      ((¬ IsNone t → ¬ IsSingle t → ∀ o ∈ tx.outputs, InRangeOutput o) ∧
        (IsSingle t → ∀ o, tx.outputs[i]? = some o → InRangeOutput o)) ∧
      b = ((outputsPart tx i t).map H.double_sha256).getD (zeros 32) := by
  unfold Tx.sighash_outputs outputsPart
  rw [nsn_eq, base_eq]
  by_cases hs : IsSingle t
  · have hn : ¬ IsNone t := by unfold IsNone IsSingle at *; omega
    have hs' : t % 32 = SigHash.SINGLE := hs
    simp only [hs, hn, not_true, and_false, decide_false, Bool.false_eq_true, if_false, hs', if_true]
    cases ho : tx.outputs[i]? with
    | none => simp [ZERO, eq_comm]
    | some o =>
      simp only [bind_eq_ok, output_to_bytes_iff, pure_ok', Except.ok.injEq, Option.map_some, Option.getD_some]
      constructor
      · rintro ⟨_, ⟨h1, rfl⟩, rfl⟩
        exact ⟨⟨fun _ e => e.elim, fun _ o' e => by rw [← Option.some.inj e]; exact h1⟩, rfl⟩
      · rintro ⟨⟨_, h1⟩, rfl⟩
        exact ⟨_, ⟨h1 trivial o rfl, rfl⟩, rfl⟩
  · have hs' : ¬ t % 32 = SigHash.SINGLE := hs
    by_cases hn : IsNone t
    · simp [hs, hn, hs', ZERO, eq_comm]
    · simp only [hs, hn, not_false_eq_true, and_self, decide_true, if_true, forall_const, if_false,
        Tx.hash_outputs, bind_eq_ok, packAll_iff output_to_bytes_iff, pure_ok', Except.ok.injEq,
        Option.map_some, Option.getD_some, false_imp_iff, and_true]
      constructor
      · rintro ⟨_, ⟨h1, rfl⟩, rfl⟩
        exact ⟨h1, by rw [List.flatMap]⟩
      · rintro ⟨h1, rfl⟩
        exact ⟨_, ⟨h1, rfl⟩, by rw [List.flatMap]⟩

theorem sighash_preimage_iff (H : Hashes) (tx : Tx) (i : Nat) (txin : TxInput) (value : Int) (script : Bytes)
    (t : Nat) (b : Bytes) :
    Tx.sighash_preimage H tx i txin value script t = .ok b ↔
      SigRange tx i txin value script t ∧ b = preimage H.double_sha256 tx i txin value script t := by
  simp only [Tx.sighash_preimage, bind_eq_ok, sighash_prevouts_iff, sighash_sequence_iff, sighash_outputs_iff,
    pack_le_int32, packS_iff, pack_le_uint32, packU_iff, for_signature_iff, pure_ok', Except.ok.injEq]
  constructor
  · rintro ⟨_, ⟨h1, rfl⟩, _, ⟨h2, rfl⟩, _, ⟨⟨h3, h4⟩, rfl⟩, _, ⟨h5, rfl⟩, _, ⟨⟨h6, h7, h8, h9⟩, rfl⟩, _,
      ⟨h10, rfl⟩, _, ⟨h11, rfl⟩, rfl⟩
    exact ⟨⟨h5, h10, h11, h6, h9, h7, h8, h1, h2, h3, h4⟩, by simp only [preimage, List.append_assoc]⟩
  · rintro ⟨⟨h5, h10, h11, h6, h9, h7, h8, h1, h2, h3, h4⟩, rfl⟩
    exact ⟨_, ⟨h1, rfl⟩, _, ⟨h2, rfl⟩, _, ⟨⟨h3, h4⟩, rfl⟩, _, ⟨h5, rfl⟩, _, ⟨⟨h6, h7, h8, h9⟩, rfl⟩, _,
      ⟨h10, rfl⟩, _, ⟨h11, rfl⟩, by simp only [preimage, List.append_assoc]⟩

/-- The signature hash is the double SHA-256 of the preimage of the specification; it exists exactly
for valid indices, values that are not negative, and fields in range. -/
theorem C46_preimage (H : Hashes) (tx : Tx) (idx value : Int) (script : Bytes) (t : Nat) (r : Bytes) :
    tx.signature_hash H idx value script (some t) = .ok r ↔ 0 ≤ idx ∧ 0 ≤ value ∧
      ∃ txin, tx.inputs[idx.toNat]? = some txin ∧ SigRange tx idx.toNat txin value script t ∧
        r = (twice H.sha256) (preimage (twice H.sha256) tx idx.toNat txin value script t) := by
  unfold Tx.signature_hash
  by_cases hi : 0 ≤ idx ∧ idx < tx.inputs.length
  · rw [if_neg (not_not.2 hi)]
    by_cases hv : value < 0
    · rw [if_pos hv]
      exact ⟨fun e => (by cases e), fun e => absurd e.2.1 (by omega)⟩
    · rw [if_neg hv]
      have hl : idx.toNat < tx.inputs.length := by omega
      rw [List.getElem?_eq_getElem hl]
      simp only [Option.getD_some, bind_eq_ok, sighash_preimage_iff, pure_ok', Except.ok.injEq,
        Option.some.injEq, exists_eq_left']
      constructor
      · rintro ⟨_, ⟨h1, rfl⟩, rfl⟩
        exact ⟨hi.1, by omega, h1, rfl⟩
      · rintro ⟨_, _, h1, rfl⟩
        exact ⟨_, ⟨h1, rfl⟩, rfl⟩
  · rw [if_pos hi]
    refine ⟨fun e => (by cases e), ?_⟩
    rintro ⟨h1, _, txin, h2, _⟩
    obtain ⟨h3, _⟩ := List.getElem?_eq_some_iff.1 h2
    omega

/-- Without a sighash type the type is ALL|FORKID. -/
theorem C46_default (H : Hashes) (tx : Tx) (idx value : Int) (script : Bytes) :
    tx.signature_hash H idx value script none = tx.signature_hash H idx value script (some 0x41) := rfl

/-! ## Separating the preimage into its parts -/

theorem flatMap_inj {α β : Type} (f : α → Bytes) (key : α → β) (l1 l2 : List α)
    (hne : ∀ a, f a ≠ [])
    (hinj : ∀ a ∈ l1, ∀ b ∈ l2, ∀ x y, f a ++ x = f b ++ y → key a = key b ∧ x = y)
    (h : l1.flatMap f = l2.flatMap f) : l1.map key = l2.map key := by
  induction l1 generalizing l2 with
  | nil =>
    cases l2 with
    | nil => rfl
    | cons b l2 =>
      rw [List.flatMap_nil, List.flatMap_cons, eq_comm, List.append_eq_nil_iff] at h
      exact absurd h.1 (hne b)
  | cons a l1 ih =>
    cases l2 with
    | nil =>
      rw [List.flatMap_nil, List.flatMap_cons, List.append_eq_nil_iff] at h
      exact absurd h.1 (hne a)
    | cons b l2 =>
      rw [List.flatMap_cons, List.flatMap_cons] at h
      obtain ⟨h1, h2⟩ := hinj a (by simp) b (by simp) _ _ h
      rw [List.map_cons, List.map_cons, h1,
        ih l2 (fun a ha b hb => hinj a (by simp [ha]) b (by simp [hb])) h2]

theorem leInt_ne_nil (w : Nat) (v : Int) : leInt (w + 1) v ≠ [] := by
  intro h
  have := congrArg List.length h
  simp at this

theorem outpoint_inj {i j : TxInput} (hi : i.prev_hash.length = 32) (hj : j.prev_hash.length = 32)
    (ui : Spec.UInt 4 i.prev_idx) (uj : Spec.UInt 4 j.prev_idx) {x y : Bytes}
    (h : outpoint i ++ x = outpoint j ++ y) :
    (i.prev_hash, i.prev_idx) = (j.prev_hash, j.prev_idx) ∧ x = y := by
  simp only [outpoint, List.append_assoc] at h
  obtain ⟨h1, h2⟩ := List.append_inj h (by rw [hi, hj])
  obtain ⟨h3, h4⟩ := List.append_inj h2 (by simp)
  exact ⟨by rw [h1, UInt.inj ui uj h3], h4⟩

theorem outputBytes_inj {o p : TxOutput} (ho : InRangeOutput o) (hp : InRangeOutput p) {x y : Bytes}
    (h : outputBytes o ++ x = outputBytes p ++ y) : o = p ∧ x = y := by
  simp only [outputBytes, List.append_assoc] at h
  obtain ⟨h1, h2⟩ := List.append_inj h (by simp)
  obtain ⟨h3, h4⟩ := varbytes_inj ho.2 hp.2 h2
  refine ⟨?_, h4⟩
  have h5 := SInt.inj ho.1 hp.1 h1
  cases o; cases p
  simp only at h5 h3
  rw [h3, h5]

/-- Two equal signature hashes, with no hash collision among the strings hashed for them, have the
same sighash type, value and script, and agree on all the parts to which that type commits. -/
theorem C46_commits (H : Hashes) (tx1 tx2 : Tx) (i1 i2 v1 v2 : Int) (s1 s2 : Bytes) (t1 t2 : Nat) (r : Bytes)
    (hs1 : HashSized tx1) (hs2 : HashSized tx2)
    (h1 : tx1.signature_hash H i1 v1 s1 (some t1) = .ok r)
    (h2 : tx2.signature_hash H i2 v2 s2 (some t2) = .ok r)
    (hc : NoCollision (twice H.sha256) (hashed (twice H.sha256) tx1 i1.toNat v1 s1 t1 ++
      hashed (twice H.sha256) tx2 i2.toNat v2 s2 t2)) :
    t1 = t2 ∧ v1 = v2 ∧ s1 = s2 ∧ SigAgree t1 tx1 i1.toNat tx2 i2.toNat := by
  rw [C46_preimage] at h1 h2
  obtain ⟨_, _, a, ha, ra, rfl⟩ := h1
  obtain ⟨_, _, b, hb, rb, hr⟩ := h2
  obtain ⟨hc1, hc2⟩ := hc
  set hash := (twice H.sha256) with hash_def
  have hlen : ∀ x, (hash x).length = 32 := fun x => H.sha256_length _
  have am : a ∈ tx1.inputs := List.mem_of_getElem? ha
  have bm : b ∈ tx2.inputs := List.mem_of_getElem? hb
  have hp := hc1 (preimage hash tx1 i1.toNat a v1 s1 t1) (by simp [hashed, ha])
    (preimage hash tx2 i2.toNat b v2 s2 t2) (by simp [hashed, hb]) hr
  have lP : ∀ tx t, (if AnyoneCanPay t then zeros 32 else hash (prevoutsPart tx)).length = 32 := by
    intro tx t; split <;> simp [hlen, zeros]
  have lS : ∀ tx t, (if AnyoneCanPay t ∨ IsNone t ∨ IsSingle t then zeros 32
      else hash (sequencePart tx)).length = 32 := by
    intro tx t; split <;> simp [hlen, zeros]
  have lO : ∀ tx i t, (((outputsPart tx i t).map hash).getD (zeros 32)).length = 32 := by
    intro tx i t; cases outputsPart tx i t <;> simp [hlen, zeros]
  simp only [preimage, List.append_assoc] at hp
  obtain ⟨e1, hp⟩ := List.append_inj hp (by simp)
  obtain ⟨e2, hp⟩ := List.append_inj hp (by rw [lP, lP])
  obtain ⟨e3, hp⟩ := List.append_inj hp (by rw [lS, lS])
  obtain ⟨e4, hp⟩ := outpoint_inj (hs1 a am) (hs2 b bm) ra.prev_idx rb.prev_idx hp
  obtain ⟨e5, hp⟩ := varbytes_inj ra.script rb.script hp
  obtain ⟨e6, hp⟩ := List.append_inj hp (by simp)
  obtain ⟨e7, hp⟩ := List.append_inj hp (by simp)
  obtain ⟨e8, hp⟩ := List.append_inj hp (by rw [lO, lO])
  obtain ⟨e9, e10⟩ := List.append_inj hp (by simp)
  have ht : t1 = t2 := by exact_mod_cast UInt.inj ra.type rb.type e10
  subst ht
  refine ⟨rfl, SInt.inj ra.value rb.value e6, e5, ⟨SInt.inj ra.version rb.version e1,
    UInt.inj ra.locktime rb.locktime e9, ?_, ?_, ?_, ?_, ?_⟩⟩
  · rw [ha, hb]
    simp only [Prod.mk.injEq] at e4
    simp only [Option.map_some, e4.1, e4.2, UInt.inj ra.sequence rb.sequence e7]
  · intro hacp
    rw [if_neg hacp, if_neg hacp] at e2
    have := hc1 (prevoutsPart tx1) (by simp [hashed, hacp]) (prevoutsPart tx2) (by simp [hashed, hacp]) e2
    refine flatMap_inj outpoint _ _ _ (fun i e => ?_) (fun x hx y hy p q hpq => ?_) this
    · exact leInt_ne_nil 3 _ (List.append_eq_nil_iff.1 e).2
    · exact outpoint_inj (hs1 x hx) (hs2 y hy) (ra.outpoints hacp x hx) (rb.outpoints hacp y hy) hpq
  · intro hacp hn hsg
    have hno : ¬ (AnyoneCanPay t1 ∨ IsNone t1 ∨ IsSingle t1) := by simp [hacp, hn, hsg]
    rw [if_neg hno, if_neg hno] at e3
    have := hc1 (sequencePart tx1) (by simp [hashed, hno]) (sequencePart tx2) (by simp [hashed, hno]) e3
    refine flatMap_inj _ _ _ _ (fun i e => leInt_ne_nil 3 _ e) (fun x hx y hy p q hpq => ?_) this
    obtain ⟨k1, k2⟩ := List.append_inj hpq (by simp)
    exact ⟨UInt.inj (ra.sequences hacp hn hsg x hx) (rb.sequences hacp hn hsg y hy) k1, k2⟩
  · intro hn hsg
    have o1 : ∀ tx i, outputsPart tx i t1 = some (tx.outputs.flatMap outputBytes) := by
      intro tx i; simp [outputsPart, hn, hsg]
    rw [o1, o1] at e8
    have := hc1 (tx1.outputs.flatMap outputBytes) (by simp [hashed, o1]) (tx2.outputs.flatMap outputBytes)
      (by simp [hashed, o1]) e8
    have := flatMap_inj outputBytes id _ _ (fun i e => ?_) (fun x hx y hy p q hpq =>
      outputBytes_inj (ra.outputs hn hsg x hx) (rb.outputs hn hsg y hy) hpq) this
    · simpa using this
    · exact leInt_ne_nil 7 _ (List.append_eq_nil_iff.1 e).1
  · intro hsg
    have hn : ¬ IsNone t1 := by unfold IsNone IsSingle at *; omega
    have o1 : ∀ tx i, outputsPart tx i t1 = tx.outputs[i]?.map outputBytes := by
      intro tx i; simp [outputsPart, hn, hsg]
    rw [o1, o1] at e8
    cases h1 : tx1.outputs[i1.toNat]? with
    | none =>
      cases h2 : tx2.outputs[i2.toNat]? with
      | none => rfl
      | some p =>
        rw [h1, h2] at e8
        exact absurd e8.symm (hc2 (outputBytes p) (by simp [hashed, o1, h2]))
    | some o =>
      cases h2 : tx2.outputs[i2.toNat]? with
      | none =>
        rw [h1, h2] at e8
        exact absurd e8 (hc2 (outputBytes o) (by simp [hashed, o1, h1]))
      | some p =>
        rw [h1, h2] at e8
        have := hc1 (outputBytes o) (by simp [hashed, o1, h1]) (outputBytes p) (by simp [hashed, o1, h2]) e8
        have := outputBytes_inj (x := []) (y := []) (ra.single hsg o h1) (rb.single hsg p h2) (by rw [this])
        rw [this.1]

/-! ## C47: what is left open -/

theorem getElem?_map_eq {α β : Type} {f : α → β} {l1 l2 : List α} {i j : Nat}
    (h : l1[i]?.map f = l2[j]?.map f) {a : α} (ha : l1[i]? = some a) : ∃ b, l2[j]? = some b ∧ f a = f b := by
  rw [ha] at h
  cases hb : l2[j]? with
  | none => rw [hb] at h; cases h
  | some b => rw [hb] at h; exact ⟨b, rfl, Option.some.inj h⟩

/-- Two transactions that agree on what a type commits to have the same preimages and ranges. -/
theorem agree_preimage (hash : Bytes → Bytes) {tx1 tx2 : Tx} {i1 i2 : Nat} {value : Int} {script : Bytes} {t : Nat}
    (h : SigAgree t tx1 i1 tx2 i2) {a b : TxInput} (ha : tx1.inputs[i1]? = some a) (hb : tx2.inputs[i2]? = some b) :
    (SigRange tx1 i1 a value script t → SigRange tx2 i2 b value script t) ∧
    preimage hash tx1 i1 a value script t = preimage hash tx2 i2 b value script t := by
  obtain ⟨b', hb', hab⟩ := getElem?_map_eq h.spent ha
  rw [hb] at hb'
  cases hb'
  simp only [Prod.mk.injEq] at hab
  obtain ⟨e1, e2, e3⟩ := hab
  have mem_of : ∀ {β : Type} (f : TxInput → β), tx1.inputs.map f = tx2.inputs.map f →
      ∀ j ∈ tx2.inputs, ∃ k ∈ tx1.inputs, f k = f j := by
    intro β f e j hj
    have : f j ∈ tx1.inputs.map f := by rw [e]; exact List.mem_map_of_mem hj
    exact List.mem_map.1 this
  constructor
  · intro r
    refine ⟨h.version ▸ r.version, h.locktime ▸ r.locktime, r.type, e2 ▸ r.prev_idx, e3 ▸ r.sequence, r.script,
      r.value, fun hacp j hj => ?_, fun hacp hn hsg j hj => ?_, fun hn hsg o ho => ?_, fun hsg o ho => ?_⟩
    · obtain ⟨k, hk, e⟩ := mem_of _ (h.outpoints hacp) j hj
      simp only [Prod.mk.injEq] at e
      exact e.2 ▸ r.outpoints hacp k hk
    · obtain ⟨k, hk, e⟩ := mem_of _ (h.sequences hacp hn hsg) j hj
      exact e ▸ r.sequences hacp hn hsg k hk
    · exact r.outputs hn hsg o (h.outputs hn hsg ▸ ho)
    · exact r.single hsg o ((h.single hsg).trans ho)
  · have p1 : (if AnyoneCanPay t then zeros 32 else hash (prevoutsPart tx1)) =
        if AnyoneCanPay t then zeros 32 else hash (prevoutsPart tx2) := by
      by_cases hacp : AnyoneCanPay t
      · rw [if_pos hacp, if_pos hacp]
      · rw [if_neg hacp, if_neg hacp]
        have key : ∀ l : List TxInput, l.flatMap outpoint =
            (l.map (fun i => (i.prev_hash, i.prev_idx))).flatMap (fun p => p.1 ++ leInt 4 p.2) := by
          intro l; rw [List.flatMap_map]; rfl
        rw [prevoutsPart, prevoutsPart, key, key, h.outpoints hacp]
    have p2 : (if AnyoneCanPay t ∨ IsNone t ∨ IsSingle t then zeros 32 else hash (sequencePart tx1)) =
        if AnyoneCanPay t ∨ IsNone t ∨ IsSingle t then zeros 32 else hash (sequencePart tx2) := by
      by_cases hno : AnyoneCanPay t ∨ IsNone t ∨ IsSingle t
      · rw [if_pos hno, if_pos hno]
      · rw [if_neg hno, if_neg hno]
        simp only [not_or] at hno
        have key : ∀ l : List TxInput, l.flatMap (fun i => leInt 4 i.sequence) =
            (l.map (·.sequence)).flatMap (leInt 4) := by
          intro l; rw [List.flatMap_map]
        rw [sequencePart, sequencePart, key, key, h.sequences hno.1 hno.2.1 hno.2.2]
    have p3 : outputsPart tx1 i1 t = outputsPart tx2 i2 t := by
      unfold outputsPart
      by_cases hn : IsNone t
      · rw [if_pos hn, if_pos hn]
      · rw [if_neg hn, if_neg hn]
        by_cases hsg : IsSingle t
        · rw [if_pos hsg, if_pos hsg, h.single hsg]
        · rw [if_neg hsg, if_neg hsg, h.outputs hn hsg]
    simp only [preimage, p1, p2, p3, h.version, h.locktime, outpoint, e1, e2, e3]

/-- The signature hash depends on nothing but the value, the script, the type, and the parts to which
the type commits. -/
theorem C47_depends_only (H : Hashes) (tx1 tx2 : Tx) (i1 i2 value : Int) (script : Bytes) (t : Nat) (r : Bytes)
    (h1 : 0 ≤ i2) (h : SigAgree t tx1 i1.toNat tx2 i2.toNat)
    (hr : tx1.signature_hash H i1 value script (some t) = .ok r) :
    tx2.signature_hash H i2 value script (some t) = .ok r := by
  rw [C46_preimage] at *
  obtain ⟨_, h3, a, ha, ra, rfl⟩ := hr
  obtain ⟨b, hb, _⟩ := getElem?_map_eq h.spent ha
  obtain ⟨g1, g2⟩ := agree_preimage (twice H.sha256) (value := value) (script := script) h ha hb
  exact ⟨h1, h3, b, hb, g1 ra, by rw [g2]⟩

/-- With ANYONE_CAN_PAY: all other inputs can be replaced, removed or added. -/
theorem C47_anyone_can_pay (H : Hashes) (tx : Tx) (pre post pre' post' : List TxInput) (a : TxInput)
    (value : Int) (script : Bytes) (t : Nat) (r : Bytes) (ht : AnyoneCanPay t)
    (hs : IsSingle t → pre.length = pre'.length)
    (hr : ({ tx with inputs := pre ++ a :: post } : Tx).signature_hash H pre.length value script (some t) = .ok r) :
    ({ tx with inputs := pre' ++ a :: post' } : Tx).signature_hash H pre'.length value script (some t) = .ok r :=
  C47_depends_only H { tx with inputs := pre ++ a :: post } _ pre.length _ value script t r (by omega)
    ⟨rfl, rfl, by simp, fun h => absurd ht h, fun h => absurd ht h, fun _ _ => rfl,
      fun h => by simp [hs h]⟩ hr

/-- With NONE: the outputs can be replaced. -/
theorem C47_none (H : Hashes) (tx : Tx) (outs : List TxOutput) (i value : Int) (script : Bytes) (t : Nat)
    (r : Bytes) (ht : IsNone t) (hr : tx.signature_hash H i value script (some t) = .ok r) :
    ({ tx with outputs := outs } : Tx).signature_hash H i value script (some t) = .ok r :=
  C47_depends_only H tx _ i i value script t r ((C46_preimage ..).1 hr).1
    ⟨rfl, rfl, rfl, fun _ => rfl, fun _ _ _ => rfl, fun h => absurd ht h,
      fun h => by unfold IsNone IsSingle at *; omega⟩ hr

/-- With SINGLE: all the outputs but that at the input's index can be replaced. -/
theorem C47_single (H : Hashes) (tx : Tx) (outs : List TxOutput) (i value : Int) (script : Bytes) (t : Nat)
    (r : Bytes) (ht : IsSingle t) (ho : outs[i.toNat]? = tx.outputs[i.toNat]?)
    (hr : tx.signature_hash H i value script (some t) = .ok r) :
    ({ tx with outputs := outs } : Tx).signature_hash H i value script (some t) = .ok r :=
  C47_depends_only H tx _ i i value script t r ((C46_preimage ..).1 hr).1
    ⟨rfl, rfl, rfl, fun _ => rfl, fun _ _ _ => rfl, fun _ h => absurd ht h, fun _ => ho.symm⟩ hr

/-- The inputs' scripts never matter, and with NONE and SINGLE the sequences of the other inputs do
not. -/
theorem C47_inputs (H : Hashes) (tx : Tx) (f : Nat → TxInput → TxInput) (i value : Int) (script : Bytes) (t : Nat)
    (r : Bytes)
    (hf : ∀ n x, (f n x).prev_hash = x.prev_hash ∧ (f n x).prev_idx = x.prev_idx ∧
      ((f n x).sequence = x.sequence ∨ ((IsNone t ∨ IsSingle t) ∧ n ≠ i.toNat)))
    (hr : tx.signature_hash H i value script (some t) = .ok r) :
    ({ tx with inputs := tx.inputs.mapIdx f } : Tx).signature_hash H i value script (some t) = .ok r := by
  refine C47_depends_only H tx _ i i value script t r ((C46_preimage ..).1 hr).1
    ⟨rfl, rfl, ?_, fun _ => ?_, fun _ hn hs => ?_, fun _ _ => rfl, fun _ => rfl⟩ hr
  · simp only [List.getElem?_mapIdx, Option.map_map]
    congr 1
    funext x
    have h1 := hf i.toNat x
    simp only [Function.comp, h1.1, h1.2.1, Prod.mk.injEq, true_and]
    rcases h1.2.2 with h | h
    · exact h.symm
    · exact absurd rfl h.2
  · apply List.ext_getElem?
    intro n
    simp only [List.getElem?_map, List.getElem?_mapIdx, Option.map_map]
    congr 1
    funext x
    simp only [Function.comp, (hf n x).1, (hf n x).2.1]
  · apply List.ext_getElem?
    intro n
    simp only [List.getElem?_map, List.getElem?_mapIdx, Option.map_map]
    congr 1
    funext x
    simp only [Function.comp]
    rcases (hf n x).2.2 with h | h
    · exact h.symm
    · rcases h.1 with h | h
      · exact absurd h hn
      · exact absurd h hs

/-! ## A concrete case -/

/-- Two inputs and two outputs. -/
def sigTx (s0 s1 : Int) (script : Bytes) (v0 v1 : Int) : Tx where
  version := 2
  inputs := [{ prev_hash := List.replicate 32 7, prev_idx := 3, script_sig := script, sequence := s0 },
    { prev_hash := List.replicate 32 9, prev_idx := 0, script_sig := script, sequence := s1 }]
  outputs := [{ value := v0, script_pubkey := [0x6a] }, { value := v1, script_pubkey := [] }]
  locktime := 400000

/-- SINGLE: the script, the other sequence and the other output do not matter, and there are no
collisions, so that C46 and C47 apply. -/
example : ∃ r, (sigTx 1 2 [] 5 6).signature_hash toyHashes 1 1000 [0x51] (some 0x43) = .ok r ∧
    (sigTx 3 2 [0x52] 8 6).signature_hash toyHashes 1 1000 [0x51] (some 0x43) = .ok r ∧
    HashSized (sigTx 1 2 [] 5 6) ∧ HashSized (sigTx 3 2 [0x52] 8 6) ∧
    NoCollision (twice toyHashes.sha256)
      (hashed (twice toyHashes.sha256) (sigTx 1 2 [] 5 6) 1 1000 [0x51] 0x43 ++
        hashed (twice toyHashes.sha256) (sigTx 3 2 [0x52] 8 6) 1 1000 [0x51] 0x43) := by
  obtain ⟨r, hr⟩ : ∃ r, (sigTx 1 2 [] 5 6).signature_hash toyHashes 1 1000 [0x51] (some 0x43) = .ok r :=
    ⟨_, by rfl⟩
  refine ⟨r, hr, ?_, by simp [HashSized, sigTx], by simp [HashSized, sigTx], ?_, ?_⟩
  · rw [← hr]; decide +kernel
  · decide +kernel
  · decide +kernel

end Bitcoinx
