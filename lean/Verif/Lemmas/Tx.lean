import Verif.Spec.Tx
import Verif.Props.Packing
import Verif.Lemmas.Script

/-! # Lemmas about transactions -/

namespace Bitcoinx
open Spec

/-! ## Integers -/

theorem leInt_succ (w : Nat) (v : Int) :
    leInt (w + 1) v = UInt8.ofNat (v % 256).toNat :: leInt w (v / 256) := by
  unfold leInt
  rw [List.range_succ_eq_map, List.map_cons, List.map_map]
  congr 1
  · simp
  · apply List.map_congr_left
    intro i _
    simp only [Function.comp, Nat.succ_eq_add_one, pow_succ']
    rw [Int.ediv_ediv_of_nonneg (by omega)]

@[simp] theorem leInt_length (w : Nat) (v : Int) : (leInt w v).length = w := by simp [leInt]

theorem leBytes_eq_leInt (w : Nat) (n : Nat) : leBytes w n = leInt w n := by
  induction w generalizing n with
  | zero => rfl
  | succ w ih =>
    rw [leBytes, leInt_succ, ih]
    rfl

theorem leInt_mod (w : Nat) (v : Int) : leInt w v = leInt w (v % 256 ^ w) := by
  induction w generalizing v with
  | zero => rfl
  | succ w ih =>
    rw [leInt_succ, leInt_succ, ih (v / 256), ih (v % 256 ^ (w + 1) / 256)]
    have hp : (0 : Int) < 256 ^ w := by positivity
    have e1 : v % 256 ^ (w + 1) = v - 256 * (256 ^ w * (v / 256 ^ (w + 1))) := by
      rw [Int.emod_def, pow_succ]; ring
    have e2 : v % 256 ^ (w + 1) % 256 = v % 256 := by
      rw [e1]; omega
    have e3 : v % 256 ^ (w + 1) / 256 = v / 256 - 256 ^ w * (v / 256 ^ (w + 1)) := by
      rw [e1]; omega
    have e4 : (v / 256 - 256 ^ w * (v / 256 ^ (w + 1))) % 256 ^ w = v / 256 % 256 ^ w := by
      rw [Int.sub_eq_add_neg, ← Int.mul_neg, Int.add_mul_emod_self_left]
    rw [e2, e3, e4]

theorem leInt_eq_leBytes (w : Nat) (v : Int) : leInt w v = leBytes w (v % 256 ^ w).toNat := by
  have hp : (0 : Int) < 256 ^ w := by positivity
  have := Int.emod_nonneg v hp.ne'
  rw [leBytes_eq_leInt, leInt_mod, Int.toNat_of_nonneg this]

theorem leInt_inj_mod {w : Nat} {a b : Int} (h : leInt w a = leInt w b) : a % 256 ^ w = b % 256 ^ w := by
  have hp : (0 : Int) < 256 ^ w := by positivity
  have h1 : ∀ v : Int, (v % 256 ^ w).toNat < 256 ^ w := by
    intro v
    have := Int.emod_lt_of_pos v hp
    have := Int.emod_nonneg v hp.ne'
    have e : ((256 ^ w : Nat) : Int) = 256 ^ w := by simp
    omega
  rw [leInt_eq_leBytes, leInt_eq_leBytes] at h
  have := congrArg leValue h
  rw [leValue_leBytes _ _ (h1 a), leValue_leBytes _ _ (h1 b)] at this
  have := Int.emod_nonneg a hp.ne'
  have := Int.emod_nonneg b hp.ne'
  omega

theorem UInt.inj {w : Nat} {a b : Int} (ha : Spec.UInt w a) (hb : Spec.UInt w b) (h : leInt w a = leInt w b) :
    a = b := by
  have := leInt_inj_mod h
  rwa [Int.emod_eq_of_lt ha.1 ha.2, Int.emod_eq_of_lt hb.1 hb.2] at this

theorem SInt.inj {w : Nat} {a b : Int} (ha : Spec.SInt w a) (hb : Spec.SInt w b) (h : leInt w a = leInt w b) :
    a = b := by
  have h1 := leInt_inj_mod h
  have hp : (0 : Int) < 256 ^ w := by positivity
  have h2 := Int.emod_emod_of_dvd
  obtain ⟨ha1, ha2⟩ := ha
  obtain ⟨hb1, hb2⟩ := hb
  generalize (256 : Int) ^ w = P at *
  have h3 : (a - b) % P = 0 := Int.emod_eq_emod_iff_emod_sub_eq_zero.1 h1
  obtain ⟨k, hk⟩ := Int.dvd_of_emod_eq_zero h3
  have : k = 0 := by
    by_contra hk0
    rcases Int.lt_or_gt_of_ne hk0 with h | h
    · have : P * k ≤ P * (-1) := Int.mul_le_mul_of_nonneg_left (by omega) (by omega)
      omega
    · have : P * 1 ≤ P * k := Int.mul_le_mul_of_nonneg_left (by omega) (by omega)
      omega
  subst this
  omega

theorem packU_iff (w : Nat) (v : Int) (b : Bytes) : packU w v = .ok b ↔ Spec.UInt w v ∧ b = leInt w v := by
  unfold packU Spec.UInt
  split
  · next h =>
    rw [leBytes_eq_leInt, Int.toNat_of_nonneg h.1]
    simp [h, eq_comm]
  · next h => simp [h]

theorem packS_iff (w : Nat) (v : Int) (b : Bytes) : packS w v = .ok b ↔ Spec.SInt w v ∧ b = leInt w v := by
  unfold packS Spec.SInt
  split
  · next h =>
    rw [leInt_eq_leBytes]
    simp [h, eq_comm]
  · next h => simp [h]

theorem packU_err (w : Nat) (v : Int) (h : ¬ Spec.UInt w v) : packU w v = .error .structError := by
  unfold packU; exact if_neg h

theorem packS_err (w : Nat) (v : Int) (h : ¬ Spec.SInt w v) : packS w v = .error .structError := by
  unfold packS; exact if_neg h

theorem pack_varint_eq (n : Nat) (h : n < 2 ^ 64) : pack_varint (n : Int) = .ok (varint n) := by
  have hw : ∀ w : Nat, n < 256 ^ w → packU w (n : Int) = .ok (leInt w n) := by
    intro w hw
    rw [packU_iff]
    exact ⟨⟨by omega, by exact_mod_cast hw⟩, rfl⟩
  unfold pack_varint varint
  by_cases h1 : n < 253
  · rw [if_pos (by omega), if_pos h1]
    exact hw 1 (by omega)
  · rw [if_neg (by omega), if_neg h1]
    by_cases h2 : n < 2 ^ 16
    · rw [if_pos (by omega), if_pos h2, pack_le_uint16, hw 2 (by omega)]
      rfl
    · rw [if_neg (by omega), if_neg h2]
      by_cases h3 : n < 2 ^ 32
      · rw [if_pos (by omega), if_pos h3, pack_le_uint32, hw 4 (by omega)]
        rfl
      · rw [if_neg (by omega), if_neg h3, pack_le_uint64, hw 8 (by omega)]
        rfl

theorem pack_varbytes_eq (d : Bytes) (h : d.length < 2 ^ 64) : pack_varbytes d = .ok (varbytes d) := by
  simp only [pack_varbytes, pack_varint_eq _ h, ok_bind', pure_ok', varbytes]

theorem pack_varbytes_err (d : Bytes) (h : ¬ d.length < 2 ^ 64) : pack_varbytes d = .error .structError := by
  have := (pack_varint_err (d.length : Int) (by omega)).1
  simp only [pack_varbytes, this, error_bind']

theorem pack_varbytes_iff (d b : Bytes) : pack_varbytes d = .ok b ↔ d.length < 2 ^ 64 ∧ b = varbytes d := by
  by_cases h : d.length < 2 ^ 64
  · rw [pack_varbytes_eq d h]; exact ⟨fun e => ⟨h, (Except.ok.inj e).symm⟩, fun e => by rw [e.2]⟩
  · rw [pack_varbytes_err d h]; exact ⟨fun e => (by cases e), fun e => absurd e.1 h⟩

/-- Data with its length can be separated from what follows. -/
theorem varbytes_inj {a b x y : Bytes} (ha : a.length < 2 ^ 64) (hb : b.length < 2 ^ 64)
    (h : varbytes a ++ x = varbytes b ++ y) : a = b ∧ x = y := by
  have key : ∀ d r : Bytes, d.length < 2 ^ 64 → read_varint (varbytes d ++ r) = .ok ((d.length : Int), d ++ r) := by
    intro d r hd
    obtain ⟨b, h1, _, h3, _⟩ := pack_varint_ok d.length hd
    rw [pack_varint_eq _ hd] at h1
    rw [varbytes, Except.ok.inj h1, List.append_assoc]
    exact h3 _
  have h1 := key a x ha
  rw [h, key b y hb] at h1
  simp only [Except.ok.injEq, Prod.mk.injEq, Nat.cast_inj] at h1
  obtain ⟨h2, h3⟩ := List.append_inj h1.2 h1.1
  exact ⟨h2.symm, h3.symm⟩

/-! ## Packing and reading back -/

/-- `pack` succeeds with `b`, and `read` recovers the value in front of anything. -/
def Inverts {α : Type} (pack : α → Res Bytes) (read : Reader α) (x : α) (b : Bytes) : Prop :=
  pack x = .ok b ∧ ∀ rest, read (b ++ rest) = .ok (x, rest)

theorem inverts_of_codec {pack : Int → Res Bytes} {unpack : Bytes → Res Int} {lo hi : Int} {w : Nat}
    {dn : Bytes → Nat} (hc : ExactCodec pack unpack lo hi w dn) {v : Int} (h1 : lo ≤ v) (h2 : v ≤ hi) :
    ∃ b, Inverts pack (readFixed w unpack) v b := by
  obtain ⟨b, h3, h4, h5⟩ := hc.pack_ok v h1 h2
  exact ⟨b, h3, fun rest => readFixed_append w unpack b rest v h4 h5⟩

theorem inverts_uint32 {v : Int} (h : Spec.UInt 4 v) : Inverts pack_le_uint32 read_le_uint32 v (leInt 4 v) := by
  obtain ⟨b, h1, h2⟩ := inverts_of_codec C02_struct_codecs.2.2.2.1 (v := v) h.1 (by
    have := h.2; norm_num at this ⊢; omega)
  have := ((packU_iff 4 v b).1 h1).2
  subst this
  exact ⟨h1, h2⟩

theorem inverts_int32 {v : Int} (h : Spec.SInt 4 v) : Inverts pack_le_int32 read_le_int32 v (leInt 4 v) := by
  obtain ⟨b, h1, h2⟩ := inverts_of_codec C02_struct_codecs.1 (v := v) (by
    have := h.1; norm_num at this ⊢; omega) (by have := h.2; norm_num at this ⊢; omega)
  have := ((packS_iff 4 v b).1 h1).2
  subst this
  exact ⟨h1, h2⟩

theorem inverts_int64 {v : Int} (h : Spec.SInt 8 v) : Inverts pack_le_int64 read_le_int64 v (leInt 8 v) := by
  obtain ⟨b, h1, h2⟩ := inverts_of_codec C02_struct_codecs.2.1 (v := v) (by
    have := h.1; norm_num at this ⊢; omega) (by have := h.2; norm_num at this ⊢; omega)
  have := ((packS_iff 8 v b).1 h1).2
  subst this
  exact ⟨h1, h2⟩

theorem inverts_varbytes {d : Bytes} (h : d.length < 2 ^ 63) :
    Inverts pack_varbytes read_varbytes d (varbytes d) := by
  have h' : d.length < 2 ^ 64 := by omega
  obtain ⟨b, h1, _, h3⟩ := pack_varbytes_ok d h'
  rw [pack_varbytes_eq d h'] at h1
  refine ⟨pack_varbytes_eq d h', ?_⟩
  rw [Except.ok.inj h1]
  exact h3 h

theorem inverts_list {α : Type} {pack : α → Res Bytes} {read : Reader α} {bytes : α → Bytes} {xs : List α}
    (hl : xs.length < 2 ^ 64) (h : ∀ x ∈ xs, Inverts pack read x (bytes x)) :
    Inverts (fun l => pack_list l pack) (read_list read) xs (varint xs.length ++ xs.flatMap bytes) := by
  have hp : packAll pack xs = .ok (xs.map bytes) := by
    clear hl
    induction xs with
    | nil => rfl
    | cons x xs ih =>
      simp only [packAll, (h x (by simp)).1, ih (fun y hy => h y (by simp [hy])), ok_bind', pure_ok',
        List.map_cons]
  have hr : ∀ rest, readN read xs.length (xs.flatMap bytes ++ rest) = .ok (xs, rest) := by
    clear hl hp
    induction xs with
    | nil => intro rest; rfl
    | cons x xs ih =>
      intro rest
      rw [List.flatMap_cons, List.append_assoc, List.length_cons]
      simp only [readN, (h x (by simp)).2, ok_bind', ih (fun y hy => h y (by simp [hy])), pure_ok']
  refine ⟨?_, fun rest => ?_⟩
  · simp only [pack_list, pack_varint_eq _ hl, hp, ok_bind', pure_ok', List.flatten_cons]
    rfl
  · obtain ⟨b, h1, _, h3, _⟩ := pack_varint_ok xs.length hl
    rw [pack_varint_eq _ hl] at h1
    cases h1
    simp only [read_list, List.append_assoc, h3, ok_bind', Int.toNat_natCast, hr]

theorem inverts_input {i : TxInput} (h : InRangeInput i) (hh : i.prev_hash.length = 32)
    (h2 : i.script_sig.length < 2 ^ 63) : Inverts TxInput.to_bytes TxInput.read i (inputBytes i) := by
  obtain ⟨h1, _, h3⟩ := h
  refine ⟨?_, fun rest => ?_⟩
  · simp only [TxInput.to_bytes, TxInput.prevout_bytes, (inverts_uint32 h1).1, (inverts_varbytes h2).1,
      (inverts_uint32 h3).1, ok_bind', pure_ok', inputBytes, outpoint, List.append_assoc]
  · simp only [inputBytes, outpoint, List.append_assoc, TxInput.read]
    rw [← hh, List.take_left, List.drop_left]
    simp only [(inverts_uint32 h1).2, (inverts_varbytes h2).2, (inverts_uint32 h3).2, ok_bind', pure_ok']

theorem inverts_output {o : TxOutput} (h : InRangeOutput o) (h2 : o.script_pubkey.length < 2 ^ 63) :
    Inverts TxOutput.to_bytes TxOutput.read o (outputBytes o) := by
  obtain ⟨h1, _⟩ := h
  refine ⟨?_, fun rest => ?_⟩
  · simp only [TxOutput.to_bytes, (inverts_int64 h1).1, (inverts_varbytes h2).1, ok_bind', pure_ok', outputBytes]
  · simp only [outputBytes, List.append_assoc, TxOutput.read, (inverts_int64 h1).2, (inverts_varbytes h2).2,
      ok_bind', pure_ok']

theorem inverts_tx {tx : Tx} (h : InRangeTx tx) (hh : HashSized tx) (hs : Held tx) :
    Inverts Tx.to_bytes Tx.read tx (txBytes tx) := by
  obtain ⟨h1, h2, h3, h4, h5, h6⟩ := h
  have i1 := inverts_int32 h1
  have i2 := inverts_list (bytes := inputBytes) h2 (fun i hi => inverts_input (h3 i hi) (hh i hi) (hs.1 i hi))
  have i3 := inverts_list (bytes := outputBytes) h4 (fun o ho => inverts_output (h5 o ho) (hs.2 o ho))
  have i4 := inverts_uint32 h6
  simp only [Inverts, List.append_assoc] at i2 i3
  refine ⟨?_, fun rest => ?_⟩
  · simp only [Tx.to_bytes, i1.1, i2.1, i3.1, i4.1, ok_bind', pure_ok', txBytes, List.append_assoc]
  · simp only [txBytes, List.append_assoc, Tx.read, i1.2, i2.2, i3.2, i4.2, ok_bind', pure_ok']

/-- `to_bytes` of an input, whatever the length of the hash. -/
theorem input_to_bytes_iff (i : TxInput) (b : Bytes) :
    i.to_bytes = .ok b ↔ InRangeInput i ∧ b = inputBytes i := by
  simp only [TxInput.to_bytes, TxInput.prevout_bytes, bind_eq_ok, pack_le_uint32, packU_iff,
    pack_varbytes_iff, pure_ok', Except.ok.injEq, InRangeInput, inputBytes, outpoint]
  constructor
  · rintro ⟨_, ⟨_, ⟨h1, rfl⟩, rfl⟩, _, ⟨h2, rfl⟩, _, ⟨h3, rfl⟩, rfl⟩
    exact ⟨⟨h1, h2, h3⟩, by simp⟩
  · rintro ⟨⟨h1, h2, h3⟩, rfl⟩
    exact ⟨_, ⟨_, ⟨h1, rfl⟩, rfl⟩, _, ⟨h2, rfl⟩, _, ⟨h3, rfl⟩, by simp⟩

theorem output_to_bytes_iff (o : TxOutput) (b : Bytes) :
    o.to_bytes = .ok b ↔ InRangeOutput o ∧ b = outputBytes o := by
  simp only [TxOutput.to_bytes, bind_eq_ok, pack_le_int64, packS_iff, pack_varbytes_iff, pure_ok',
    Except.ok.injEq, InRangeOutput, outputBytes]
  constructor
  · rintro ⟨_, ⟨h1, rfl⟩, _, ⟨h2, rfl⟩, rfl⟩
    exact ⟨⟨h1, h2⟩, rfl⟩
  · rintro ⟨⟨h1, h2⟩, rfl⟩
    exact ⟨_, ⟨h1, rfl⟩, _, ⟨h2, rfl⟩, rfl⟩

theorem packAll_iff {α : Type} {pack : α → Res Bytes} {ok : α → Prop} {bytes : α → Bytes}
    (h : ∀ x b, pack x = .ok b ↔ ok x ∧ b = bytes x) (xs : List α) (bs : List Bytes) :
    packAll pack xs = .ok bs ↔ (∀ x ∈ xs, ok x) ∧ bs = xs.map bytes := by
  induction xs generalizing bs with
  | nil => simp [packAll, eq_comm]
  | cons x xs ih =>
    simp only [packAll, bind_eq_ok, h, ih, pure_ok', Except.ok.injEq, List.mem_cons, List.map_cons]
    constructor
    · rintro ⟨_, ⟨h1, rfl⟩, _, ⟨h2, rfl⟩, rfl⟩
      refine ⟨?_, rfl⟩
      rintro y (rfl | hy)
      · exact h1
      · exact h2 y hy
    · rintro ⟨h1, rfl⟩
      exact ⟨_, ⟨h1 x (.inl rfl), rfl⟩, _, ⟨fun y hy => h1 y (.inr hy), rfl⟩, rfl⟩

theorem pack_list_iff {α : Type} {pack : α → Res Bytes} {ok : α → Prop} {bytes : α → Bytes}
    (h : ∀ x b, pack x = .ok b ↔ ok x ∧ b = bytes x) (xs : List α) (b : Bytes) :
    pack_list xs pack = .ok b ↔ xs.length < 2 ^ 64 ∧ (∀ x ∈ xs, ok x) ∧
      b = varint xs.length ++ xs.flatMap bytes := by
  have hv : ∀ n, pack_varint (xs.length : Int) = .ok n ↔ xs.length < 2 ^ 64 ∧ n = varint xs.length := by
    intro n
    by_cases hl : xs.length < 2 ^ 64
    · rw [pack_varint_eq _ hl]; exact ⟨fun e => ⟨hl, (Except.ok.inj e).symm⟩, fun e => by rw [e.2]⟩
    · rw [(pack_varint_err _ (by omega)).1]; exact ⟨fun e => (by cases e), fun e => absurd e.1 hl⟩
  simp only [pack_list, bind_eq_ok, hv, packAll_iff h, pure_ok', Except.ok.injEq]
  constructor
  · rintro ⟨_, ⟨h1, rfl⟩, _, ⟨h2, rfl⟩, rfl⟩
    exact ⟨h1, h2, by rw [List.flatten_cons]; rfl⟩
  · rintro ⟨h1, h2, rfl⟩
    exact ⟨_, ⟨h1, rfl⟩, _, ⟨h2, rfl⟩, by rw [List.flatten_cons]; rfl⟩

theorem tx_to_bytes_iff (tx : Tx) (b : Bytes) : tx.to_bytes = .ok b ↔ InRangeTx tx ∧ b = txBytes tx := by
  simp only [Tx.to_bytes, bind_eq_ok, pack_le_int32, packS_iff, pack_le_uint32, packU_iff,
    pack_list_iff input_to_bytes_iff, pack_list_iff output_to_bytes_iff, pure_ok', Except.ok.injEq,
    InRangeTx, txBytes]
  constructor
  · rintro ⟨_, ⟨h1, rfl⟩, _, ⟨h2, h3, rfl⟩, _, ⟨h4, h5, rfl⟩, _, ⟨h6, rfl⟩, rfl⟩
    exact ⟨⟨h1, h2, h3, h4, h5, h6⟩, by simp⟩
  · rintro ⟨⟨h1, h2, h3, h4, h5, h6⟩, rfl⟩
    exact ⟨_, ⟨h1, rfl⟩, _, ⟨h2, h3, rfl⟩, _, ⟨h4, h5, rfl⟩, _, ⟨h6, rfl⟩, by simp⟩

/-- Packing raises nothing but `struct.error`. -/
def OnlyStruct {α : Type} (pack : α → Res Bytes) : Prop := ∀ x e, pack x = .error e → e = .structError

theorem onlyStruct_U (w : Nat) : OnlyStruct (packU w) := by
  intro x e h
  unfold packU at h
  split at h <;> cases h
  rfl

theorem onlyStruct_S (w : Nat) : OnlyStruct (packS w) := by
  intro x e h
  unfold packS at h
  split at h <;> cases h
  rfl

theorem onlyStruct_varint : OnlyStruct pack_varint := by
  intro x e h
  by_cases hx : 0 ≤ x ∧ x < 2 ^ 64
  · obtain ⟨n, rfl⟩ := Int.eq_ofNat_of_zero_le hx.1
    rw [pack_varint_eq n (by omega)] at h
    cases h
  · rw [(pack_varint_err x hx).1] at h
    cases h
    rfl

theorem onlyStruct_varbytes : OnlyStruct pack_varbytes := by
  intro x e h
  by_cases hx : x.length < 2 ^ 64
  · rw [pack_varbytes_eq x hx] at h; cases h
  · rw [pack_varbytes_err x hx] at h; cases h; rfl

theorem onlyStruct_packAll {α : Type} {pack : α → Res Bytes} (h : OnlyStruct pack) (xs : List α) (e : Err)
    (hx : packAll pack xs = .error e) : e = .structError := by
  induction xs generalizing e with
  | nil => cases hx
  | cons x xs ih =>
    simp only [packAll, bind_eq_error, pure_ok'] at hx
    rcases hx with hx | ⟨_, _, hx | ⟨_, _, hx⟩⟩
    · exact h x e hx
    · exact ih e hx
    · cases hx

theorem onlyStruct_list {α : Type} {pack : α → Res Bytes} (h : OnlyStruct pack) :
    OnlyStruct (fun l => pack_list l pack) := by
  intro xs e hx
  simp only [pack_list, bind_eq_error, pure_ok'] at hx
  rcases hx with hx | ⟨_, _, hx | ⟨_, _, hx⟩⟩
  · exact onlyStruct_varint _ e hx
  · exact onlyStruct_packAll h xs e hx
  · cases hx

theorem onlyStruct_input : OnlyStruct TxInput.to_bytes := by
  intro i e h
  simp only [TxInput.to_bytes, TxInput.prevout_bytes, bind_eq_error, pure_ok'] at h
  rcases h with (h | ⟨_, _, h⟩) | ⟨_, _, h | ⟨_, _, h | ⟨_, _, h⟩⟩⟩
  · exact onlyStruct_U 4 _ e h
  · cases h
  · exact onlyStruct_varbytes _ e h
  · exact onlyStruct_U 4 _ e h
  · cases h

theorem onlyStruct_output : OnlyStruct TxOutput.to_bytes := by
  intro i e h
  simp only [TxOutput.to_bytes, bind_eq_error, pure_ok'] at h
  rcases h with h | ⟨_, _, h | ⟨_, _, h⟩⟩
  · exact onlyStruct_S 8 _ e h
  · exact onlyStruct_varbytes _ e h
  · cases h

theorem onlyStruct_tx : OnlyStruct Tx.to_bytes := by
  intro i e h
  simp only [Tx.to_bytes, bind_eq_error, pure_ok'] at h
  rcases h with h | ⟨_, _, h | ⟨_, _, h | ⟨_, _, h | ⟨_, _, h⟩⟩⟩⟩
  · exact onlyStruct_S 4 _ e h
  · exact onlyStruct_list onlyStruct_input _ e h
  · exact onlyStruct_list onlyStruct_output _ e h
  · exact onlyStruct_U 4 _ e h
  · cases h

/-! ## Reading and packing again -/

/-- `b` is no longer than `c`, and equal to it if as long. -/
def Shrinks (b c : Bytes) : Prop := b.length ≤ c.length ∧ (b.length = c.length → b = c)

theorem Shrinks.refl (b : Bytes) : Shrinks b b := ⟨le_refl _, fun _ => rfl⟩

theorem Shrinks.append {a b c d : Bytes} (h1 : Shrinks a c) (h2 : Shrinks b d) : Shrinks (a ++ b) (c ++ d) := by
  obtain ⟨h3, h4⟩ := h1
  obtain ⟨h5, h6⟩ := h2
  refine ⟨by simp; omega, fun h => ?_⟩
  simp only [List.length_append] at h
  rw [h4 (by omega), h6 (by omega)]

/-- Packing what was read gives the bytes read or something shorter. -/
def Reserializes {α : Type} (r : Reader α) (p : α → Res Bytes) : Prop :=
  ∀ s x rest, r s = .ok (x, rest) → ∃ b c, p x = .ok b ∧ s = c ++ rest ∧ Shrinks b c

theorem reserializes_codec {pack : Int → Res Bytes} {unpack : Bytes → Res Int} {lo hi : Int} {w : Nat}
    {dn : Bytes → Nat} (hc : ExactCodec pack unpack lo hi w dn) :
    Reserializes (readFixed w unpack) pack := by
  intro s x rest h
  simp only [readFixed, bind_eq_ok, pure_ok', Except.ok.injEq, Prod.mk.injEq] at h
  obtain ⟨v, h1, rfl, rfl⟩ := h
  by_cases hl : (s.take w).length = w
  · obtain ⟨v', _, _, h4, h5, _⟩ := hc.unpack_ok _ hl
    rw [h4] at h1
    cases h1
    exact ⟨_, s.take w, h5, (List.take_append_drop w s).symm, .refl _⟩
  · rw [hc.unpack_err _ hl] at h1
    cases h1

theorem leInt_leValue (b : Bytes) : leInt b.length (leValue b : Int) = b := by
  rw [← leBytes_eq_leInt, leBytes_leValue]

/-- What `read_varint` reads. -/
theorem read_varint_cases {s rest : Bytes} {n : Int} (h : read_varint s = .ok (n, rest)) :
    ∃ k : Nat, n = k ∧ k < 2 ^ 64 ∧
      ((k < 253 ∧ s = leInt 1 k ++ rest) ∨ (k < 2 ^ 16 ∧ s = (0xfd :: leInt 2 k) ++ rest) ∨
        (k < 2 ^ 32 ∧ s = (0xfe :: leInt 4 k) ++ rest) ∨ s = (0xff :: leInt 8 k) ++ rest) := by
  have fixed : ∀ {w : Nat} {s rest : Bytes} {n : Int}, readFixed w (unpackU w) s = .ok (n, rest) →
      ∃ k : Nat, n = k ∧ k < 256 ^ w ∧ s = leInt w k ++ rest := by
    intro w s rest n h
    simp only [readFixed, unpackU, bind_eq_ok, pure_ok', Except.ok.injEq, Prod.mk.injEq] at h
    obtain ⟨v, h1, rfl, rfl⟩ := h
    split at h1
    · next hl =>
      cases h1
      refine ⟨leValue (s.take w), by rw [le_bytes_to_int_eq], by rw [← hl]; have := leValue_lt (s.take w); rwa [hl] at this ⊢, ?_⟩
      have := leInt_leValue (s.take w)
      rw [hl] at this
      rw [this, List.take_append_drop]
    · cases h1
  unfold read_varint at h
  rw [bind_eq_ok] at h
  obtain ⟨⟨f, s1⟩, h1, h2⟩ := h
  obtain ⟨f, rfl, hf, rfl⟩ := fixed h1
  have byte : ∀ k : Nat, leInt 1 (k : Int) = [UInt8.ofNat (k % 256)] := by
    intro k
    rw [← leBytes_eq_leInt]; rfl
  simp only at h2
  split at h2
  · next hlt =>
    cases h2
    exact ⟨f, rfl, by omega, .inl ⟨by omega, rfl⟩⟩
  · split at h2
    · next he =>
      obtain ⟨k, rfl, hk, rfl⟩ := fixed h2
      have : f = 253 := by omega
      subst this
      exact ⟨k, rfl, by omega, .inr (.inl ⟨by omega, by rw [byte]; rfl⟩)⟩
    · split at h2
      · next he =>
        obtain ⟨k, rfl, hk, rfl⟩ := fixed h2
        have : f = 254 := by omega
        subst this
        exact ⟨k, rfl, by omega, .inr (.inr (.inl ⟨by omega, by rw [byte]; rfl⟩))⟩
      · next h3 h4 h5 =>
        obtain ⟨k, rfl, hk, rfl⟩ := fixed h2
        have : f = 255 := by omega
        subst this
        exact ⟨k, rfl, by omega, .inr (.inr (.inr (by rw [byte]; rfl)))⟩

theorem reserializes_varint : Reserializes read_varint pack_varint := by
  intro s n rest h
  obtain ⟨k, rfl, hk, hc⟩ := read_varint_cases h
  have hlen : (varint k).length = if k < 253 then 1 else if k < 2 ^ 16 then 3 else if k < 2 ^ 32 then 5 else 9 := by
    unfold varint
    split
    · simp
    · split
      · simp
      · split <;> simp
  refine ⟨varint k, ?_⟩
  rw [pack_varint_eq k hk]
  rcases hc with ⟨h1, rfl⟩ | ⟨h1, rfl⟩ | ⟨h1, rfl⟩ | rfl
  · exact ⟨_, rfl, rfl, by rw [varint, if_pos h1]; exact .refl _⟩
  · refine ⟨_, rfl, rfl, ?_⟩
    by_cases c : k < 253
    · rw [if_pos c] at hlen
      exact ⟨by simp [hlen], fun e => by simp [hlen] at e⟩
    · rw [varint, if_neg c, if_pos h1]; exact .refl _
  · refine ⟨_, rfl, rfl, ?_⟩
    by_cases c : k < 2 ^ 16
    · have : (varint k).length ≤ 3 := by rw [hlen]; split <;> omega
      exact ⟨by simp; omega, fun e => by simp at e; omega⟩
    · rw [varint, if_neg (by omega), if_neg c, if_pos h1]; exact .refl _
  · refine ⟨_, rfl, rfl, ?_⟩
    by_cases c : k < 2 ^ 32
    · have : (varint k).length ≤ 5 := by
        rw [hlen]; split
        · omega
        · split <;> omega
      exact ⟨by simp; omega, fun e => by simp at e; omega⟩
    · rw [varint, if_neg (by omega), if_neg (by omega), if_neg c]; exact .refl _

theorem reserializes_varbytes : Reserializes read_varbytes pack_varbytes := by
  intro s d rest h
  simp only [read_varbytes, bind_eq_ok] at h
  obtain ⟨⟨n, s1⟩, h1, h2⟩ := h
  obtain ⟨b, c, h3, rfl, h5⟩ := reserializes_varint _ _ _ h1
  simp only at h2
  split at h2
  · cases h2
  split at h2
  · cases h2
  · next hl =>
    simp only [ne_eq, not_not] at hl
    simp only [pure_ok', Except.ok.injEq, Prod.mk.injEq] at h2
    obtain ⟨rfl, rfl⟩ := h2
    obtain ⟨k, rfl, _⟩ := read_varint_cases h1
    rw [Int.toNat_natCast] at *
    refine ⟨b ++ s1.take k, c ++ s1.take k, ?_, by simp, h5.append (.refl _)⟩
    simp only [pack_varbytes, hl, h3, ok_bind', pure_ok']

theorem reserializes_readN {α : Type} {r : Reader α} {p : α → Res Bytes} (h : Reserializes r p) (n : Nat)
    (s : Bytes) (xs : List α) (rest : Bytes) (hx : readN r n s = .ok (xs, rest)) :
    xs.length = n ∧ ∃ bs c, packAll p xs = .ok bs ∧ s = c ++ rest ∧ Shrinks bs.flatten c := by
  induction n generalizing s xs with
  | zero =>
    simp only [readN, Except.ok.injEq, Prod.mk.injEq] at hx
    obtain ⟨rfl, rfl⟩ := hx
    exact ⟨rfl, [], [], rfl, rfl, .refl _⟩
  | succ n ih =>
    simp only [readN, bind_eq_ok, pure_ok', Except.ok.injEq, Prod.mk.injEq] at hx
    obtain ⟨⟨x, s1⟩, h1, ⟨ys, s2⟩, h2, rfl, rfl⟩ := hx
    obtain ⟨b, c, h3, rfl, h5⟩ := h _ _ _ h1
    obtain ⟨h6, bs, c', h7, h8, h9⟩ := ih _ _ h2
    simp only at h8
    subst h8
    refine ⟨by simp [h6], b :: bs, c ++ c', by simp only [packAll, h3, h7, ok_bind', pure_ok'], by simp, ?_⟩
    rw [List.flatten_cons]
    exact h5.append h9

theorem reserializes_list {α : Type} {r : Reader α} {p : α → Res Bytes} (h : Reserializes r p) :
    Reserializes (read_list r) (fun l => pack_list l p) := by
  intro s xs rest hx
  simp only [read_list, bind_eq_ok] at hx
  obtain ⟨⟨n, s1⟩, h1, h2⟩ := hx
  obtain ⟨b, c, h3, rfl, h5⟩ := reserializes_varint _ _ _ h1
  obtain ⟨k, rfl, _⟩ := read_varint_cases h1
  obtain ⟨h6, bs, c', h7, h8, h9⟩ := reserializes_readN h _ _ _ _ h2
  simp only at h8
  subst h8
  rw [Int.toNat_natCast] at h6
  refine ⟨b ++ bs.flatten, c ++ c', ?_, by simp, h5.append h9⟩
  simp only [pack_list, h6, h3, h7, ok_bind', pure_ok', List.flatten_cons]

theorem reserializes_uint32 : Reserializes read_le_uint32 pack_le_uint32 :=
  reserializes_codec C02_struct_codecs.2.2.2.1

theorem reserializes_int32 : Reserializes read_le_int32 pack_le_int32 := reserializes_codec C02_struct_codecs.1

theorem reserializes_int64 : Reserializes read_le_int64 pack_le_int64 := reserializes_codec C02_struct_codecs.2.1

/-- An input that was read has a hash of 32 bytes: otherwise nothing would be left for its index. -/
theorem input_read_eq : TxInput.read = Reader.andThen (Reader.takeN 32) (fun prev_hash =>
    Reader.andThen read_le_uint32 (fun prev_idx => Reader.andThen read_varbytes (fun script_sig =>
      Reader.andThen read_le_uint32 (fun sequence =>
        Reader.ret { prev_hash, prev_idx, script_sig, sequence })))) := by
  funext s
  by_cases hl : (s.take 32).length = 32
  · have : Reader.takeN 32 s = .ok (s.take 32, s.drop 32) := by
      rw [Reader.takeN, if_neg (by simpa using hl)]
    simp only [Reader.andThen, this, ok_bind', TxInput.read]
    rfl
  · have h1 : Reader.takeN 32 s = .error .structError := by rw [Reader.takeN, if_pos hl]
    have h2 : s.drop 32 = [] := by
      rw [List.length_take] at hl
      rw [List.drop_eq_nil_iff]
      omega
    have h3 : read_le_uint32 [] = .error .structError := rfl
    simp only [Reader.andThen, h1, error_bind', TxInput.read, h2, h3]

theorem reserializes_input : Reserializes TxInput.read TxInput.to_bytes := by
  intro s x rest h
  rw [input_read_eq] at h
  simp only [Reader.andThen, bind_eq_ok] at h
  obtain ⟨⟨ph, s1⟩, h1, ⟨pi, s2⟩, h2, ⟨sc, s3⟩, h3, ⟨sq, s4⟩, h4, h5⟩ := h
  simp only [Reader.ret, Except.ok.injEq, Prod.mk.injEq] at h5
  obtain ⟨rfl, rfl⟩ := h5
  unfold Reader.takeN at h1
  split at h1
  · cases h1
  · simp only [Except.ok.injEq, Prod.mk.injEq] at h1
    obtain ⟨rfl, rfl⟩ := h1
    obtain ⟨b2, c2, p2, e2, g2⟩ := reserializes_uint32 _ _ _ h2
    obtain ⟨b3, c3, p3, e3, g3⟩ := reserializes_varbytes _ _ _ h3
    obtain ⟨b4, c4, p4, e4, g4⟩ := reserializes_uint32 _ _ _ h4
    simp only at e2 e3 e4
    refine ⟨s.take 32 ++ b2 ++ (b3 ++ b4), s.take 32 ++ c2 ++ (c3 ++ c4), ?_, ?_, ?_⟩
    · simp only [TxInput.to_bytes, TxInput.prevout_bytes, p2, p3, p4, ok_bind', pure_ok']
    · rw [List.append_assoc, List.append_assoc, List.append_assoc, ← e4, ← e3, ← e2,
        List.take_append_drop]
    · exact ((Shrinks.refl _).append g2).append (g3.append g4)

theorem input_read_hash {s rest : Bytes} {i : TxInput} (h : TxInput.read s = .ok (i, rest)) :
    i.prev_hash.length = 32 := by
  rw [input_read_eq] at h
  simp only [Reader.andThen, bind_eq_ok] at h
  obtain ⟨⟨ph, s1⟩, h1, ⟨pi, s2⟩, h2, ⟨sc, s3⟩, h3, ⟨sq, s4⟩, h4, h5⟩ := h
  simp only [Reader.ret, Except.ok.injEq, Prod.mk.injEq] at h5
  obtain ⟨rfl, rfl⟩ := h5
  unfold Reader.takeN at h1
  split at h1
  · cases h1
  · next hl =>
    simp only [Except.ok.injEq, Prod.mk.injEq] at h1
    obtain ⟨rfl, rfl⟩ := h1
    simpa using hl

theorem reserializes_output : Reserializes TxOutput.read TxOutput.to_bytes := by
  intro s x rest h
  simp only [TxOutput.read, bind_eq_ok, pure_ok', Except.ok.injEq, Prod.mk.injEq] at h
  obtain ⟨⟨v, s1⟩, h1, ⟨sc, s2⟩, h2, rfl, rfl⟩ := h
  obtain ⟨b1, c1, p1, rfl, g1⟩ := reserializes_int64 _ _ _ h1
  obtain ⟨b2, c2, p2, e2, g2⟩ := reserializes_varbytes _ _ _ h2
  simp only at e2
  subst e2
  exact ⟨b1 ++ b2, c1 ++ c2, by simp only [TxOutput.to_bytes, p1, p2, ok_bind', pure_ok'], by simp, g1.append g2⟩

theorem reserializes_tx : Reserializes Tx.read Tx.to_bytes := by
  intro s x rest h
  simp only [Tx.read, bind_eq_ok, pure_ok', Except.ok.injEq, Prod.mk.injEq] at h
  obtain ⟨⟨v, s1⟩, h1, ⟨is, s2⟩, h2, ⟨os, s3⟩, h3, ⟨lt, s4⟩, h4, rfl, rfl⟩ := h
  obtain ⟨b1, c1, p1, rfl, g1⟩ := reserializes_int32 _ _ _ h1
  obtain ⟨b2, c2, p2, e2, g2⟩ := reserializes_list reserializes_input _ _ _ h2
  obtain ⟨b3, c3, p3, e3, g3⟩ := reserializes_list reserializes_output _ _ _ h3
  obtain ⟨b4, c4, p4, e4, g4⟩ := reserializes_uint32 _ _ _ h4
  simp only at e2 e3 e4
  subst e2 e3 e4
  exact ⟨b1 ++ (b2 ++ (b3 ++ b4)), c1 ++ (c2 ++ (c3 ++ c4)),
    by simp only [Tx.to_bytes, p1, p2, p3, p4, ok_bind', pure_ok'], by simp,
    g1.append (g2.append (g3.append g4))⟩

end Bitcoinx
