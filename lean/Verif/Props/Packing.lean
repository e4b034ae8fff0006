import Verif.Lemmas.Packing

/-! # C01-C05, C73: integer conversions, packing, streams, chunks -/

namespace Bitcoinx
open Spec

/-! ## C01 -/

/-- For `v ≥ 0` and the default size: the result denotes `v`, both converters read it back, the
little-endian form is its reverse, and no byte string denoting `v` is shorter. -/
theorem C01_default_size (v : Int) (hv : 0 ≤ v) :
    ∃ b, int_to_be_bytes v = .ok b ∧ int_to_le_bytes v = .ok b.reverse ∧
      (beValue b : Int) = v ∧ (be_bytes_to_int b : Int) = v ∧ (le_bytes_to_int b.reverse : Int) = v ∧
      (∀ b', (beValue b' : Int) = v → b.length ≤ b'.length) ∧ (∀ x xs, b = x :: xs → x ≠ 0) := by
  obtain ⟨n, rfl⟩ := Int.eq_ofNat_of_zero_le hv
  have hlt : n < 256 ^ byteSize n := by simpa using lt_byteSize (n : Int)
  have hnn : ¬ ((n : Int) < 0) := by omega
  have hmin : ∀ b', (beValue b' : Int) = n → (beBytes (byteSize n) n).length ≤ b'.length := by
    intro b' hb'
    rw [beBytes_length, byteSize_le]
    have := beValue_lt b'
    have e : beValue b' = n := by exact_mod_cast hb'
    rw [e] at this; simpa using this
  refine ⟨beBytes (byteSize n) n, ?_, ?_, ?_, ?_, ?_, hmin, ?_⟩
  · simp [int_to_be_bytes, hlt, hnn]
  · simp [int_to_le_bytes, hlt, hnn, beBytes]
  · rw [beValue_beBytes _ _ hlt]
  · rw [be_bytes_to_int_eq, beValue_beBytes _ _ hlt]
  · rw [le_bytes_to_int_eq, leValue_reverse, beValue_beBytes _ _ hlt]
  · intro x xs hx h0
    have h1 := beValue_beBytes _ _ hlt
    rw [hx, h0] at h1
    have h2 := hmin xs (by simp [beValue] at h1; exact_mod_cast h1)
    rw [hx] at h2; simp at h2

/-- Explicit size: success exactly for `0 ≤ v < 256^size`, with exactly `size` bytes denoting `v`;
otherwise `OverflowError`. -/
theorem C01_explicit_size (v : Int) (size : Nat) :
    ((0 ≤ v ∧ v < 256 ^ size) → ∃ b, int_to_be_bytes v (some size) = .ok b ∧
        int_to_le_bytes v (some size) = .ok b.reverse ∧ b.length = size ∧ (beValue b : Int) = v ∧
        (be_bytes_to_int b : Int) = v ∧ (le_bytes_to_int b.reverse : Int) = v) ∧
    (¬ (0 ≤ v ∧ v < 256 ^ size) → int_to_be_bytes v (some size) = .error .overflowError ∧
        int_to_le_bytes v (some size) = .error .overflowError) := by
  constructor
  · rintro ⟨h0, h1⟩
    obtain ⟨n, rfl⟩ := Int.eq_ofNat_of_zero_le h0
    have hlt : n < 256 ^ size := by exact_mod_cast h1
    have hnn : ¬ ((n : Int) < 0) := by omega
    refine ⟨beBytes size n, by simp [int_to_be_bytes, hlt, hnn],
      by simp [int_to_le_bytes, hlt, hnn, beBytes], by simp, by rw [beValue_beBytes _ _ hlt], ?_, ?_⟩
    · rw [be_bytes_to_int_eq, beValue_beBytes _ _ hlt]
    · rw [le_bytes_to_int_eq, leValue_reverse, beValue_beBytes _ _ hlt]
  · intro h
    by_cases h0 : v < 0
    · simp [int_to_be_bytes, int_to_le_bytes, h0]
    · obtain ⟨n, rfl⟩ := Int.eq_ofNat_of_zero_le (not_lt.1 h0)
      have hlt : ¬ n < 256 ^ size := fun hc => h ⟨by omega, by exact_mod_cast hc⟩
      simp [int_to_be_bytes, int_to_le_bytes, hlt]

/-- Bytes to integer and back with `size = len(b)` is the identity, in both byte orders; the two
converters agree with the positional value. -/
theorem C01_bytes_to_int_to_bytes (b : Bytes) :
    be_bytes_to_int b = beValue b ∧ le_bytes_to_int b = beValue b.reverse ∧
    int_to_be_bytes (be_bytes_to_int b) (some b.length) = .ok b ∧
    int_to_le_bytes (le_bytes_to_int b) (some b.length) = .ok b := by
  refine ⟨be_bytes_to_int_eq b, by rw [le_bytes_to_int_eq, beValue_reverse], ?_, ?_⟩
  · simp [int_to_be_bytes, be_bytes_to_int_eq, beValue_lt, beBytes_beValue]
  · simp [int_to_le_bytes, le_bytes_to_int_eq, leValue_lt, leBytes_leValue]

/-- Negative values raise `OverflowError` whatever the size. -/
theorem C01_negative (v : Int) (hv : v < 0) (size : Option Nat) :
    int_to_be_bytes v size = .error .overflowError ∧
    int_to_le_bytes v size = .error .overflowError := by
  simp [int_to_be_bytes, int_to_le_bytes, hv]

example : int_to_be_bytes 65536 = .ok [1, 0, 0] := by decide
example : int_to_le_bytes 65536 (some 4) = .ok [0, 0, 1, 0] := by decide
example : int_to_be_bytes 65536 (some 2) = .error .overflowError := by decide
example : int_to_be_bytes 0 = .ok [] := by decide

/-! ## C02 -/

theorem exactCodec_U (w : Nat) :
    ExactCodec (packU w) (unpackU w) 0 (256 ^ w - 1) w leValue where
  pack_ok := by
    intro v h0 h1
    obtain ⟨n, rfl⟩ := Int.eq_ofNat_of_zero_le h0
    have hn : n < 256 ^ w := by
      have : (n : Int) < 256 ^ w := by omega
      exact_mod_cast this
    exact ⟨leBytes w n, packU_ok w n hn, by simp, unpackU_leBytes w n hn⟩
  pack_err := by
    intro v h
    unfold packU; rw [if_neg (by omega)]
  unpack_ok := by
    intro b hb
    subst hb
    have hlt := leValue_lt b
    have hlt' : (leValue b : Int) < 256 ^ b.length := by exact_mod_cast hlt
    refine ⟨leValue b, by omega, by omega, by simp [unpackU, le_bytes_to_int_eq], ?_, rfl⟩
    rw [packU_ok _ _ hlt, leBytes_leValue]
  unpack_err := by
    intro b hb; simp [unpackU, hb]

theorem exactCodec_UBE (w : Nat) :
    ExactCodec (packUBE w) (unpackUBE w) 0 (256 ^ w - 1) w beValue where
  pack_ok := by
    intro v h0 h1
    obtain ⟨b, hb, hl, hu⟩ := (exactCodec_U w).pack_ok v h0 h1
    exact ⟨b.reverse, by simp [packUBE, hb, Except.map], by simp [hl], by simpa [unpackUBE] using hu⟩
  pack_err := by
    intro v h
    simp [packUBE, (exactCodec_U w).pack_err v h, Except.map]
  unpack_ok := by
    intro b hb
    obtain ⟨v, h0, h1, hu, hp, hd⟩ := (exactCodec_U w).unpack_ok b.reverse (by simpa using hb)
    refine ⟨v, h0, h1, hu, by simp [packUBE, hp, Except.map], ?_⟩
    rwa [leValue_reverse] at hd
  unpack_err := by
    intro b hb
    exact (exactCodec_U w).unpack_err b.reverse (by simpa using hb)

theorem exactCodec_S (w : Nat) (hw : 0 < w) :
    ExactCodec (packS w) (unpackS w) (-(256 ^ w / 2)) (256 ^ w / 2 - 1) w leValue where
  pack_ok := by
    intro v h0 h1
    have heven : (256 : Int) ^ w = 2 * (256 ^ w / 2) := by
      obtain ⟨k, rfl⟩ := Nat.exists_eq_succ_of_ne_zero hw.ne'
      rw [Nat.succ_eq_add_one, pow_succ]; omega
    have hpos : (0 : Int) < 256 ^ w := by positivity
    generalize hM : (256 : Int) ^ w = M at *
    have hm0 := Int.emod_nonneg v (by omega : M ≠ 0)
    have hm1 := Int.emod_lt_of_pos v hpos
    have hn : (v % M).toNat < 256 ^ w := by
      have : ((v % M).toNat : Int) < (256 : Int) ^ w := by rw [hM]; omega
      exact_mod_cast this
    refine ⟨leBytes w (v % M).toNat, ?_, by simp, ?_⟩
    · unfold packS; rw [hM, if_pos (by omega)]
    · simp only [unpackS, leBytes_length, if_true, le_bytes_to_int_eq, leValue_leBytes _ _ hn]
      rw [hM]
      have hdiv : ((256 ^ w / 2 : Nat) : Int) = M / 2 := by push_cast; rw [hM]
      congr 1
      rcases lt_or_ge v 0 with hv | hv
      · have : v % M = v + M := by
          rw [← Int.add_emod_right, Int.emod_eq_of_lt (by omega) (by omega)]
        split <;> omega
      · have : v % M = v := Int.emod_eq_of_lt hv (by omega)
        split <;> omega
  pack_err := by
    intro v h
    unfold packS; rw [if_neg (by omega)]
  unpack_ok := by
    intro b hb
    have heven : (256 : Int) ^ w = 2 * (256 ^ w / 2) := by
      obtain ⟨k, rfl⟩ := Nat.exists_eq_succ_of_ne_zero hw.ne'
      rw [Nat.succ_eq_add_one, pow_succ]; omega
    have hpos : (0 : Int) < 256 ^ w := by positivity
    have hlt := leValue_lt b
    rw [hb] at hlt
    have hlt' : (leValue b : Int) < 256 ^ w := by exact_mod_cast hlt
    have hdiv : ((256 ^ w / 2 : Nat) : Int) = 256 ^ w / 2 := by push_cast; rfl
    have hbb := leBytes_leValue b
    rw [hb] at hbb
    generalize hM : (256 : Int) ^ w = M at *
    by_cases hc : leValue b < 256 ^ w / 2
    · refine ⟨leValue b, by omega, by omega, by simp [unpackS, hb, le_bytes_to_int_eq, hc], ?_, rfl⟩
      unfold packS
      rw [hM, if_pos (by omega), Int.emod_eq_of_lt (by omega) hlt', Int.toNat_natCast, hbb]
    · refine ⟨(leValue b : Int) - M, by omega, by omega,
        by simp [unpackS, hb, le_bytes_to_int_eq, hc, hM], ?_, ?_⟩
      · unfold packS
        rw [hM, if_pos (by omega), Int.sub_emod_right, Int.emod_eq_of_lt (by omega) hlt',
          Int.toNat_natCast, hbb]
      · rw [Int.sub_emod_right]
  unpack_err := by
    intro b hb; simp [unpackS, hb]

/-- C02, all nine formats, with their literal ranges. -/
theorem C02_struct_codecs :
    ExactCodec pack_le_int32 unpack_le_int32 (-2 ^ 31) (2 ^ 31 - 1) 4 leValue ∧
    ExactCodec pack_le_int64 unpack_le_int64 (-2 ^ 63) (2 ^ 63 - 1) 8 leValue ∧
    ExactCodec pack_le_uint16 unpack_le_uint16 0 (2 ^ 16 - 1) 2 leValue ∧
    ExactCodec pack_le_uint32 unpack_le_uint32 0 (2 ^ 32 - 1) 4 leValue ∧
    ExactCodec pack_le_uint64 unpack_le_uint64 0 (2 ^ 64 - 1) 8 leValue ∧
    ExactCodec pack_be_uint16 unpack_be_uint16 0 (2 ^ 16 - 1) 2 beValue ∧
    ExactCodec pack_be_uint32 unpack_be_uint32 0 (2 ^ 32 - 1) 4 beValue ∧
    ExactCodec pack_be_uint64 unpack_be_uint64 0 (2 ^ 64 - 1) 8 beValue ∧
    ExactCodec pack_byte unpack_byte 0 255 1 leValue ∧
    ExactCodec pack_port unpack_port 0 (2 ^ 16 - 1) 2 beValue := by
  refine ⟨?_, ?_, ?_, ?_, ?_, ?_, ?_, ?_, ?_, ?_⟩
  · have h := exactCodec_S 4 (by decide); norm_num at h ⊢; exact h
  · have h := exactCodec_S 8 (by decide); norm_num at h ⊢; exact h
  · have h := exactCodec_U 2; norm_num at h ⊢; exact h
  · have h := exactCodec_U 4; norm_num at h ⊢; exact h
  · have h := exactCodec_U 8; norm_num at h ⊢; exact h
  · have h := exactCodec_UBE 2; norm_num at h ⊢; exact h
  · have h := exactCodec_UBE 4; norm_num at h ⊢; exact h
  · have h := exactCodec_UBE 8; norm_num at h ⊢; exact h
  · have h := exactCodec_U 1; norm_num at h ⊢; exact h
  · have h := exactCodec_UBE 2; norm_num at h ⊢; exact h

/-- The `_from` variants read the window at the offset, and raise `struct.error` exactly when the
buffer has fewer than `width` bytes from the offset on. -/
theorem C02_unpack_from (pre b post : Bytes) :
    (b.length = 4 → unpack_le_uint32_from (pre ++ b ++ post) pre.length = unpack_le_uint32 b ∧
      unpack_le_int32_from (pre ++ b ++ post) pre.length = unpack_le_int32 b ∧
      unpack_be_uint32_from (pre ++ b ++ post) pre.length = unpack_be_uint32 b) ∧
    (b.length = 8 → unpack_le_uint64_from (pre ++ b ++ post) pre.length = unpack_le_uint64 b ∧
      unpack_le_int64_from (pre ++ b ++ post) pre.length = unpack_le_int64 b ∧
      unpack_be_uint64_from (pre ++ b ++ post) pre.length = unpack_be_uint64 b) ∧
    (b.length = 2 → unpack_le_uint16_from (pre ++ b ++ post) pre.length = unpack_le_uint16 b ∧
      unpack_be_uint16_from (pre ++ b ++ post) pre.length = unpack_be_uint16 b) ∧
    (b.length < 4 → unpack_le_uint32_from (pre ++ b) pre.length = .error .structError ∧
      unpack_le_int32_from (pre ++ b) pre.length = .error .structError ∧
      unpack_be_uint32_from (pre ++ b) pre.length = .error .structError) ∧
    (b.length < 8 → unpack_le_uint64_from (pre ++ b) pre.length = .error .structError ∧
      unpack_le_int64_from (pre ++ b) pre.length = .error .structError ∧
      unpack_be_uint64_from (pre ++ b) pre.length = .error .structError) ∧
    (b.length < 2 → unpack_le_uint16_from (pre ++ b) pre.length = .error .structError ∧
      unpack_be_uint16_from (pre ++ b) pre.length = .error .structError) := by
  refine ⟨fun h => ?_, fun h => ?_, fun h => ?_, fun h => ?_, fun h => ?_, fun h => ?_⟩
  · simp [unpack_le_uint32_from, unpack_le_int32_from, unpack_be_uint32_from, unpackFrom,
      List.append_assoc, List.take_left' h]
  · simp [unpack_le_uint64_from, unpack_le_int64_from, unpack_be_uint64_from, unpackFrom,
      List.append_assoc, List.take_left' h]
  · simp [unpack_le_uint16_from, unpack_be_uint16_from, unpackFrom,
      List.append_assoc, List.take_left' h]
  · have h' : (b.take 4).length ≠ 4 := by rw [List.length_take]; omega
    simp only [unpack_le_uint32_from, unpack_le_int32_from, unpack_be_uint32_from, unpackFrom,
      List.drop_left]
    exact ⟨(widthChecked_unpackU 4).2 _ h', (widthChecked_unpackS 4).2 _ h',
      (widthChecked_unpackUBE 4).2 _ h'⟩
  · have h' : (b.take 8).length ≠ 8 := by rw [List.length_take]; omega
    simp only [unpack_le_uint64_from, unpack_le_int64_from, unpack_be_uint64_from, unpackFrom,
      List.drop_left]
    exact ⟨(widthChecked_unpackU 8).2 _ h', (widthChecked_unpackS 8).2 _ h',
      (widthChecked_unpackUBE 8).2 _ h'⟩
  · have h' : (b.take 2).length ≠ 2 := by rw [List.length_take]; omega
    simp only [unpack_le_uint16_from, unpack_be_uint16_from, unpackFrom, List.drop_left]
    exact ⟨(widthChecked_unpackU 2).2 _ h', (widthChecked_unpackUBE 2).2 _ h'⟩

example : pack_le_int32 (-2) = .ok [0xfe, 0xff, 0xff, 0xff] := by decide
example : unpack_be_uint32 [0, 0, 1, 2] = .ok 258 := by decide
example : pack_byte 256 = .error .structError := by decide

/-! ## C03 -/

/-- For every `0 ≤ n ≤ 2^64-1`: `pack_varint` succeeds, its length is `varint_len(n)`, `read_varint`
recovers `n` in front of anything, and the encoding is the shortest byte string that `read_varint`
reads as `n`. Every other `n` is rejected. -/
theorem C03_varint (n : Int) :
    ((0 ≤ n ∧ n ≤ 2 ^ 64 - 1) → ∃ b, pack_varint n = .ok b ∧ varint_len n = .ok b.length ∧
      (∀ rest, read_varint (b ++ rest) = .ok (n, rest)) ∧
      (∀ b', read_varint b' = .ok (n, []) → b.length ≤ b'.length)) ∧
    (¬ (0 ≤ n ∧ n ≤ 2 ^ 64 - 1) → pack_varint n = .error .structError ∧
      varint_len n = .error .valueError) := by
  constructor
  · rintro ⟨h0, h1⟩
    obtain ⟨k, rfl⟩ := Int.eq_ofNat_of_zero_le h0
    obtain ⟨b, hb, hl, hr, _⟩ := pack_varint_ok k (by omega)
    refine ⟨b, hb, hl, hr, fun b' hb' => ?_⟩
    -- the value bounds the length of any encoding from below
    have hlen : ∀ {w : Nat} {s : Bytes} {v : Int} {rest : Bytes},
        readFixed w (unpackU w) s = .ok (v, rest) → s.length = w + rest.length ∧ v < 256 ^ w := by
      intro w s v rest h
      simp only [readFixed, unpackU, bind_eq_ok] at h
      obtain ⟨a, ha, h⟩ := h
      split at ha
      · next hw =>
        simp only [pure_ok', Except.ok.injEq, Prod.mk.injEq] at h ha
        obtain ⟨rfl, rfl⟩ := h
        have hlt := leValue_lt (s.take w)
        rw [hw] at hlt
        constructor
        · rw [List.length_take] at hw; rw [List.length_drop]; omega
        · rw [← ha, le_bytes_to_int_eq]; exact_mod_cast hlt
      · simp at ha
    simp only [read_varint, bind_eq_ok] at hb'
    obtain ⟨⟨m, s⟩, hm, hs⟩ := hb'
    obtain ⟨hm1, hm2⟩ := hlen hm
    simp only [varint_len] at hl
    split at hs
    · next h253 =>
      simp only [pure_ok', Except.ok.injEq, Prod.mk.injEq] at hs
      obtain ⟨rfl, rfl⟩ := hs
      rw [if_pos (by omega), if_pos (by omega)] at hl
      simp only [Except.ok.injEq] at hl
      omega
    · split at hs
      · obtain ⟨hs1, hs2⟩ := hlen hs
        simp at hs1 hs2
        split_ifs at hl <;> simp at hl <;> omega
      · split at hs
        · obtain ⟨hs1, hs2⟩ := hlen hs
          simp at hs1 hs2
          split_ifs at hl <;> simp at hl <;> omega
        · obtain ⟨hs1, hs2⟩ := hlen hs
          simp at hs1 hs2
          split_ifs at hl <;> simp at hl <;> omega
  · intro h
    exact pack_varint_err n (by omega)

example : pack_varint 252 = .ok [252] ∧ pack_varint 253 = .ok [0xfd, 253, 0] ∧
    pack_varint 65536 = .ok [0xfe, 0, 0, 1, 0] ∧
    pack_varint 4294967296 = .ok [0xff, 0, 0, 0, 0, 1, 0, 0, 0] := by decide

/-! ## C04 (the readers of packing.py; the transaction readers are in Props/Tx.lean) -/

theorem read_varbytes_overflow (s : Bytes) :
    read_varbytes s = .error .overflowError ↔ ∃ n rest, read_varint s = .ok (n, rest) ∧ 2 ^ 63 ≤ n := by
  cases h : read_varint s with
  | error e =>
    simp only [read_varbytes, h, error_bind', Except.error.injEq, reduceCtorEq, false_and, exists_false, iff_false]
    rintro rfl
    have := read_varint_onlyStructError _ _ h
    cases this
  | ok x =>
    obtain ⟨n, rest⟩ := x
    simp only [read_varbytes, h, ok_bind', Except.ok.injEq, Prod.mk.injEq]
    by_cases hn : n ≥ 2 ^ 63
    · simp only [hn, if_true, true_iff]
      exact ⟨n, rest, ⟨rfl, rfl⟩, hn⟩
    · simp only [hn, if_false]
      constructor
      · intro h1
        split at h1 <;> cases h1
      · rintro ⟨m, r, ⟨rfl, rfl⟩, hm⟩
        exact absurd hm hn

/-- Every reader of packing.py reads exactly what it needs or raises `struct.error`; or `OverflowError`, if and only if it
comes upon bytes with a length of 2^63 or more. -/
theorem C04_packing_readers :
    (∀ r ∈ [read_le_int32, read_le_int64, read_le_uint16, read_le_uint32, read_le_uint64,
        read_be_uint16, read_be_uint32, read_be_uint64, read_varint],
      ReadsExactly r ∧ OnlyStructError r) ∧
    (ReadsExactly read_varbytes ∧ OnlyReadError read_varbytes) ∧
    (∀ s, read_varbytes s = .error .overflowError ↔ ∃ n rest, read_varint s = .ok (n, rest) ∧ 2 ^ 63 ≤ n) ∧
    (∀ (α : Type) (r : Reader α), ReadsExactly r → ReadsExactly (read_list r)) ∧
    (∀ (α : Type) (r : Reader α), OnlyStructError r → OnlyStructError (read_list r)) ∧
    (∀ (α : Type) (r : Reader α), OnlyReadError r → OnlyReadError (read_list r)) := by
  refine ⟨?_, ⟨read_varbytes_readsExactly, read_varbytes_onlyReadError⟩, read_varbytes_overflow,
    fun _ _ => read_list_readsExactly, fun _ _ => read_list_onlyStructError, fun _ _ => read_list_onlyReadError⟩
  intro r hr
  simp only [List.mem_cons, List.not_mem_nil, or_false] at hr
  rcases hr with rfl | rfl | rfl | rfl | rfl | rfl | rfl | rfl | rfl
  · exact ⟨readFixed_readsExactly (widthChecked_unpackS 4), readFixed_onlyStructError (widthChecked_unpackS 4)⟩
  · exact ⟨readFixed_readsExactly (widthChecked_unpackS 8), readFixed_onlyStructError (widthChecked_unpackS 8)⟩
  · exact ⟨readFixed_readsExactly (widthChecked_unpackU 2), readFixed_onlyStructError (widthChecked_unpackU 2)⟩
  · exact ⟨readFixed_readsExactly (widthChecked_unpackU 4), readFixed_onlyStructError (widthChecked_unpackU 4)⟩
  · exact ⟨readFixed_readsExactly (widthChecked_unpackU 8), readFixed_onlyStructError (widthChecked_unpackU 8)⟩
  · exact ⟨readFixed_readsExactly (widthChecked_unpackUBE 2), readFixed_onlyStructError (widthChecked_unpackUBE 2)⟩
  · exact ⟨readFixed_readsExactly (widthChecked_unpackUBE 4), readFixed_onlyStructError (widthChecked_unpackUBE 4)⟩
  · exact ⟨readFixed_readsExactly (widthChecked_unpackUBE 8), readFixed_onlyStructError (widthChecked_unpackUBE 8)⟩
  · exact ⟨read_varint_readsExactly, read_varint_onlyStructError⟩

/-- The readers do return values (so the statement above is not vacuous), and a truncated stream
raises. -/
example : read_list read_varbytes [2, 1, 7, 2, 8, 9, 42] = .ok ([[7], [8, 9]], [42]) ∧
    read_list read_varbytes [2, 1, 7, 2, 8] = .error .structError := by decide

/-! ## C05 -/

/-- `read_varbytes` inverts `pack_varbytes` in front of any bytes; `pack_varbytes` is the data
preceded by its length. -/
theorem C05_varbytes (d : Bytes) (h : d.length < 2 ^ 63) :
    ∃ b, pack_varbytes d = .ok b ∧ (∀ rest, read_varbytes (b ++ rest) = .ok (d, rest)) ∧
      ∃ n, varint_len d.length = .ok n ∧ b.length = n + d.length ∧ d <:+ b := by
  obtain ⟨b, hb, hv, hr⟩ := pack_varbytes_ok d (by omega)
  obtain ⟨b', hb', hl, _, _⟩ := pack_varint_ok d.length (by omega)
  rw [hv] at hb'; cases hb'
  exact ⟨b ++ d, hb, hr h, b.length, hl, by simp, List.suffix_append _ _⟩

/-- `read_list` inverts `pack_list` in front of any bytes whenever the element reader inverts the
element packer on the items. -/
theorem C05_list {α : Type} (pack_one : α → Res Bytes) (read_one : Reader α) (items : List α)
    (hl : items.length < 2 ^ 64) (h : InvertsOn pack_one read_one items) :
    ∃ b, pack_list items pack_one = .ok b ∧
      ∀ rest, read_list read_one (b ++ rest) = .ok (items, rest) :=
  pack_list_ok hl h

/-- The hypotheses of `C05_list` are met by lists of byte strings. -/
example (items : List Bytes) (hl : items.length < 2 ^ 64) (h : ∀ x ∈ items, x.length < 2 ^ 63) :
    ∃ b, pack_list items pack_varbytes = .ok b ∧
      ∀ rest, read_list read_varbytes (b ++ rest) = .ok (items, rest) :=
  C05_list _ _ items hl fun x hx => by
    obtain ⟨b, hb, hr, _⟩ := C05_varbytes x (h x hx)
    exact ⟨b, hb, hr⟩

/-! ## C73 -/

/-- Splitting into chunks: concatenation gives the items back, every chunk but the last has exactly
`size` items, the last has between 1 and `size`; there are `ceil(len/size)` of them. -/
theorem C73_chunks {α : Type} (items : List α) (size : Nat) (hs : 0 < size) :
    ∃ cs, chunks items size = .ok cs ∧ cs.flatten = items ∧
      (∀ c ∈ cs.dropLast, c.length = size) ∧ (∀ c ∈ cs, 1 ≤ c.length ∧ c.length ≤ size) ∧
      cs.length = (items.length + size - 1) / size := by
  have hne : size ≠ 0 := hs.ne'
  refine ⟨_, by simp only [chunks, if_neg hne]; rfl, ?_, ?_, ?_, by simp⟩
  · -- concatenation
    have key : ∀ n, ((List.range n).map fun k => slice items (k * size) (k * size + size)).flatten
        = items.take (n * size) := by
      intro n
      induction n with
      | zero => simp
      | succ n ih =>
        rw [List.range_succ, List.map_append, List.flatten_append, ih]
        simp only [List.map_cons, List.map_nil, List.flatten_cons, List.flatten_nil,
          List.append_nil, slice]
        rw [show (n + 1) * size = n * size + size by ring, List.drop_take,
          Nat.add_sub_cancel_left, List.take_add]
    rw [key, List.take_of_length_le]
    have := Nat.div_add_mod (items.length + size - 1) size
    have := Nat.mod_lt (items.length + size - 1) hs
    rw [Nat.mul_comm]; omega
  · intro c hc
    rw [← List.map_dropLast, List.mem_map] at hc
    obtain ⟨k, hk, rfl⟩ := hc
    have hk' : k + 1 < (items.length + size - 1) / size := by
      have : (List.range ((items.length + size - 1) / size)).dropLast
          = List.range ((items.length + size - 1) / size - 1) := by
        cases (items.length + size - 1) / size with
        | zero => rfl
        | succ n => simp [List.range_succ]
      rw [this, List.mem_range] at hk; omega
    have h2 : (k + 1 + 1) * size ≤ items.length + size - 1 :=
      (Nat.le_div_iff_mul_le hs).1 hk'
    have : (k + 1 + 1) * size = k * size + size + size := by ring
    simp only [slice, List.length_drop, List.length_take]
    omega
  · intro c hc
    rw [List.mem_map] at hc
    obtain ⟨k, hk, rfl⟩ := hc
    rw [List.mem_range] at hk
    have h2 : (k + 1) * size ≤ items.length + size - 1 := (Nat.le_div_iff_mul_le hs).1 hk
    have : (k + 1) * size = k * size + size := by ring
    simp only [slice, List.length_drop, List.length_take]
    omega

/-- `size = 0` raises `ValueError`. -/
theorem C73_chunks_zero {α : Type} (items : List α) : chunks items 0 = .error .valueError := by
  simp [chunks]

example : chunks [1, 2, 3, 4, 5] 2 = .ok [[1, 2], [3, 4], [5]] := by decide

end Bitcoinx
