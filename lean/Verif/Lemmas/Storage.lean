import Verif.Model.Storage
import Verif.Lemmas.Packing
import Verif.Lemmas.Misc

namespace Bitcoinx

theorem slice_length {α : Type} (b : List α) (i j : Nat) (h : j ≤ b.length) :
    (slice b i j).length = j - i := by
  simp only [slice, List.length_drop, List.length_take]; omega

theorem writeAt_length (b : Bytes) (s : Nat) (d : Bytes) (h : s + d.length ≤ b.length) :
    (writeAt b s d).length = b.length := by
  simp only [writeAt, List.length_append, List.length_take, List.length_drop]; omega

theorem slice_writeAt_same (b : Bytes) (s : Nat) (d : Bytes) (h : s + d.length ≤ b.length) :
    slice (writeAt b s d) s (s + d.length) = d := by
  have hl : (b.take s).length = s := by rw [List.length_take]; omega
  unfold slice writeAt
  have h1 : (b.take s ++ d ++ b.drop (s + d.length)).take (s + d.length) = b.take s ++ d := by
    rw [List.take_append_of_le_length (by simp; omega)]
    rw [List.take_of_length_le (by simp)]
  rw [h1, List.drop_append_of_le_length (by omega), List.drop_of_length_le (by omega), List.nil_append]

theorem slice_writeAt_before (b : Bytes) (s i j : Nat) (d : Bytes) (hj : j ≤ s)
    (h : s + d.length ≤ b.length) : slice (writeAt b s d) i j = slice b i j := by
  unfold slice writeAt
  rw [List.append_assoc, List.take_append_of_le_length (by rw [List.length_take]; omega),
    List.take_take, min_eq_left hj]

theorem slice_writeAt_after (b : Bytes) (s i j : Nat) (d : Bytes) (hi : s + d.length ≤ i)
    (h : s + d.length ≤ b.length) : slice (writeAt b s d) i j = slice b i j := by
  unfold slice writeAt
  apply List.ext_getElem?
  intro k
  have hl : (b.take s ++ d).length = s + d.length := by simp; omega
  simp only [List.getElem?_drop, List.getElem?_take]
  split
  · rw [List.getElem?_append_right (by omega), hl, List.getElem?_drop]
    congr 1; omega
  · rfl

theorem slice_append_left {α : Type} (b c : List α) (i j : Nat) (h : j ≤ b.length) :
    slice (b ++ c) i j = slice b i j := by
  unfold slice; rw [List.take_append_of_le_length h]

theorem slice_append_right {α : Type} (b c : List α) (i j : Nat) (h : b.length ≤ i) :
    slice (b ++ c) i j = slice c (i - b.length) (j - b.length) := by
  unfold slice
  rw [List.take_append, List.drop_append]
  have : (b.take j).drop i = [] := List.drop_of_length_le (by rw [List.length_take]; omega)
  rw [this, List.nil_append, List.length_take]
  by_cases hj : b.length ≤ j
  · rw [min_eq_right hj]
  · have h0 : j - b.length = 0 := by omega
    rw [h0]; simp

theorem slice_zeros (n i j : Nat) (h : j ≤ n) : slice (zeros n) i j = zeros (j - i) := by
  simp [slice, zeros, min_eq_left h]

namespace Storage

/-- The file is well formed: `count` headers recorded, room for `cap`. -/
structure WF (st : Storage) (count cap : Nat) : Prop where
  reserved : st.reserved_size = 8
  head : slice st.file 0 4 = [8, 0, 0, 0]
  cnt : slice st.file 4 8 = leBytes 4 count
  length : st.file.length = 8 + 80 * cap
  count_le : count ≤ cap
  count_lt : count < 2 ^ 32

/-- The 80 bytes of slot `i`. -/
def slot (st : Storage) (i : Nat) : Bytes := slice st.file (8 + 80 * i) (8 + 80 * i + 80)

theorem WF.len {st : Storage} {n cap : Nat} (h : WF st n cap) : st.len = .ok (n : Int) := by
  unfold Storage.len
  rw [h.cnt]
  exact unpackU_leBytes 4 n (by have := h.count_lt; norm_num; omega)

theorem WF.offset {st : Storage} {n cap : Nat} (h : WF st n cap) (i : Nat) :
    st.offset i = ((8 + 80 * i : Nat) : Int) := by
  simp [Storage.offset, h.reserved]; omega

theorem clipIndex_nat (n i : Nat) : clipIndex n (i : Int) = min i n := by
  simp [clipIndex]

theorem WF.header_lt {st : Storage} {n cap : Nat} (h : WF st n cap) (i : Nat) (hi : i < cap) :
    st.header i = if st.slot i = empty_header then .error .missingHeader else .ok (st.slot i) := by
  have hl := h.length
  have e : pySlice st.file (st.offset i) (st.offset i + 80) = st.slot i := by
    rw [h.offset]
    have : ((8 + 80 * i : Nat) : Int) + 80 = ((8 + 80 * i + 80 : Nat) : Int) := by omega
    rw [this, pySlice, clipIndex_nat, clipIndex_nat, min_eq_left (by omega), min_eq_left (by omega)]
    rfl
  have hne : st.slot i ≠ [] := by
    intro hc
    have h1 : (st.slot i).length = 80 := by
      rw [slot, slice_length _ _ _ (by omega)]; omega
    rw [hc] at h1; simp at h1
  simp only [Storage.header, e, hne, false_or]

theorem WF.header_ge {st : Storage} {n cap : Nat} (h : WF st n cap) (i : Nat) (hi : cap ≤ i) :
    st.header i = .error .missingHeader := by
  have hl := h.length
  have e : pySlice st.file (st.offset i) (st.offset i + 80) = [] := by
    rw [h.offset]
    have : ((8 + 80 * i : Nat) : Int) + 80 = ((8 + 80 * i + 80 : Nat) : Int) := by omega
    rw [this, pySlice, clipIndex_nat, clipIndex_nat, min_eq_right (by omega), min_eq_right (by omega)]
    simp [slice]
  simp only [Storage.header, e, true_or, if_true]

theorem get_nat (st : Storage) (i : Nat) : st.get i = st.header i := by
  have : ¬ (i : Int) < 0 := by omega
  simp [Storage.get, this]

theorem WF.grow {st : Storage} {n cap : Nat} (h : WF st n cap) (idx : Nat) :
    ∃ cap', WF (st.grow idx) n cap' ∧ cap ≤ cap' ∧ idx < cap' ∧
      (∀ i, i < cap → (st.grow idx).slot i = st.slot i) ∧
      (∀ i, cap ≤ i → i < cap' → (st.grow idx).slot i = empty_header) := by
  have hl := h.length
  by_cases hc : st.offset idx ≥ st.file.length
  · have hidx : cap ≤ idx := by rw [h.offset, hl] at hc; omega
    have e : (st.offset (idx + 5000)).toNat - st.file.length = 80 * (idx + 5000 - cap) := by
      have := h.offset (idx + 5000)
      push_cast at this
      rw [this, hl]; omega
    have hg : st.grow idx = { st with file := st.file ++ zeros (80 * (idx + 5000 - cap)) } := by
      simp only [Storage.grow, hc, if_true, e]
    rw [hg]
    refine ⟨idx + 5000, ⟨h.reserved, ?_, ?_, ?_, ?_, h.count_lt⟩, by omega, by omega, ?_, ?_⟩
    · simp only []; rw [slice_append_left _ _ _ _ (by omega)]; exact h.head
    · simp only []; rw [slice_append_left _ _ _ _ (by omega)]; exact h.cnt
    · simp only [List.length_append, hl, zeros, List.length_replicate]; omega
    · have := h.count_le; omega
    · intro i hi
      simp only [slot]
      rw [slice_append_left _ _ _ _ (by omega)]
    · intro i hi1 hi2
      simp only [slot]
      rw [slice_append_right _ _ _ _ (by omega), slice_zeros _ _ _ (by omega), empty_header]
      congr 1; omega
  · have hidx : idx < cap := by rw [h.offset, hl] at hc; omega
    have hg : st.grow idx = st := by simp only [Storage.grow, hc, if_false]
    rw [hg]
    exact ⟨cap, h, le_refl _, hidx, fun _ _ => rfl, fun i h1 h2 => by omega⟩

theorem WF.bump {st : Storage} {n cap : Nat} (h : WF st n cap) (idx : Nat) (hidx : idx < cap)
    (hlt : idx + 1 < 2 ^ 32) :
    ∃ st', st.bump_count idx = .ok st' ∧ WF st' (max n (idx + 1)) cap ∧ (∀ i, st'.slot i = st.slot i) := by
  have hl := h.length
  by_cases hc : (idx : Int) ≥ n
  · have hp : pack_le_uint32 ((idx : Int) + 1) = .ok (leBytes 4 (idx + 1)) := by
      have := packU_ok 4 (idx + 1) (by norm_num; omega)
      push_cast at this; exact this
    have hlen4 : (leBytes 4 (idx + 1)).length = 4 := leBytes_length _ _
    refine ⟨{ st with file := writeAt st.file 4 (leBytes 4 (idx + 1)) }, ?_, ⟨h.reserved, ?_, ?_, ?_, ?_, ?_⟩, ?_⟩
    · simp only [Storage.bump_count, h.len, ok_bind', hc, if_true, Storage.set_count, hp, pure_ok']
    · simp only []; rw [slice_writeAt_before _ _ _ _ _ (by omega) (by omega)]; exact h.head
    · have := slice_writeAt_same st.file 4 (leBytes 4 (idx + 1)) (by omega)
      rw [hlen4] at this
      have hm : max n (idx + 1) = idx + 1 := by omega
      rw [hm]; exact this
    · simp only []; rw [writeAt_length _ _ _ (by omega), hl]
    · have := h.count_le; omega
    · have := h.count_lt; omega
    · intro i
      simp only [slot]
      rw [slice_writeAt_after _ _ _ _ _ (by omega) (by omega)]
  · refine ⟨st, ?_, ?_, fun _ => rfl⟩
    · simp only [Storage.bump_count, h.len, ok_bind', hc, if_false, pure_ok']
    · have : max n (idx + 1) = n := by omega
      rw [this]; exact h

theorem WF.write {st : Storage} {n cap : Nat} (h : WF st n cap) (idx : Nat) (raw : Bytes)
    (hidx : idx < cap) (hr : raw.length = 80) :
    ∃ st', st.write_header idx raw = .ok st' ∧ WF st' n cap ∧ st'.slot idx = raw ∧
      (∀ i, i ≠ idx → st'.slot i = st.slot i) := by
  have hl := h.length
  have hc : st.offset idx + 80 ≤ st.file.length := by rw [h.offset, hl]; omega
  have ho : (st.offset idx).toNat = 8 + 80 * idx := by rw [h.offset]; omega
  refine ⟨{ st with file := writeAt st.file (8 + 80 * idx) raw }, ?_, ⟨h.reserved, ?_, ?_, ?_, h.count_le, h.count_lt⟩, ?_, ?_⟩
  · simp only [Storage.write_header, hc, if_true, ho]
  · simp only []; rw [slice_writeAt_before _ _ _ _ _ (by omega) (by omega)]; exact h.head
  · simp only []; rw [slice_writeAt_before _ _ _ _ _ (by omega) (by omega)]; exact h.cnt
  · simp only []; rw [writeAt_length _ _ _ (by omega), hl]
  · have := slice_writeAt_same st.file (8 + 80 * idx) raw (by omega)
    rw [hr] at this; exact this
  · intro i hi
    simp only [slot]
    rcases Nat.lt_or_ge i idx with h1 | h1
    · rw [slice_writeAt_before _ _ _ _ _ (by omega) (by omega)]
    · rw [slice_writeAt_after _ _ _ _ _ (by omega) (by omega)]

/-- Everything about one write. -/
theorem WF.set {st : Storage} {n cap : Nat} (h : WF st n cap) (idx : Nat) (raw : Bytes)
    (hr : raw.length = 80) (hlt : idx + 1 < 2 ^ 32) :
    ∃ st' cap', st.set_raw_header idx raw = (st', .ok ()) ∧ WF st' (max n (idx + 1)) cap' ∧
      cap ≤ cap' ∧ idx < cap' ∧ st'.slot idx = raw ∧
      (∀ i, i ≠ idx → i < cap → st'.slot i = st.slot i) ∧
      (∀ i, i ≠ idx → cap ≤ i → i < cap' → st'.slot i = empty_header) := by
  obtain ⟨cap', h1, h2, h3, h4, h5⟩ := h.grow idx
  obtain ⟨st2, h6, h7, h8⟩ := h1.bump idx h3 hlt
  obtain ⟨st3, h9, h10, h11, h12⟩ := h7.write idx raw h3 hr
  refine ⟨st3, cap', ?_, h10, h2, h3, h11, ?_, ?_⟩
  · have : ¬ raw.length ≠ 80 := by omega
    simp only [Storage.set_raw_header, this, if_false, h6, h9]
  · intro i hi hic
    rw [h12 i hi, h8, h4 i hic]
  · intro i hi hi1 hi2
    rw [h12 i hi, h8, h5 i hi1 hi2]

theorem WF.get_set {st : Storage} {n cap : Nat} (h : WF st n cap) (idx : Nat) (raw : Bytes)
    (hr : raw.length = 80) (hlt : idx + 1 < 2 ^ 32) :
    ∃ st' cap', st.set_raw_header idx raw = (st', .ok ()) ∧ WF st' (max n (idx + 1)) cap' ∧
      (raw ≠ empty_header → st'.get idx = .ok raw) ∧
      (raw = empty_header → st'.get idx = .error .missingHeader) ∧
      (∀ i : Nat, i ≠ idx → st'.get i = st.get i) := by
  obtain ⟨st', cap', h1, h2, h3, h4, h5, h6, h7⟩ := h.set idx raw hr hlt
  refine ⟨st', cap', h1, h2, ?_, ?_, ?_⟩
  · intro hne
    rw [get_nat, h2.header_lt idx h4, h5, if_neg hne]
  · intro he
    rw [get_nat, h2.header_lt idx h4, h5, if_pos he]
  · intro i hi
    rw [get_nat, get_nat]
    rcases Nat.lt_or_ge i cap with hc | hc
    · rw [h2.header_lt i (by omega), h.header_lt i hc, h6 i hi hc]
    · rw [h.header_ge i hc]
      rcases Nat.lt_or_ge i cap' with hc' | hc'
      · rw [h2.header_lt i hc', h7 i hi hc hc', if_pos rfl]
      · rw [h2.header_ge i hc']

theorem WF.get_ge {st : Storage} {n cap : Nat} (h : WF st n cap) (i : Nat) (hi : cap ≤ i) :
    st.get i = .error .missingHeader := by rw [get_nat, h.header_ge i hi]

theorem WF.get_length {st : Storage} {n cap : Nat} (h : WF st n cap) (i : Nat) (raw : Bytes)
    (hg : st.get i = .ok raw) : raw.length = 80 ∧ raw ≠ empty_header := by
  rw [get_nat] at hg
  rcases Nat.lt_or_ge i cap with hc | hc
  · rw [h.header_lt i hc] at hg
    split at hg
    · simp at hg
    · next hne =>
      cases hg
      have hl := h.length
      exact ⟨by rw [slot, slice_length _ _ _ (by omega)]; omega, hne⟩
  · rw [h.header_ge i hc] at hg; simp at hg

/-- The file made by `_create_file`. -/
theorem create_file_ok (cp : CheckPoint) (hl : cp.raw_header.length = 80)
    (hh : cp.height + 1 < 2 ^ 32) :
    ∃ f, create_file cp = (f, .ok ()) ∧ WF { file := f, reserved_size := 8 } (cp.height + 1) (cp.height + 1) ∧
      slot { file := f, reserved_size := 8 } cp.height = cp.raw_header ∧
      (∀ i, i < cp.height → slot { file := f, reserved_size := 8 } i = empty_header) := by
  have h1 : pack_le_uint16 8 = .ok [8, 0] := by decide
  have h2 : pack_le_uint16 0 = .ok [0, 0] := by decide
  have h3 : pack_le_uint32 ((cp.height : Int) + 1) = .ok (leBytes 4 (cp.height + 1)) := by
    have := packU_ok 4 (cp.height + 1) (by norm_num; omega)
    push_cast at this; exact this
  have hne : cp.raw_header ≠ [] := by intro hc; rw [hc] at hl; simp at hl
  have h4 : (leBytes 4 (cp.height + 1)).length = 4 := leBytes_length _ _
  have hc : create_file cp = ([8, 0] ++ [0, 0] ++ leBytes 4 (cp.height + 1) ++
      zeros (cp.height * 80) ++ cp.raw_header, .ok ()) := by
    have hp : pack_reserved ((cp.height : Int) + 1) =
        .ok ([8, 0] ++ [0, 0] ++ leBytes 4 (cp.height + 1)) := by
      unfold pack_reserved
      rw [h1, h2, h3]
      rfl
    unfold create_file
    rw [hp]
    simp only [write_new_file]
    rw [if_neg hne]
  have e0 : slice ([8, 0] ++ [0, 0] ++ leBytes 4 (cp.height + 1)) 0 4 = [8, 0, 0, 0] := rfl
  have e1 : slice ([8, 0] ++ [0, 0] ++ leBytes 4 (cp.height + 1)) 4 8 = leBytes 4 (cp.height + 1) := by
    rw [slice_append_right _ _ _ _ (by decide)]
    have : leBytes 4 (cp.height + 1) = slice (leBytes 4 (cp.height + 1)) 0 4 := by
      rw [slice, List.take_of_length_le (by omega), List.drop_zero]
    exact this.symm
  have e2 : ([8, 0] ++ [0, 0] ++ leBytes 4 (cp.height + 1)).length = 8 := by
    rw [List.length_append, h4]; rfl
  generalize [8, 0] ++ [0, 0] ++ leBytes 4 (cp.height + 1) = hd at hc e0 e1 e2
  have e3 : (zeros (cp.height * 80)).length = 80 * cp.height := by
    rw [zeros, List.length_replicate, Nat.mul_comm]
  refine ⟨_, hc, ⟨rfl, ?_, ?_, ?_, le_refl _, hh⟩, ?_, ?_⟩
  · rw [List.append_assoc, slice_append_left _ _ _ _ (by omega), e0]
  · rw [List.append_assoc, slice_append_left _ _ _ _ (by omega), e1]
  · simp only [List.length_append, e2, e3, hl]; omega
  · simp only [slot]
    have e4 : (hd ++ zeros (cp.height * 80)).length = 8 + 80 * cp.height := by
      rw [List.length_append, e2, e3]
    rw [slice_append_right _ _ _ _ (by omega), e4, Nat.sub_self, Nat.add_sub_cancel_left, slice,
      List.take_of_length_le (by omega), List.drop_zero]
  · intro i hi
    simp only [slot]
    rw [slice_append_left _ _ _ _ (by rw [List.length_append, e2, e3]; omega),
      slice_append_right _ _ _ _ (by omega), slice_zeros _ _ _ (by omega), empty_header,
      show 8 + 80 * i + 80 - hd.length - (8 + 80 * i - hd.length) = 80 by omega]

theorem WF.open {st : Storage} {n cap : Nat} (h : WF st n cap) (cp : CheckPoint)
    (hcp : st.get cp.height = .ok cp.raw_header) :
    open_file (some st.file) cp = .ok st ∧ open_or_create (some st.file) cp = (some st.file, .ok st) := by
  have hl := h.length
  have hne : st.file ≠ [] := by intro hc; rw [hc] at hl; simp at hl; omega
  have h8 : st.file.length ≥ 8 := by omega
  have hs : ∀ i j, j ≤ 4 → slice st.file i j = slice [8, 0, 0, 0] i j := by
    intro i j hj
    rw [← h.head]
    simp only [slice, List.drop_zero, List.take_take, min_eq_left hj]
  have e1 : unpack_le_uint16 (slice st.file 0 2) = .ok 8 := by rw [hs 0 2 (by omega)]; decide
  have e2 : unpack_le_uint16 (slice st.file 2 4) = .ok 0 := by rw [hs 2 4 (by omega)]; decide
  have est : ({ file := st.file, reserved_size := (8 : Int).toNat } : Storage) = st := by
    have := h.reserved
    cases st; simp at this; subst this; rfl
  have h1 : open_file (some st.file) cp = .ok st := by
    simp only [open_file, hne, if_false, h8, if_true, e1, e2, ok_bind', est, hcp, pure_ok']
  exact ⟨h1, by simp only [open_or_create, h1]⟩

end Storage

end Bitcoinx
