import Verif.Lemmas.StorageKeys
import Verif.Props.Storage

/-! # Property C94: the keys of the headers file -/

namespace Bitcoinx
open Spec

/-- A slice takes the positions a list of that length would give, in that order.  It is the list of
the headers there, and raises `MissingHeader` if one of them was never set. -/
theorem C94_slice (st : Storage) (n : Nat) (h : st.len = .ok (n : Int))
    (start stop step : Option Int) (h0 : step ≠ some 0) :
    ∃ is, SliceSelects n start stop (step.getD 1) is ∧
      (∀ raws, List.Forall₂ (fun (i : Nat) raw => st.get i = .ok raw) is raws →
        st.getitem (.slice start stop step) = .ok (.many raws)) ∧
      (∀ i ∈ is, ∀ e, st.get (i : Int) = .error e →
        st.getitem (.slice start stop step) = .error .missingHeader) := by
  have h1 : step.getD 1 ≠ 0 := by
    cases step with
    | none => simp
    | some s => simpa using h0
  obtain ⟨a, b, s, is, e1, e2, e3⟩ := slice_indices_selects n start stop step h1
  refine ⟨is, e3, fun raws hr => ?_, fun i hi e he => ?_⟩
  · simp only [Storage.getitem, h, ok_bind', e1, e2, Storage.headers_ok st is raws hr, pure_ok']
  · simp only [Storage.getitem, h, ok_bind', e1, e2, Storage.headers_error st is i e hi he,
      error_bind']

theorem pairwise_ext_mem {r : Nat → Nat → Prop} (hirr : ∀ x, ¬ r x x) (hasym : ∀ x y, r x y → ¬ r y x)
    (l₁ l₂ : List Nat) (h1 : l₁.Pairwise r) (h2 : l₂.Pairwise r) (h : ∀ i, i ∈ l₁ ↔ i ∈ l₂) :
    l₁ = l₂ := by
  induction l₁ generalizing l₂ with
  | nil =>
    cases l₂ with
    | nil => rfl
    | cons y ys => exact absurd ((h y).mpr (by simp)) (by simp)
  | cons x xs ih =>
    cases l₂ with
    | nil => exact absurd ((h x).mp (by simp)) (by simp)
    | cons y ys =>
      rw [List.pairwise_cons] at h1 h2
      have hxy : x = y := by
        rcases List.mem_cons.mp ((h x).mp (by simp)) with g | g
        · exact g
        · rcases List.mem_cons.mp ((h y).mpr (by simp)) with g' | g'
          · exact g'.symm
          · exact absurd (h1.1 y g') (hasym _ _ (h2.1 x g))
      subst hxy
      congr 1
      refine ih ys h1.2 h2.2 fun i => ?_
      constructor
      · intro hi
        rcases List.mem_cons.mp ((h i).mp (by simp [hi])) with g | g
        · subst g; exact absurd (h1.1 i hi) (hirr i)
        · exact g
      · intro hi
        rcases List.mem_cons.mp ((h i).mpr (by simp [hi])) with g | g
        · subst g; exact absurd (h2.1 i hi) (hirr i)
        · exact g

/-- The description of the positions leaves no choice. -/
theorem C94_positions_unique (n : Nat) (start stop : Option Int) (step : Int) (is js : List Nat)
    (h1 : SliceSelects n start stop step is) (h2 : SliceSelects n start stop step js) : is = js := by
  unfold SliceSelects at h1 h2
  split at h1
  · next hs =>
    rw [if_pos hs] at h2
    exact pairwise_ext_mem (fun x => lt_irrefl x) (fun x y h => lt_asymm h) _ _ h1.1 h2.1
      fun i => (h1.2 i).trans (h2.2 i).symm
  · next hs =>
    rw [if_neg hs] at h2
    exact pairwise_ext_mem (r := (· > ·)) (fun x => lt_irrefl x) (fun x y h => lt_asymm h) _ _ h1.1 h2.1
      fun i => (h1.2 i).trans (h2.2 i).symm

/-- Reading positions `is` of a storage that holds the headers `hs`. -/
theorem slice_of_positions (st : Storage) (hs : List Bytes) (h : st.len = .ok (hs.length : Int))
    (hg : ∀ (i : Nat) (hi : i < hs.length), st.get i = .ok hs[i]) (start stop step : Option Int)
    (h0 : step ≠ some 0) (is : List Nat)
    (hsel : SliceSelects hs.length start stop (step.getD 1) is) (raws : List Bytes)
    (hr : raws.map some = is.map fun i => hs[i]?) :
    st.getitem (.slice start stop step) = .ok (.many raws) := by
  obtain ⟨js, h1, h2, h3⟩ := C94_slice st hs.length h start stop step h0
  obtain rfl := C94_positions_unique _ _ _ _ _ _ hsel h1
  refine h2 raws ?_
  clear h3 h2 h1 hsel
  induction is generalizing raws with
  | nil => cases raws with
    | nil => exact .nil
    | cons => simp at hr
  | cons i is ih => cases raws with
    | nil => simp at hr
    | cons r rs =>
      simp only [List.map_cons, List.cons.injEq] at hr
      refine .cons ?_ (ih rs hr.2)
      obtain ⟨hi, e⟩ := List.getElem?_eq_some_iff.mp hr.1.symm
      rw [hg i hi, e]

/-- For a storage that holds the headers `hs` without holes: `storage[:]` is `hs`, `storage[::-1]` is
`hs` reversed, `storage[a:b]` are the headers from `a` up to `b`, and `storage[-k:]` the last `k`. -/
theorem C94_whole (st : Storage) (hs : List Bytes) (h : st.len = .ok (hs.length : Int))
    (hg : ∀ (i : Nat) (hi : i < hs.length), st.get i = .ok hs[i]) :
    st.getitem (.slice none none none) = .ok (.many hs) ∧
    st.getitem (.slice none none (some (-1))) = .ok (.many hs.reverse) ∧
    (∀ a b : Nat, st.getitem (.slice (some a) (some b) none) = .ok (.many ((hs.take b).drop a))) ∧
    (∀ k : Nat, 0 < k → st.getitem (.slice (some (-(k : Int))) none none) =
      .ok (.many (hs.drop (hs.length - k)))) := by
  have up : ∀ (start stop : Option Int) (a b : Nat), b ≤ hs.length →
      (∀ i : Nat, a ≤ i ∧ i < b ↔ i < hs.length ∧ max 0 (position hs.length (start.getD 0)) ≤ i ∧
        (∀ x ∈ stop, (i : Int) < position hs.length x)) →
      st.getitem (.slice start stop none) = .ok (.many ((hs.take b).drop a)) := by
    intro start stop a b hb hiff
    refine slice_of_positions st hs h hg start stop none (by simp) (List.range' a (b - a)) ?_ _ ?_
    · rw [SliceSelects, if_pos (by simp)]
      refine ⟨List.pairwise_lt_range', fun i => ?_⟩
      rw [List.mem_range'_1]
      have := hiff i
      simp only [Option.getD_none, one_dvd, and_true]
      rw [← this]; omega
    · refine List.ext_getElem? fun k => ?_
      simp only [List.getElem?_map, List.getElem?_drop, List.getElem?_range']
      by_cases hk : k < b - a
      · rw [List.getElem?_take_of_lt (by omega)]
        simp [hk]
        have : a + k < hs.length := by omega
        simp [this]
      · simp [hk]; omega
  refine ⟨?_, ?_, fun a b => ?_, fun k hk => ?_⟩
  · have := up none none 0 hs.length (le_refl _) (fun i => by simp [position])
    simpa using this
  · refine slice_of_positions st hs h hg none none (some (-1)) (by simp)
      (List.range hs.length).reverse ?_ _ ?_
    · rw [SliceSelects, if_neg (by simp)]
      refine ⟨?_, fun i => ?_⟩
      · rw [List.pairwise_reverse]; exact List.pairwise_lt_range
      · simp; omega
    · rw [List.map_reverse, List.map_reverse]
      congr 1
      refine List.ext_getElem? fun k => ?_
      simp only [List.getElem?_map, List.getElem?_range]
      by_cases hk : k < hs.length
      · simp [hk]
      · simp [hk]
  · have := up (some a) (some b) a (min b hs.length) (by omega) (fun i => by
      simp only [Option.getD_some, Option.mem_def, Option.some.injEq, forall_eq', position]
      rw [if_neg (by omega), if_neg (by omega)]; omega)
    rw [this]
    congr 2
    rcases Nat.le_total b hs.length with hb | hb
    · rw [min_eq_left hb]
    · rw [min_eq_right hb, List.take_of_length_le hb, List.take_length]
  · have := up (some (-(k : Int))) none (hs.length - k) hs.length (by omega) (fun i => by
      simp only [Option.getD_some, Option.mem_def, position]
      rw [if_pos (by omega)]
      simp; omega)
    rw [this, List.take_length]

/-- A zero step raises `ValueError`; a key that is neither an integer nor a slice `TypeError`, and a
slice cannot be assigned to. -/
theorem C94_bad_keys (st : Storage) (n : Nat) (h : st.len = .ok (n : Int)) (start stop step : Option Int)
    (raw : Bytes) :
    st.getitem (.slice start stop (some 0)) = .error .valueError ∧
    st.getitem .other = .error .typeError ∧
    st.setitem .other raw = (st, .error .typeError) ∧
    st.setitem (.slice start stop step) raw = (st, .error .typeError) := by
  refine ⟨?_, rfl, rfl, rfl⟩
  simp only [Storage.getitem, h, ok_bind']
  rfl

/-- After creation and any sequence of writes an integer from the length upwards raises
`MissingHeader` (not `IndexError`, as a list would). -/
theorem C94_above (cp : CheckPoint) (hl : cp.raw_header.length = 80)
    (hne : cp.raw_header ≠ zeros 80) (hh : cp.height + 1 < 2 ^ 32) (ws : List (Nat × Bytes))
    (hws : ∀ w ∈ ws, w.2.length = 80 ∧ w.1 + 1 < 2 ^ 32) (st : Storage) (n i : Nat)
    (hst : (Storage.created cp).writes ws = (st, .ok ())) (hn : st.len = .ok (n : Int)) (hi : n ≤ i) :
    st.getitem (.int i) = .error .missingHeader := by
  obtain ⟨st', h1, h2, h3, _⟩ := C21_persistent_array cp hl hne hh ws hws
  rw [hst] at h1
  cases h1
  rw [hn] at h2
  have h2' : n = ws.foldl (fun n w => max n (w.1 + 1)) (cp.height + 1) := by
    injection h2 with h2; exact_mod_cast h2
  have hfold : ∀ (ws : List (Nat × Bytes)) (a : Nat),
      a ≤ ws.foldl (fun n w => max n (w.1 + 1)) a ∧
      ∀ w ∈ ws, w.1 + 1 ≤ ws.foldl (fun n w => max n (w.1 + 1)) a := by
    intro ws
    induction ws with
    | nil => intro a; simp
    | cons v vs ih =>
      intro a
      obtain ⟨g1, g2⟩ := ih (max a (v.1 + 1))
      simp only [List.foldl_cons]
      refine ⟨by omega, fun w hw => ?_⟩
      rcases List.mem_cons.mp hw with rfl | hw
      · omega
      · exact g2 w hw
  obtain ⟨g1, g2⟩ := hfold ws (cp.height + 1)
  have hlat : latest ws i = none := by
    simp only [latest, Option.map_eq_none_iff, List.find?_eq_none, List.mem_reverse]
    intro w hw
    have := g2 w hw
    simp; omega
  simp only [Storage.getitem, h3, expected, hlat]
  rw [if_neg (by omega)]
  rfl

/-- An integer below minus the length is not refused: `storage[-len-1]` raises `MissingHeader`, but
`storage[-len-m]` for `m ≥ 2` is read from the end of the file, out of step with the headers: 72
bytes of one header and 8 of the next. -/
theorem C94_below (st : Storage) (n cap m : Nat) (h : st.WF n cap) :
    (1 ≤ cap → st.getitem (.int (-(n + 1 : Nat))) = .error .missingHeader) ∧
    (2 ≤ m → m ≤ cap → st.getitem (.int (-(n + m : Nat))) =
      let raw := (st.slot (cap - m)).drop 8 ++ (st.slot (cap - m + 1)).take 8
      if raw = zeros 80 then .error .missingHeader else .ok (.one raw)) := by
  have hl := h.length
  have hget : ∀ m : Nat, 1 ≤ m → st.get (-(n + m : Nat)) = st.header (-(m : Int)) := by
    intro m hm
    rw [Storage.get, if_pos (by omega), h.len]
    simp only [ok_bind']
    congr 1; omega
  refine ⟨fun hc => ?_, fun hm hmc => ?_⟩
  · simp only [Storage.getitem, hget 1 (le_refl _)]
    have e : pySlice st.file (st.offset (-((1 : Nat) : Int))) (st.offset (-((1 : Nat) : Int)) + 80) = [] := by
      rw [h.offset_neg, pySlice, Storage.clipIndex_neg _ _ (by omega)]
      have : (8 - 80 * ((1 : Nat) : Int) + 80) = ((8 : Nat) : Int) := by omega
      rw [this, Storage.clipIndex_nat]
      simp only [slice, List.drop_eq_nil_iff, List.length_take]
      omega
    simp only [Storage.header, e, true_or, if_true]
    rfl
  · simp only [Storage.getitem, hget m (by omega)]
    have e : pySlice st.file (st.offset (-(m : Int))) (st.offset (-(m : Int)) + 80) =
        (st.slot (cap - m)).drop 8 ++ (st.slot (cap - m + 1)).take 8 := by
      rw [h.offset_neg, pySlice, Storage.clipIndex_neg _ _ (by omega),
        Storage.clipIndex_neg _ _ (by omega)]
      have e1 : (8 - 80 * (m : Int) + (st.file.length : Int)).toNat = 8 + 80 * (cap - m) + 8 := by omega
      have e2 : (8 - 80 * (m : Int) + 80 + (st.file.length : Int)).toNat =
          8 + 80 * (cap - m + 1) + 8 := by omega
      rw [e1, e2, Storage.slice_append_mid _ _ (8 + 80 * (cap - m) + 80) _ (by omega) (by omega)]
      congr 1
      · have := Storage.slice_slice st.file (8 + 80 * (cap - m)) (8 + 80 * (cap - m) + 80) 8 80 (by omega)
        rw [← this]
        simp only [slice, Storage.slot]
        rw [List.take_of_length_le (i := 80)]
        simp; omega
      · have := Storage.slice_slice st.file (8 + 80 * (cap - m + 1)) (8 + 80 * (cap - m + 1) + 80) 0 8 (by omega)
        rw [show 8 + 80 * (cap - m) + 80 = 8 + 80 * (cap - m + 1) + 0 by omega, ← this]
        simp only [slice, Storage.slot, List.drop_zero]
    have hlen : ((st.slot (cap - m)).drop 8 ++ (st.slot (cap - m + 1)).take 8).length = 80 := by
      simp only [List.length_append, List.length_drop, List.length_take, Storage.slot]
      rw [slice_length _ _ _ (by omega), slice_length _ _ _ (by omega)]
      omega
    have hne : (st.slot (cap - m)).drop 8 ++ (st.slot (cap - m + 1)).take 8 ≠ [] := by
      intro hc; rw [hc] at hlen; simp at hlen
    simp only [Storage.header, e, hne, false_or, empty_header]
    split <;> rfl

/-- For an index that is not negative, assignment is the write of `C21`. -/
theorem C94_set_nat (st : Storage) (i : Nat) (raw : Bytes) :
    st.setitem (.int i) raw = st.set_raw_header i raw :=
  Storage.set_raw_header_int_nat st i raw

/-- A negative index does not count from the end when assigning.  `storage[-1] = raw` raises
`IndexError`; `storage[-m] = raw` for `m ≥ 2` raises nothing and overwrites 80 bytes out of step with
the headers, counted from the end of the file: the last 72 bytes of one header and the first 8 of the
next.  Further down it is `IndexError` again. -/
theorem C94_set_negative (st : Storage) (n cap m : Nat) (h : st.WF n cap) (raw : Bytes)
    (hr : raw.length = 80) :
    (m = 1 ∨ cap < m → st.setitem (.int (-(m : Int))) raw = (st, .error .indexError)) ∧
    (2 ≤ m → m ≤ cap → ∃ st', st.setitem (.int (-(m : Int))) raw = (st', .ok ()) ∧
      st'.len = .ok (n : Int) ∧
      st'.slot (cap - m) = (st.slot (cap - m)).take 8 ++ raw.take 72 ∧
      st'.slot (cap - m + 1) = raw.drop 72 ++ (st.slot (cap - m + 1)).drop 8 ∧
      ∀ i, i ≠ cap - m → i ≠ cap - m + 1 → st'.slot i = st.slot i) := by
  have hl := h.length
  have hred : 1 ≤ m → st.setitem (.int (-(m : Int))) raw =
      match st.write_header_int (-(m : Int)) raw with
      | .error e => (st, .error e)
      | .ok st => (st, .ok ()) := by
    intro hm
    have hg : st.grow_int (-(m : Int)) = st := by
      rw [Storage.grow_int, if_neg]
      rw [h.offset_neg]; omega
    have hb : st.bump_count_int (-(m : Int)) = .ok st := by
      simp only [Storage.bump_count_int, h.len, ok_bind']
      rw [if_neg (by omega)]; rfl
    have hr' : ¬ raw.length ≠ 80 := by omega
    simp only [Storage.setitem, Storage.set_raw_header_int, hr', if_false, hg, hb]
    cases st.write_header_int (-(m : Int)) raw <;> rfl
  refine ⟨fun hm => ?_, fun hm hmc => ?_⟩
  · rw [hred (by omega)]
    have hw : st.write_header_int (-(m : Int)) raw = .error .indexError := by
      rw [Storage.write_header_int, h.offset_neg, mmapAssign, Storage.clipIndex_neg _ _ (by omega)]
      rw [if_neg]
      · rfl
      · rw [hr]
        rcases hm with rfl | hm
        · have : (8 - 80 * ((1 : Nat) : Int) + 80) = ((8 : Nat) : Int) := by omega
          rw [this, Storage.clipIndex_nat]
          omega
        · by_cases hm1 : m = 1
          · subst hm1
            have : (8 - 80 * ((1 : Nat) : Int) + 80) = ((8 : Nat) : Int) := by omega
            rw [this, Storage.clipIndex_nat]
            omega
          · rw [Storage.clipIndex_neg _ _ (by omega)]
            omega
    rw [hw]
  · rw [hred (by omega)]
    set P := 8 + 80 * (cap - m) + 8 with hP
    have hw : st.write_header_int (-(m : Int)) raw = .ok { st with file := writeAt st.file P raw } := by
      rw [Storage.write_header_int, h.offset_neg, mmapAssign, Storage.clipIndex_neg _ _ (by omega),
        Storage.clipIndex_neg _ _ (by omega)]
      have e1 : (8 - 80 * (m : Int) + (st.file.length : Int)).toNat = P := by omega
      have e2 : (8 - 80 * (m : Int) + 80 + (st.file.length : Int)).toNat = P + 80 := by omega
      simp only [e1, e2]
      rw [if_pos (by omega)]; rfl
    rw [hw]
    refine ⟨_, rfl, ?_, ?_, ?_, fun i h1 h2 => ?_⟩
    · rw [← h.len]
      unfold Storage.len
      rw [slice_writeAt_before _ _ _ _ _ (by omega) (by omega)]
    · simp only [Storage.slot]
      rw [Storage.slice_append_mid _ _ P _ (by omega) (by omega),
        slice_writeAt_before _ _ _ _ _ (by omega) (by omega)]
      congr 1
      · have := Storage.slice_slice st.file (8 + 80 * (cap - m)) (8 + 80 * (cap - m) + 80) 0 8 (by omega)
        rw [show P = 8 + 80 * (cap - m) + 8 by omega]
        simp only [Nat.add_zero] at this
        rw [← this]; simp [slice]
      · have h1 := slice_writeAt_same st.file P raw (by omega)
        have h2 := Storage.slice_slice (writeAt st.file P raw) P (P + raw.length) 0 72 (by omega)
        rw [h1] at h2
        rw [show 8 + 80 * (cap - m) + 80 = P + 72 by omega]
        simp only [Nat.add_zero] at h2
        rw [← h2]; simp [slice]
    · simp only [Storage.slot]
      rw [Storage.slice_append_mid _ _ (P + 80) _ (by omega) (by omega)]
      congr 1
      · have h1 := slice_writeAt_same st.file P raw (by omega)
        have h2 := Storage.slice_slice (writeAt st.file P raw) P (P + raw.length) 72 80 (by omega)
        rw [h1] at h2
        rw [show 8 + 80 * (cap - m + 1) = P + 72 by omega, ← h2]
        simp only [slice]
        rw [List.take_of_length_le (by omega)]
      · rw [slice_writeAt_after _ _ _ _ _ (by omega) (by omega)]
        have := Storage.slice_slice st.file (8 + 80 * (cap - m + 1)) (8 + 80 * (cap - m + 1) + 80) 8 80 (by omega)
        rw [show P + 80 = 8 + 80 * (cap - m + 1) + 8 by omega]
        rw [← this]
        simp only [slice]
        rw [List.take_of_length_le (i := 80)]
        simp; omega
    · simp only [Storage.slot]
      rcases Nat.lt_or_ge i (cap - m) with hi | hi
      · rw [slice_writeAt_before _ _ _ _ _ (by omega) (by omega)]
      · rw [slice_writeAt_after _ _ _ _ _ (by omega) (by omega)]

/-- A storage with a checkpoint at height 2 and headers at 0 and 1. -/
def threeHeaders : Storage :=
  ((Storage.created ⟨List.replicate 80 3, 2, 0⟩).writes
    [(0, List.replicate 80 1), (1, List.replicate 80 2)]).1

/-- The hypotheses of the theorems are met: slices read as from a list of three headers. -/
example :
    threeHeaders.len = .ok 3 ∧
    threeHeaders.getitem (.slice none none none) = .ok (.many
      [List.replicate 80 1, List.replicate 80 2, List.replicate 80 3]) ∧
    threeHeaders.getitem (.slice none none (some (-2))) = .ok (.many
      [List.replicate 80 3, List.replicate 80 1]) ∧
    threeHeaders.getitem (.slice (some (-2)) (some 100) none) = .ok (.many
      [List.replicate 80 2, List.replicate 80 3]) ∧
    threeHeaders.getitem (.int (-1)) = .ok (.one (List.replicate 80 3)) := by
  decide +kernel

example : SliceSelects 3 none none (-2) [2, 0] := by
  rw [SliceSelects, if_neg (by decide)]
  refine ⟨by simp, fun i => ?_⟩
  simp
  omega

theorem threeHeaders_wf : threeHeaders.WF 3 3 := by
  refine ⟨by decide +kernel, by decide +kernel, by decide +kernel, by decide +kernel, by omega,
    by decide⟩

/-- `storage[-5]` reads 72 bytes of header 1 and 8 of header 2; `storage[-2] = raw` changes both,
while `storage[-1] = raw` raises `IndexError`. -/
example :
    threeHeaders.getitem (.int (-5)) = .ok (.one (List.replicate 72 2 ++ List.replicate 8 3)) ∧
    threeHeaders.setitem (.int (-1)) (List.replicate 80 9) = (threeHeaders, .error .indexError) ∧
    (threeHeaders.setitem (.int (-2)) (List.replicate 80 9)).2 = .ok () ∧
    (threeHeaders.setitem (.int (-2)) (List.replicate 80 9)).1.get 1 =
      .ok (List.replicate 8 2 ++ List.replicate 72 9) ∧
    (threeHeaders.setitem (.int (-2)) (List.replicate 80 9)).1.get 2 =
      .ok (List.replicate 8 9 ++ List.replicate 72 3) := by
  decide +kernel

end Bitcoinx
