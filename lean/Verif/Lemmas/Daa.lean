import Verif.Model.Daa
import Verif.Props.Work
import Verif.Spec.Daa

namespace Bitcoinx
open Spec

theorem mapE_congr {α β : Type} {f g : α → Res β} {l : List α} (h : ∀ x ∈ l, f x = g x) :
    mapE f l = mapE g l := by
  induction l with
  | nil => rfl
  | cons x xs ih =>
    simp only [mapE, h x (by simp), ih (fun y hy => h y (by simp [hy]))]

theorem mapE_ok {α β : Type} {f : α → Res β} {l : List α} {P : α → β → Prop}
    (h : ∀ x ∈ l, ∃ y, f x = .ok y ∧ P x y) :
    ∃ ys, mapE f l = .ok ys ∧ List.Forall₂ P l ys := by
  induction l with
  | nil => exact ⟨[], rfl, .nil⟩
  | cons x xs ih =>
    obtain ⟨y, hy, hp⟩ := h x (by simp)
    obtain ⟨ys, hys, hps⟩ := ih (fun z hz => h z (by simp [hz]))
    exact ⟨y :: ys, by simp [mapE, hy, hys], .cons hp hps⟩

theorem mapE_eq_ok {α β : Type} {f : α → Res β} {l : List α} {ys : List β}
    (h : mapE f l = .ok ys) : List.Forall₂ (fun x y => f x = .ok y) l ys := by
  induction l generalizing ys with
  | nil => simp [mapE] at h; subst h; exact .nil
  | cons x xs ih =>
    simp only [mapE, bind_eq_ok, pure_ok', Except.ok.injEq] at h
    obtain ⟨y, hy, zs, hzs, rfl⟩ := h
    exact .cons hy (ih hzs)

theorem forall₂_imp {α β : Type} {P Q : α → β → Prop} {l : List α} {m : List β}
    (h : List.Forall₂ P l m) (hi : ∀ a b, P a b → Q a b) : List.Forall₂ Q l m := by
  induction h with
  | nil => exact .nil
  | cons hp _ ih => exact .cons (hi _ _ hp) ih

theorem mem_pyRange {a b x : Int} : x ∈ pyRange a b ↔ a ≤ x ∧ x < b := by
  simp only [pyRange, List.mem_map, List.mem_range]
  constructor
  · rintro ⟨k, hk, rfl⟩; omega
  · rintro ⟨h1, h2⟩; exact ⟨(x - a).toNat, by omega, by omega⟩

theorem mem_pyRangeDown {a b x : Int} : x ∈ pyRangeDown a b ↔ b < x ∧ x ≤ a := by
  simp only [pyRangeDown, List.mem_map, List.mem_range]
  constructor
  · rintro ⟨k, hk, rfl⟩; omega
  · rintro ⟨h1, h2⟩; exact ⟨(a - x).toNat, by omega, by omega⟩

theorem pyRange_length (a b : Int) : (pyRange a b).length = (b - a).toNat := by simp [pyRange]

theorem pyRangeDown_length (a b : Int) : (pyRangeDown a b).length = (a - b).toNat := by
  simp [pyRangeDown]

theorem pyRangeDown_cons (a b : Int) (h : b < a) : pyRangeDown a b = a :: pyRangeDown (a - 1) b := by
  have : (a - b).toNat = (a - 1 - b).toNat + 1 := by omega
  simp only [pyRangeDown, this, List.range_succ_eq_map, List.map_cons, List.map_map]
  congr 1
  · simp
  · apply List.map_congr_left
    intro k _
    simp; omega

theorem pyRangeDown_nil (a b : Int) (h : a ≤ b) : pyRangeDown a b = [] := by
  have : (a - b).toNat = 0 := by omega
  simp [pyRangeDown, this]

theorem unpack_header_ok (raw : Bytes) (h : raw.length = 80) :
    ∃ version timestamp bits nonce, unpack_header raw =
      .ok (version, slice raw 4 36, slice raw 36 68, timestamp, bits, nonce) ∧
      unpack_le_int32 (slice raw 0 4) = .ok version ∧
      unpack_le_uint32 (slice raw 68 72) = .ok timestamp ∧
      unpack_le_uint32 (slice raw 72 76) = .ok bits ∧
      unpack_le_uint32 (slice raw 76 80) = .ok nonce := by
  have hl : ∀ i j, i ≤ j → j ≤ 80 → (slice raw i j).length = j - i := by
    intro i j hij hj
    simp only [slice, List.length_drop, List.length_take]; omega
  obtain ⟨a, ha⟩ := (widthChecked_unpackS 4).1 (slice raw 0 4) (hl 0 4 (by omega) (by omega))
  obtain ⟨b, hb⟩ := (widthChecked_unpackU 4).1 (slice raw 68 72) (hl 68 72 (by omega) (by omega))
  obtain ⟨c, hc⟩ := (widthChecked_unpackU 4).1 (slice raw 72 76) (hl 72 76 (by omega) (by omega))
  obtain ⟨d, hd⟩ := (widthChecked_unpackU 4).1 (slice raw 76 80) (hl 76 80 (by omega) (by omega))
  refine ⟨a, b, c, d, ?_, ha, hb, hc, hd⟩
  unfold unpack_header
  rw [if_neg (by simp [h])]
  simp only [unpack_le_int32, unpack_le_uint32, ha, hb, hc, hd, ok_bind', pure_ok']

/-- Everything known about the deserialized form of an 80-byte header. -/
theorem deserialized_header_ok (H : Hashes) (raw : Bytes) (height : Int) (h : raw.length = 80) :
    ∃ hd : Header, deserialized_header H raw height = .ok hd ∧ hd.raw = raw ∧ hd.height = height ∧
      hd.hash = header_hash H raw ∧ hd.prev_hash = header_prev_hash raw ∧
      header_timestamp raw = .ok hd.timestamp ∧ header_bits raw = .ok hd.bits ∧
      hd.merkle_root = slice raw 36 68 ∧ unpack_le_int32 (slice raw 0 4) = .ok hd.version ∧
      unpack_le_uint32 (slice raw 76 80) = .ok hd.nonce := by
  obtain ⟨a, b, c, d, hu, h1, h2, h3, h4⟩ := unpack_header_ok raw h
  refine ⟨⟨a, slice raw 4 36, slice raw 36 68, b, c, d, header_hash H raw, raw, height⟩,
    by simp only [deserialized_header, hu, ok_bind', pure_ok'], rfl, rfl, rfl, rfl, h2, h3,
    rfl, h1, h4⟩

theorem deserialized_header_err (H : Hashes) (raw : Bytes) (height : Int) (h : raw.length ≠ 80) :
    deserialized_header H raw height = .error .structError := by
  simp [deserialized_header, unpack_header, h]

theorem deserialized_header_length {H : Hashes} {raw : Bytes} {height : Int} {hd : Header}
    (h : deserialized_header H raw height = .ok hd) : raw.length = 80 := by
  by_contra hc
  rw [deserialized_header_err H raw height hc] at h
  simp at h

theorem deserialized_header_fields {H : Hashes} {raw : Bytes} {height : Int} {hd : Header}
    (h : deserialized_header H raw height = .ok hd) :
    raw.length = 80 ∧ hd.raw = raw ∧ hd.height = height ∧ hd.hash = header_hash H raw ∧
      hd.prev_hash = header_prev_hash raw ∧ header_timestamp raw = .ok hd.timestamp ∧
      header_bits raw = .ok hd.bits := by
  have hl := deserialized_header_length h
  obtain ⟨hd', h', a, b, c, d, e, f, _⟩ := deserialized_header_ok H raw height hl
  rw [h] at h'; cases h'
  exact ⟨hl, a, b, c, d, e, f⟩

/-- Rounding of the minimum with `max_target`, the shape shared by the difficulty rules. -/
theorem round_min (N : Int) (M : Nat) (hN : 0 ≤ N) (hM : M < 2 ^ 256) :
    ∃ b r, target_to_bits (min N M) = .ok b ∧ bits_to_target b = .ok r ∧ (r : Int) ≤ min N M ∧
      (∀ r', Representable r' → (r' : Int) ≤ min N M → r' ≤ r) := by
  obtain ⟨b, r, h1, h2, h3, _, h5, _⟩ := (C12_rounds_down (min N M)).1 ⟨by omega, by omega⟩
  exact ⟨b, r, h1, h2, h3, h5⟩

theorem insertSorted_perm (x : Int) (l : List Int) : (insertSorted x l).Perm (x :: l) := by
  induction l with
  | nil => exact .refl _
  | cons y ys ih =>
    simp only [insertSorted]
    split
    · exact .refl _
    · exact (ih.cons y).trans (.swap _ _ _)

theorem insertSorted_pairwise (x : Int) (l : List Int) (h : l.Pairwise (· ≤ ·)) :
    (insertSorted x l).Pairwise (· ≤ ·) := by
  induction l with
  | nil => simp [insertSorted]
  | cons y ys ih =>
    rw [List.pairwise_cons] at h
    simp only [insertSorted]
    split
    · rw [List.pairwise_cons, List.pairwise_cons]
      refine ⟨?_, h⟩
      intro z hz
      rcases List.mem_cons.1 hz with rfl | hz
      · assumption
      · have := h.1 z hz; omega
    · rw [List.pairwise_cons]
      refine ⟨?_, ih h.2⟩
      intro z hz
      rw [(insertSorted_perm x ys).mem_iff] at hz
      rcases List.mem_cons.1 hz with rfl | hz
      · omega
      · exact h.1 z hz

theorem sorted_perm (l : List Int) : (sorted l).Perm l := by
  induction l with
  | nil => exact .refl _
  | cons x xs ih => exact (insertSorted_perm x _).trans (ih.cons x)

theorem sorted_pairwise (l : List Int) : (sorted l).Pairwise (· ≤ ·) := by
  induction l with
  | nil => exact .nil
  | cons x xs ih => exact insertSorted_pairwise x _ ih

theorem filter_split {α : Type} (f : α → Bool) (s : List α) (i : Nat) :
    s.filter f = (s.take i).filter f ++ (s.drop i).filter f := by
  rw [← List.filter_append, List.take_append_drop]

theorem sorted_upperMedian (l : List Int) (h : l ≠ []) :
    ∃ m, (sorted l)[l.length / 2]? = some m ∧ UpperMedian l m := by
  have hlen : (sorted l).length = l.length := (sorted_perm l).length_eq
  have hpos : 0 < l.length := List.length_pos_iff.2 h
  have hi : l.length / 2 < (sorted l).length := by omega
  have hp := sorted_pairwise l
  refine ⟨(sorted l)[l.length / 2], List.getElem?_eq_getElem hi, ?_⟩
  have hperm := sorted_perm l
  refine ⟨hperm.mem_iff.1 (List.getElem_mem hi), ?_, ?_⟩
  · rw [← (hperm.filter _).length_eq]
    generalize l.length / 2 = i at hi
    generalize sorted l = s at hi hp
    rw [filter_split _ s i]
    have : (s.drop i).filter (fun x => decide (x < s[i])) = [] := by
      rw [List.filter_eq_nil_iff]
      intro x hx
      simp only [decide_eq_true_eq, not_lt]
      rw [List.mem_drop_iff_getElem] at hx
      obtain ⟨j, hj, rfl⟩ := hx
      rcases Nat.eq_zero_or_pos j with rfl | hj0
      · simp
      · exact List.pairwise_iff_getElem.1 hp _ _ hi _ (by omega)
    rw [this]
    have := List.length_filter_le (fun x => decide (x < s[i])) (s.take i)
    simp only [List.length_append, List.length_nil, List.length_take] at *
    omega
  · rw [← (hperm.filter _).length_eq]
    generalize l.length / 2 = i at hi
    generalize sorted l = s at hi hp
    rw [filter_split _ s (i + 1)]
    have : (s.take (i + 1)).filter (fun x => decide (x ≤ s[i])) = s.take (i + 1) := by
      rw [List.filter_eq_self]
      intro x hx
      simp only [decide_eq_true_eq]
      rw [List.mem_take_iff_getElem] at hx
      obtain ⟨j, hj, rfl⟩ := hx
      rcases Nat.lt_or_ge j i with hj0 | hj0
      · exact List.pairwise_iff_getElem.1 hp _ _ (by omega) hi hj0
      · have : j = i := by omega
        subst this; exact le_refl _
    rw [this]
    simp only [List.length_append, List.length_take]
    omega

end Bitcoinx
