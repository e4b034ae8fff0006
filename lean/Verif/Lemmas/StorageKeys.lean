import Verif.Lemmas.Storage
import Verif.Model.StorageKeys
import Verif.Spec.StorageKeys
import Mathlib.Data.List.Basic
import Mathlib.Tactic.Ring
import Mathlib.Tactic.Linarith

/-! # Lemmas about the keys of the headers file -/

namespace Bitcoinx
open Spec

/-- Members of an ascending range. -/
theorem mem_py_range_pos (a b s x : Int) (hs : 0 < s) :
    x ∈ py_range a b s ↔ a ≤ x ∧ x < b ∧ s ∣ x - a := by
  simp only [py_range, range_length, hs, if_true, List.mem_map, List.mem_range]
  constructor
  · rintro ⟨k, hk, rfl⟩
    split at hk
    · next hab =>
      have h0 : 0 ≤ (b - a - 1) / s := Int.ediv_nonneg (by omega) (by omega)
      have h1 : (k : Int) ≤ (b - a - 1) / s := by omega
      have h2 : (k : Int) * s ≤ b - a - 1 := (Int.le_ediv_iff_mul_le hs).mp h1
      have h3 : 0 ≤ (k : Int) * s := by positivity
      exact ⟨by omega, by omega, ⟨k, by ring⟩⟩
    · omega
  · rintro ⟨h1, h2, k, hk⟩
    have hk0 : 0 ≤ k := by
      by_contra hc
      have : s * k < 0 := mul_neg_of_pos_of_neg hs (by omega)
      omega
    refine ⟨k.toNat, ?_, ?_⟩
    · rw [if_pos (by omega)]
      have : k ≤ (b - a - 1) / s := (Int.le_ediv_iff_mul_le hs).mpr (by rw [mul_comm]; omega)
      omega
    · rw [Int.toNat_of_nonneg hk0, mul_comm]; omega

/-- Members of a descending range. -/
theorem mem_py_range_neg (a b s x : Int) (hs : s < 0) :
    x ∈ py_range a b s ↔ x ≤ a ∧ b < x ∧ s ∣ a - x := by
  have hs' : ¬ 0 < s := by omega
  simp only [py_range, range_length, hs', gt_iff_lt, if_false, List.mem_map, List.mem_range]
  constructor
  · rintro ⟨k, hk, rfl⟩
    split at hk
    · next hab =>
      have h0 : 0 ≤ (a - b - 1) / (-s) := Int.ediv_nonneg (by omega) (by omega)
      have h1 : (k : Int) ≤ (a - b - 1) / (-s) := by omega
      have h2 : (k : Int) * (-s) ≤ a - b - 1 := (Int.le_ediv_iff_mul_le (by omega)).mp h1
      have h3 : 0 ≤ (k : Int) * (-s) := mul_nonneg (by omega) (by omega)
      have h4 : (k : Int) * (-s) = -(k * s) := by ring
      exact ⟨by omega, by omega, ⟨-k, by ring⟩⟩
    · omega
  · rintro ⟨h1, h2, k, hk⟩
    have hk0 : k ≤ 0 := by
      by_contra hc
      have : s * k < 0 := mul_neg_of_neg_of_pos hs (by omega)
      omega
    refine ⟨(-k).toNat, ?_, ?_⟩
    · rw [if_pos (by omega)]
      have : -k ≤ (a - b - 1) / (-s) :=
        (Int.le_ediv_iff_mul_le (by omega)).mpr (by
          have : -k * -s = s * k := by ring
          rw [this]; omega)
      omega
    · rw [Int.toNat_of_nonneg (by omega)]
      have : -k * s = -(s * k) := by ring
      rw [this]; omega

theorem py_range_pairwise_pos (a b s : Int) (hs : 0 < s) : (py_range a b s).Pairwise (· < ·) := by
  rw [py_range, List.pairwise_map]
  exact List.pairwise_lt_range.imp fun {x y} h => by
    have : (x : Int) * s < y * s := mul_lt_mul_of_pos_right (by exact_mod_cast h) hs
    omega

theorem py_range_pairwise_neg (a b s : Int) (hs : s < 0) : (py_range a b s).Pairwise (· > ·) := by
  rw [py_range, List.pairwise_map]
  exact List.pairwise_lt_range.imp fun {x y} h => by
    have : (y : Int) * s < x * s := mul_lt_mul_of_neg_right (by exact_mod_cast h) hs
    show a + (y : Int) * s < a + x * s
    omega

/-- The indices read for a slice are the positions Python's lists take. -/
theorem slice_indices_selects (n : Nat) (start stop step : Option Int) (h0 : step.getD 1 ≠ 0) :
    ∃ a b s is, slice_indices start stop step n = .ok (a, b, s) ∧
      py_range a b s = is.map (fun (i : Nat) => (i : Int)) ∧
      SliceSelects n start stop (step.getD 1) is := by
  have key : ∀ l : List Int, (∀ x ∈ l, 0 ≤ x) →
      l = (l.map Int.toNat).map (fun (i : Nat) => (i : Int)) := by
    intro l hl
    rw [List.map_map]
    conv_lhs => rw [← List.map_id l]
    exact List.map_congr_left fun x hx => by simp [Int.toNat_of_nonneg (hl x hx)]
  have hmem : ∀ (l : List Int), (∀ x ∈ l, 0 ≤ x) → ∀ i : Nat, i ∈ l.map Int.toNat ↔ (i : Int) ∈ l := by
    intro l hl i
    rw [List.mem_map]
    constructor
    · rintro ⟨x, hx, rfl⟩; rw [Int.toNat_of_nonneg (hl x hx)]; exact hx
    · intro hi; exact ⟨i, hi, by simp⟩
  generalize hs : step.getD 1 = s at *
  rcases lt_or_gt_of_ne h0 with hneg | hpos
  · obtain ⟨t, rfl⟩ : ∃ t, s = .negSucc t := Int.eq_negSucc_of_lt_zero hneg
    have hn : ¬ 0 < Int.negSucc t := by omega
    set a := slice_bound n (-1) (n - 1) (n - 1) start with ha
    set b := slice_bound n (-1) (n - 1) (-1) stop with hb
    have hb1 : -1 ≤ b := by
      rw [hb]; cases stop with
      | none => simp [slice_bound]
      | some x => simp only [slice_bound]; split <;> omega
    have hnn : ∀ x ∈ py_range a b (.negSucc t), 0 ≤ x := by
      intro x hx
      rw [mem_py_range_neg _ _ _ _ hneg] at hx; omega
    refine ⟨a, b, .negSucc t, (py_range a b (.negSucc t)).map Int.toNat, ?_, key _ hnn, ?_⟩
    · rw [slice_indices, hs]
    · rw [SliceSelects, if_neg hn]
      refine ⟨?_, fun i => ?_⟩
      · rw [List.pairwise_map]
        exact (List.Pairwise.and_mem.mp (py_range_pairwise_neg a b _ hneg)).imp
          fun {x y} ⟨hx, hy, h⟩ => by
            have := hnn x hx; have := hnn y hy
            have : y < x := h
            show y.toNat < x.toNat
            omega
      · rw [hmem _ hnn, mem_py_range_neg _ _ _ _ hneg]
        set first := min ((n : Int) - 1) (start.elim ((n : Int) - 1) (position n)) with hf
        have h1 : a = max (-1) first := by
          rw [ha, hf]; cases start with
          | none => simp only [slice_bound, Option.elim]; omega
          | some x => simp only [slice_bound, Option.elim, position]; split <;> omega
        have h2 : b < (i : Int) ↔ (∀ x ∈ stop, position n x < (i : Int)) ∨ (n : Int) - 1 < i := by
          rw [hb]; cases stop with
          | none => simp [slice_bound]; omega
          | some x =>
            simp only [slice_bound, Option.mem_def, Option.some.injEq, forall_eq', position]
            split <;> omega
        rw [h2]
        constructor
        · rintro ⟨g1, g2, g3⟩
          have : a = first := by omega
          rw [this] at g3 g1
          refine ⟨by omega, g1, ?_, g3⟩
          rcases g2 with g2 | g2
          · exact g2
          · omega
        · rintro ⟨g1, g2, g3, g4⟩
          have : a = first := by omega
          rw [this]
          exact ⟨g2, .inl g3, g4⟩
  · obtain ⟨t, rfl⟩ : ∃ t : Nat, s = .ofNat (t + 1) := ⟨(s - 1).toNat, by
      show s = (((s - 1).toNat + 1 : Nat) : Int); omega⟩
    set a := slice_bound n 0 n 0 start with ha
    set b := slice_bound n 0 n n stop with hb
    have ha1 : 0 ≤ a := by
      rw [ha]; cases start with
      | none => simp [slice_bound]
      | some x => simp only [slice_bound]; split <;> omega
    have hnn : ∀ x ∈ py_range a b (.ofNat (t + 1)), 0 ≤ x := by
      intro x hx
      rw [mem_py_range_pos _ _ _ _ hpos] at hx; omega
    refine ⟨a, b, .ofNat (t + 1), (py_range a b (.ofNat (t + 1))).map Int.toNat, ?_, key _ hnn, ?_⟩
    · rw [slice_indices, hs]
    · rw [SliceSelects, if_pos hpos]
      refine ⟨?_, fun i => ?_⟩
      · rw [List.pairwise_map]
        exact (List.Pairwise.and_mem.mp (py_range_pairwise_pos a b _ hpos)).imp
          fun {x y} ⟨hx, hy, h⟩ => by
            have := hnn x hx; have := hnn y hy
            omega
      · rw [hmem _ hnn, mem_py_range_pos _ _ _ _ hpos]
        set first := max 0 (position n (start.getD 0)) with hf
        have h1 : a = min first n := by
          rw [ha, hf]; cases start with
          | none => simp only [slice_bound, Option.getD, position]; split <;> omega
          | some x => simp only [slice_bound, Option.getD, position]; split <;> omega
        have h2 : (i : Int) < b ↔ i < n ∧ (∀ x ∈ stop, (i : Int) < position n x) := by
          rw [hb]; cases stop with
          | none => simp [slice_bound]
          | some x =>
            simp only [slice_bound, Option.mem_def, Option.some.injEq, forall_eq', position]
            split <;> omega
        rw [h2]
        constructor
        · rintro ⟨g1, ⟨g2, g3⟩, g4⟩
          have : a = first := by omega
          rw [this] at g4 g1
          exact ⟨g2, g1, g3, g4⟩
        · rintro ⟨g1, g2, g3, g4⟩
          have : a = first := by omega
          rw [this]
          exact ⟨g2, ⟨g1, g3⟩, g4⟩

namespace Storage

theorem headers_ok (st : Storage) (is : List Nat) (raws : List Bytes)
    (h : List.Forall₂ (fun (i : Nat) raw => st.get i = .ok raw) is raws) :
    st.headers (is.map (fun (i : Nat) => (i : Int))) = .ok raws := by
  induction h with
  | nil => rfl
  | cons h1 _ ih => rw [get_nat] at h1; simp [headers, h1, ih]

theorem header_error (st : Storage) (i : Int) (e : Err) (h : st.header i = .error e) :
    e = .missingHeader := by
  unfold header at h
  simp only at h
  split at h <;> cases h
  rfl

theorem headers_error (st : Storage) (is : List Nat) (i : Nat) (e : Err) (hi : i ∈ is)
    (h : st.get i = .error e) :
    st.headers (is.map (fun (i : Nat) => (i : Int))) = .error .missingHeader := by
  induction is with
  | nil => simp at hi
  | cons j js ih =>
    simp only [List.map_cons, headers]
    cases hj : st.header j with
    | error e' => rw [header_error _ _ _ hj]; rfl
    | ok raw =>
      rcases List.mem_cons.mp hi with rfl | hi
      · rw [get_nat, hj] at h; cases h
      · rw [ih hi]; rfl

/-- For an index that is not negative the general write is the one of `Model/Storage.lean`. -/
theorem set_raw_header_int_nat (st : Storage) (i : Nat) (raw : Bytes) :
    st.set_raw_header_int i raw = st.set_raw_header i raw := by
  unfold set_raw_header_int set_raw_header
  by_cases h : raw.length ≠ 80
  · simp [h]
  · simp only [h, if_false]
    have hg : st.grow_int i = st.grow i := rfl
    have hb : ∀ s : Storage, s.bump_count_int i = s.bump_count i := fun _ => rfl
    have hw : ∀ s : Storage, s.write_header_int i raw = s.write_header i raw := by
      intro s
      have ho : s.offset i = ((s.reserved_size + i * 80 : Nat) : Int) := by simp [offset]
      have ho' : s.offset i + 80 = ((s.reserved_size + i * 80 + 80 : Nat) : Int) := by
        rw [ho]; omega
      unfold write_header_int write_header mmapAssign
      rw [ho', ho, clipIndex_nat, clipIndex_nat]
      simp only
      by_cases hc : ((s.reserved_size + i * 80 + 80 : Nat) : Int) ≤ s.file.length
      · have e1 : min (s.reserved_size + i * 80) s.file.length = s.reserved_size + i * 80 := by omega
        have e2 : min (s.reserved_size + i * 80 + 80) s.file.length = s.reserved_size + i * 80 + 80 := by omega
        rw [e1, e2, if_pos (by omega), if_pos hc]
        rfl
      · rw [if_neg (by omega), if_neg hc]; rfl
    rw [hg, hb]
    cases (st.grow i).bump_count i with
    | error e => rfl
    | ok s => simp only [hw]; cases s.write_header i raw <;> rfl

/-- The offset of a negative index. -/
theorem WF.offset_neg {st : Storage} {n cap : Nat} (h : WF st n cap) (m : Nat) :
    st.offset (-(m : Int)) = 8 - 80 * m := by
  simp [Storage.offset, h.reserved]; omega

theorem clipIndex_neg (n : Nat) (i : Int) (h : i < 0) : clipIndex n i = (i + n).toNat := by
  simp [clipIndex, h]

theorem slice_append_mid {α : Type} (b : List α) (i j k : Nat) (h1 : i ≤ j) (h2 : j ≤ k) :
    slice b i k = slice b i j ++ slice b j k := by
  simp only [slice]
  have e : b.take k = b.take j ++ (b.drop j).take (k - j) := by
    rw [show k = j + (k - j) by omega, List.take_add]; simp
  have e2 : (b.take k).drop j = (b.drop j).take (k - j) := by rw [List.drop_take]
  rw [e2]
  rcases Nat.lt_or_ge b.length j with hl | hl
  · have : (b.drop j) = [] := by simp; omega
    rw [e, this]; simp
  · rw [e, List.drop_append_of_le_length (by simp; omega)]

theorem slice_slice {α : Type} (b : List α) (i j p q : Nat) (h : i + q ≤ j) :
    slice (slice b i j) p q = slice b (i + p) (i + q) := by
  simp only [slice, List.take_drop, List.drop_drop, List.take_take]
  rw [min_eq_left (by omega)]

end Storage

end Bitcoinx
