import Verif.Lemmas.Storage
import Verif.Spec.Storage
import Mathlib.Data.List.Induction

/-! # Properties C21 and C22: the headers file -/

namespace Bitcoinx
open Spec

/-- A sequence of `storage[i] = raw` assignments. -/
def Storage.writes (st : Storage) : List (Nat × Bytes) → Storage × Res Unit
  | [] => (st, .ok ())
  | (i, raw) :: ws =>
    match st.set_raw_header i raw with
    | (st, .error e) => (st, .error e)
    | (st, .ok ()) => Storage.writes st ws

/-- A storage just created for the checkpoint. -/
def Storage.created (cp : CheckPoint) : Storage :=
  { file := (Storage.create_file cp).1, reserved_size := 8 }

/-- What index `i` must read as after creating the storage and doing the writes. -/
def expected (cp : CheckPoint) (ws : List (Nat × Bytes)) (i : Nat) : Res Bytes :=
  match latest ws i with
  | some raw => if raw = zeros 80 then .error .missingHeader else .ok raw
  | none => if i = cp.height then .ok cp.raw_header else .error .missingHeader

theorem latest_append (ws : List (Nat × Bytes)) (w : Nat × Bytes) (i : Nat) :
    latest (ws ++ [w]) i = if w.1 = i then some w.2 else latest ws i := by
  unfold latest
  rw [List.reverse_append]
  simp only [List.reverse_cons, List.reverse_nil, List.nil_append, List.cons_append, List.find?_cons]
  by_cases h : w.1 = i
  · simp [h]
  · have : (w.1 == i) = false := by simp [h]
    simp [this, h]

theorem created_wf (cp : CheckPoint) (hl : cp.raw_header.length = 80)
    (hne : cp.raw_header ≠ zeros 80) (hh : cp.height + 1 < 2 ^ 32) :
    (Storage.created cp).WF (cp.height + 1) (cp.height + 1) ∧
      ∀ i : Nat, (Storage.created cp).get i = expected cp [] i := by
  obtain ⟨f, h1, h2, h3, h4⟩ := Storage.create_file_ok cp hl hh
  have e : Storage.created cp = { file := f, reserved_size := 8 } := by
    simp [Storage.created, h1]
  rw [e]
  refine ⟨h2, fun i => ?_⟩
  rw [Storage.get_nat]
  simp only [expected, latest, List.reverse_nil, List.find?_nil, Option.map_none]
  rcases lt_trichotomy i cp.height with hi | hi | hi
  · rw [h2.header_lt i (by omega), h4 i hi, if_pos rfl, if_neg (by omega)]
  · subst hi
    have hne' : ¬ cp.raw_header = empty_header := hne
    rw [h2.header_lt _ (by omega), h3, if_pos rfl, if_neg hne']
  · rw [h2.header_ge i (by omega), if_neg (by omega)]

theorem writes_append (st : Storage) (ws vs : List (Nat × Bytes)) :
    st.writes (ws ++ vs) = match st.writes ws with
      | (st, .error e) => (st, .error e)
      | (st, .ok ()) => st.writes vs := by
  induction ws generalizing st with
  | nil => rfl
  | cons w ws ih =>
    obtain ⟨i, raw⟩ := w
    simp only [List.cons_append, Storage.writes]
    cases h : st.set_raw_header i raw with
    | mk st' r =>
      cases r with
      | error e => rfl
      | ok u => cases u; exact ih st'

/-- After creation and any sequence of writes of 80-byte headers, each index reads as the value last
written to it (`MissingHeader` if never set or set to 80 zero bytes), the length is one more than the
largest index set, and the bytes of the file hold all of it: the file opened again, with any stored
header as checkpoint, gives the same storage. -/
theorem C21_persistent_array (cp : CheckPoint) (hl : cp.raw_header.length = 80)
    (hne : cp.raw_header ≠ zeros 80) (hh : cp.height + 1 < 2 ^ 32) (ws : List (Nat × Bytes))
    (hws : ∀ w ∈ ws, w.2.length = 80 ∧ w.1 + 1 < 2 ^ 32) :
    ∃ st, (Storage.created cp).writes ws = (st, .ok ()) ∧
      st.len = .ok ((ws.foldl (fun n w => max n (w.1 + 1)) (cp.height + 1) : Nat) : Int) ∧
      (∀ i : Nat, st.get i = expected cp ws i) ∧
      (∀ (i : Nat) (raw : Bytes) (w : Int), st.get i = .ok raw →
        Storage.open_file (some st.file) ⟨raw, i, w⟩ = .ok st) := by
  have key : ∃ st cap, (Storage.created cp).writes ws = (st, .ok ()) ∧
      st.WF (ws.foldl (fun n w => max n (w.1 + 1)) (cp.height + 1)) cap ∧
      (∀ i : Nat, st.get i = expected cp ws i) := by
    induction ws using List.reverseRecOn with
    | nil =>
      obtain ⟨h1, h2⟩ := created_wf cp hl hne hh
      exact ⟨_, _, rfl, h1, h2⟩
    | append_singleton ws w ih =>
      obtain ⟨st, cap, h1, h2, h3⟩ := ih (fun v hv => hws v (by simp [hv]))
      obtain ⟨hw1, hw2⟩ := hws w (by simp)
      obtain ⟨st', cap', h4, h5, h6, h7, h8⟩ := h2.get_set w.1 w.2 hw1 hw2
      refine ⟨st', cap', ?_, ?_, ?_⟩
      · rw [writes_append, h1]
        simp only [Storage.writes, h4]
      · rw [List.foldl_append]; exact h5
      · intro i
        unfold expected
        rw [latest_append]
        by_cases hi : w.1 = i
        · subst hi
          by_cases he : w.2 = zeros 80
          · simp [he, h7 he]
          · simp [he, h6 he]
        · rw [h8 i (fun hc => hi hc.symm), h3 i]
          simp only [hi, if_false, expected]
  obtain ⟨st, cap, h1, h2, h3⟩ := key
  exact ⟨st, h1, h2.len, h3, fun i raw w hg => (h2.open ⟨raw, i, w⟩ hg).1⟩

/-- `append` writes at the old length and returns it. -/
theorem C21_append (st : Storage) (n cap : Nat) (h : st.WF n cap) (raw : Bytes)
    (hr : raw.length = 80) (hn : n + 1 < 2 ^ 32) :
    ∃ st', st.append raw = (st', .ok n) ∧ st.set_raw_header n raw = (st', .ok ()) ∧
      st'.len = .ok ((n + 1 : Nat) : Int) ∧ (raw ≠ zeros 80 → st'.get n = .ok raw) ∧
      (∀ i : Nat, i ≠ n → st'.get i = st.get i) := by
  obtain ⟨st', cap', h1, h2, h3, _, h5⟩ := h.get_set n raw hr hn
  refine ⟨st', ?_, h1, ?_, h3, h5⟩
  · simp [Storage.append, h.len, h1]
  · rw [h2.len]; congr 2; omega

/-- A raw header of another length raises `TypeError` and changes nothing. -/
theorem C21_type_error (st : Storage) (i : Nat) (raw : Bytes) (h : raw.length ≠ 80) :
    st.set_raw_header i raw = (st, .error .typeError) := by
  simp [Storage.set_raw_header, h]

/-- Negative indices count from the end. -/
theorem C21_negative_index (st : Storage) (n : Nat) (h : st.len = .ok (n : Int)) (k : Nat)
    (hk : 0 < k) (hkn : k ≤ n) : st.get (-(k : Int)) = st.get ((n - k : Nat) : Int) := by
  have h1 : -(k : Int) < 0 := by omega
  rw [Storage.get_nat]
  simp only [Storage.get, h1, if_true, h, ok_bind']
  congr 1; omega

/-- Hypotheses of `C21_persistent_array` are met with writes past the end of the file and below the
checkpoint. -/
example : let cp : CheckPoint := ⟨List.replicate 80 1, 7, 5⟩
    cp.raw_header.length = 80 ∧ cp.raw_header ≠ zeros 80 ∧
    (∀ w ∈ [(20000, List.replicate 80 (2 : UInt8)), (3, List.replicate 80 3), (3, zeros 80)],
      w.2.length = 80 ∧ w.1 + 1 < 2 ^ 32) := by
  refine ⟨by simp, by decide, ?_⟩
  intro w hw
  simp only [List.mem_cons, List.not_mem_nil, or_false] at hw
  rcases hw with rfl | rfl | rfl <;> simp [zeros]

/-! ## C22 -/

theorem unpack_u16 (b : Bytes) (h : b.length = 2) : unpack_le_uint16 b = .ok (leValue b : Int) := by
  simp [unpack_le_uint16, unpackU, h, le_bytes_to_int_eq]

/-- A file matching the checkpoint is opened and left untouched. -/
theorem C22_matching (f : Bytes) (cp : CheckPoint) (hl : cp.raw_header.length = 80)
    (hne : cp.raw_header ≠ zeros 80) (hm : Matches f cp.raw_header cp.height) :
    ∃ st, Storage.open_or_create (some f) cp = (some f, .ok st) ∧ st.file = f ∧
      st.get cp.height = .ok cp.raw_header := by
  obtain ⟨h1, h2, h3⟩ := hm
  have l0 : (slice f 0 2).length = 2 := by rw [slice_length _ _ _ (by omega)]
  have l2 : (slice f 2 4).length = 2 := by rw [slice_length _ _ _ (by omega)]
  have e0 := unpack_u16 _ l0
  have e2 := unpack_u16 _ l2
  rw [h2] at e2
  generalize leValue (slice f 0 2) = r at *
  have hlen : r + 80 * cp.height + 80 ≤ f.length := by
    by_contra hc
    have := congrArg List.length h3
    rw [hl] at this
    simp only [slice, List.length_drop, List.length_take] at this
    omega
  have hg : (⟨f, r⟩ : Storage).get cp.height = .ok cp.raw_header := by
    rw [Storage.get_nat, Storage.header]
    have eo : (⟨f, r⟩ : Storage).offset cp.height = ((r + 80 * cp.height : Nat) : Int) := by
      simp [Storage.offset]; omega
    have eo2 : ((r + 80 * cp.height : Nat) : Int) + 80 = ((r + 80 * cp.height + 80 : Nat) : Int) := by
      omega
    have es : pySlice f ((r + 80 * cp.height : Nat) : Int) ((r + 80 * cp.height + 80 : Nat) : Int) =
        cp.raw_header := by
      rw [pySlice, Storage.clipIndex_nat, Storage.clipIndex_nat, min_eq_left (by omega),
        min_eq_left (by omega), h3]
    have hn : ¬ (cp.raw_header = [] ∨ cp.raw_header = empty_header) := by
      rintro (hc | hc)
      · rw [hc] at hl; simp at hl
      · exact hne hc
    simp only [eo, eo2, es, hn, if_false]
  refine ⟨⟨f, r⟩, ?_, rfl, hg⟩
  have hf : f ≠ [] := by intro hc; rw [hc] at h1; simp at h1
  have ho : Storage.open_file (some f) cp = .ok ⟨f, r⟩ := by
    have h8 : f.length ≥ 8 := h1
    simp only [Storage.open_file, hf, if_false, h8, if_true, e0, e2, ok_bind', Int.toNat_natCast,
      Nat.cast_zero, hg, pure_ok']
  simp only [Storage.open_or_create, ho]

theorem created_open (cp : CheckPoint) (hl : cp.raw_header.length = 80)
    (hne : cp.raw_header ≠ zeros 80) (hh : cp.height + 1 < 2 ^ 32) :
    ∃ f, Storage.create_file cp = (f, .ok ()) ∧ (Storage.created cp).file = f ∧
      Storage.open_file (some f) cp = .ok (Storage.created cp) := by
  obtain ⟨h1, h2⟩ := created_wf cp hl hne hh
  obtain ⟨f, h3, _⟩ := Storage.create_file_ok cp hl hh
  have e : (Storage.created cp).file = f := by simp [Storage.created, h3]
  refine ⟨f, h3, e, ?_⟩
  have hg := h2 cp.height
  simp only [expected, latest, List.reverse_nil, List.find?_nil, Option.map_none, if_true] at hg
  have := (h1.open cp hg).1
  rwa [e] at this

theorem get_of_not_matches (f : Bytes) (cp : CheckPoint) (hl : cp.raw_header.length = 80)
    (h8 : 8 ≤ f.length) (hv : leValue (slice f 2 4) = 0)
    (hg : (⟨f, leValue (slice f 0 2)⟩ : Storage).get cp.height = .ok cp.raw_header) :
    Matches f cp.raw_header cp.height := by
  refine ⟨h8, hv, ?_⟩
  rw [Storage.get_nat, Storage.header] at hg
  have eo : (⟨f, leValue (slice f 0 2)⟩ : Storage).offset cp.height =
      ((leValue (slice f 0 2) + 80 * cp.height : Nat) : Int) := by
    simp [Storage.offset]; omega
  have eo2 : ((leValue (slice f 0 2) + 80 * cp.height : Nat) : Int) + 80 =
      ((leValue (slice f 0 2) + 80 * cp.height + 80 : Nat) : Int) := by omega
  simp only [eo, eo2, pySlice, Storage.clipIndex_nat] at hg
  split at hg
  · simp at hg
  · simp only [Except.ok.injEq] at hg
    generalize leValue (slice f 0 2) = r at hg ⊢
    have hlen := congrArg List.length hg
    simp only [slice, List.length_drop, List.length_take, hl] at hlen
    rw [min_eq_left (by omega), min_eq_left (by omega)] at hg
    exact hg

theorem open_not_matches (f : Bytes) (cp : CheckPoint) (hl : cp.raw_header.length = 80)
    (hf' : f ≠ []) (hm' : ¬ Matches f cp.raw_header cp.height) :
    Storage.open_file (some f) cp = .error .badHeadersFile ∨
      Storage.open_file (some f) cp = .error .missingHeader := by
  by_cases h8 : f.length ≥ 8
  · have l0 : (slice f 0 2).length = 2 := by rw [slice_length _ _ _ (by omega)]
    have l2 : (slice f 2 4).length = 2 := by rw [slice_length _ _ _ (by omega)]
    have e0 := unpack_u16 _ l0
    have e2 := unpack_u16 _ l2
    by_cases hv : leValue (slice f 2 4) = 0
    · rw [hv] at e2
      simp only [Storage.open_file, hf', if_false, h8, if_true, e0, e2, ok_bind',
        Int.toNat_natCast, Nat.cast_zero]
      cases hg : (⟨f, leValue (slice f 0 2)⟩ : Storage).get cp.height with
      | error e =>
        right
        rw [Storage.get_nat, Storage.header] at hg
        simp only [error_bind']
        split at hg
        · cases hg; rfl
        · simp at hg
      | ok raw =>
        left
        simp only [ok_bind']
        have : raw ≠ cp.raw_header := by
          rintro rfl
          exact hm' (get_of_not_matches f cp hl h8 hv hg)
        simp only [this, if_false]
    · have hv' : ¬ (leValue (slice f 2 4) : Int) = 0 := by omega
      left
      simp only [Storage.open_file, hf', if_false, h8, if_true, e0, e2, ok_bind', hv']
  · left
    simp only [Storage.open_file, hf', if_false, h8]

theorem open_or_create_again (file : Option Bytes) (cp : CheckPoint) (f : Bytes) (st : Storage)
    (hk : Storage.open_file file cp = .error .badHeadersFile ∨
      Storage.open_file file cp = .error .missingHeader ∨
      Storage.open_file file cp = .error .fileNotFoundError)
    (h1 : Storage.create_file cp = (f, .ok ())) (h3 : Storage.open_file (some f) cp = .ok st) :
    Storage.open_or_create file cp = (some f, .ok st) := by
  unfold Storage.open_or_create
  rcases hk with hk | hk | hk <;> rw [hk, h1] <;> simp only [h3]

/-- A missing file, or a non-empty file that does not match the checkpoint (too short, wrong
version, other or no header at the checkpoint height), is replaced by a storage with exactly
`height + 1` entries of which only the checkpoint is set. -/
theorem C22_recreated (file : Option Bytes) (cp : CheckPoint) (hl : cp.raw_header.length = 80)
    (hne : cp.raw_header ≠ zeros 80) (hh : cp.height + 1 < 2 ^ 32) (hf : file ≠ some [])
    (hm : ∀ f, file = some f → ¬ Matches f cp.raw_header cp.height) :
    ∃ st, Storage.open_or_create file cp = (some st.file, .ok st) ∧
      st.len = .ok ((cp.height + 1 : Nat) : Int) ∧ st.get cp.height = .ok cp.raw_header ∧
      (∀ i : Nat, i ≠ cp.height → st.get i = .error .missingHeader) := by
  obtain ⟨f0, h1, h2, h3⟩ := created_open cp hl hne hh
  obtain ⟨h4, h5⟩ := created_wf cp hl hne hh
  have hopen : Storage.open_or_create file cp =
      (some (Storage.created cp).file, .ok (Storage.created cp)) := by
    rw [h2]
    refine open_or_create_again file cp f0 _ ?_ h1 h3
    cases file with
    | none => right; right; rfl
    | some f =>
      rcases open_not_matches f cp hl (fun hc => hf (by rw [hc])) (hm f rfl) with hk | hk
      · exact .inl hk
      · exact .inr (.inl hk)
  refine ⟨_, hopen, h4.len, ?_, ?_⟩
  · have := h5 cp.height
    simpa [expected, latest] using this
  · intro i hi
    have := h5 i
    simpa [expected, latest, hi] using this

/-- Finding: an empty file (for example left by a crash in `_create_file`) is not re-created;
`mmap`'s `ValueError` propagates. -/
theorem C22_empty_file (cp : CheckPoint) :
    Storage.open_or_create (some []) cp = (some [], .error .valueError) := by
  simp [Storage.open_or_create, Storage.open_file]

/-- Files for the two theorems. -/
example : (∃ f, Matches f (List.replicate 80 1) 1) ∧ ¬ Matches [1, 2, 3] (List.replicate 80 1) 1 := by
  refine ⟨⟨[8, 0, 0, 0, 2, 0, 0, 0] ++ zeros 80 ++ List.replicate 80 1, ?_⟩, ?_⟩
  · exact ⟨by decide +kernel, by decide +kernel, by decide +kernel⟩
  · rintro ⟨h, _⟩; simp at h

end Bitcoinx
