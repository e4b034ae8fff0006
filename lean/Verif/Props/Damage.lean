import Verif.Lemmas.Damage
import Verif.Props.ChainExample

/-! # C111: damaged headers files

A file that was cut, or that a power failure left with some of its writes done and others not. -/

namespace Bitcoinx
open Spec

variable {H : Hashes} {coin : Coin} {cp : CheckPoint} {S : Bytes → Prop} {s s' : Headers} {A : List Bytes}

/-- If what is left of the file of a state has the number of headers of this or an earlier state and all headers up to this
number, it is opened, as it is, to that earlier state, whatever comes after these headers. -/
theorem C111_earlier (he : Env H cp S) (hr : Reachable H coin cp S s A) (hl : Later H coin cp S s s') (n : Nat)
    (hn : s.len = .ok (n : Int)) (g : Bytes) (hg : Remains cp s'.storage.file g n)
    (hall : ∀ i, cp.height < i → i < n → storedAt g i = storedAt s'.storage.file i) :
    ∃ s'', Headers.from_file H coin (some g) cp = (some g, .ok s'') ∧ SameFrom cp s'' s := by
  obtain ⟨T, hI, rfl, rfl, rfl, hA⟩ := reachable_inv he hr
  obtain ⟨T', hI', hH, _, hcp, _⟩ := later_tree hI hl
  rw [hI.len] at hn
  have hn' : n = s.checkpoint.height + T.length := by
    simp only [Except.ok.injEq] at hn; omega
  subst hn'
  obtain ⟨cap, hw⟩ := hI.wf
  have hst : ∀ (i : Nat) (N : Node), T[i]? = some N → storedAt g (i + s.checkpoint.height) = N.raw := by
    intro i N hN
    have h1 := hI'.slot_eq (getElem?_append_some (T' := T') hN)
    rw [hcp] at h1
    have hlt := getElem?_lt hN
    rw [← h1]
    by_cases h0 : i = 0
    · subst h0
      rw [Nat.zero_add]; exact hg.checkpoint
    · exact hall _ (by omega) (by omega)
  obtain ⟨s'', h1, h2, h3, h4, h5, h6, h7⟩ := opens_tree (coin := s.coin) he hI.good hI.room hw.count_lt hg.length
    (by rw [hg.head]; exact hI'.file_head) hg.count hst
  refine ⟨s'', h1, hI.toDesc.sameFrom h2 he.inj h5 h7 h3 ?_⟩
  rw [hI.len, Headers.len, h4, len_of_count hg.length hg.count]

/-- Otherwise it is not opened and not changed: the first place without its header decides the exception, which is
`MissingHeader` if there is nothing or only zeros and `struct.error` if there is part of a header. -/
theorem C111_incomplete (he : Env H cp S) (hr : Reachable H coin cp S s A) (hl : Later H coin cp S s s') (n : Nat)
    (hn : s.len = .ok (n : Int)) (g : Bytes) (hg : Remains cp s'.storage.file g n) (k : Nat) (hk : cp.height < k)
    (hkn : k < n) (hbad : storedAt g k ≠ storedAt s'.storage.file k)
    (hall : ∀ i, cp.height < i → i < k → storedAt g i = storedAt s'.storage.file i) :
    Headers.from_file H coin (some g) cp = (some g, .error (damageError (storedAt g k))) := by
  obtain ⟨T, hI, rfl, rfl, rfl, hA⟩ := reachable_inv he hr
  obtain ⟨T', hI', hH, _, hcp, _⟩ := later_tree hI hl
  rw [hI.len] at hn
  have hn' : n = s.checkpoint.height + T.length := by
    simp only [Except.ok.injEq] at hn; omega
  subst hn'
  obtain ⟨cs, hgood, hcs⟩ := hI.good.take (k - s.checkpoint.height) (by omega) (by omega)
  have hlen : (T.take (k - s.checkpoint.height)).length = k - s.checkpoint.height := by
    rw [List.length_take]; omega
  have hst : ∀ (i : Nat) (N : Node), (T.take (k - s.checkpoint.height))[i]? = some N →
      storedAt g (i + s.checkpoint.height) = N.raw := by
    intro i N hN
    have hlt := getElem?_lt hN
    rw [hlen] at hlt
    rw [List.getElem?_take_of_lt hlt] at hN
    have h1 := hI'.slot_eq (getElem?_append_some (T' := T') hN)
    rw [hcp] at h1
    rw [← h1]
    by_cases h0 : i = 0
    · subst h0
      rw [Nat.zero_add]; exact hg.checkpoint
    · exact hall _ (by omega) (by omega)
  have := refuses_tree (coin := s.coin) he hgood (by have := hI.room; omega) hg.length
    (by rw [hg.head]; exact hI'.file_head) hg.count (by omega) hst (by
      rw [hlen, show s.checkpoint.height + (k - s.checkpoint.height) = k by omega]
      rcases hg.headers k hk hkn with h | h
      · exact absurd h hbad
      · exact h)
  rwa [hlen, show s.checkpoint.height + (k - s.checkpoint.height) = k by omega] at this

theorem storedAt_take {f : Bytes} {k i : Nat} (h : 8 + 80 * i + 80 ≤ k) : storedAt (f.take k) i = storedAt f i := by
  simp only [storedAt, slice, List.take_take]
  rw [min_eq_left h]

theorem storedAt_take_length {f : Bytes} {k i : Nat} (h1 : k ≤ f.length) (h : k < 8 + 80 * i + 80) :
    (storedAt (f.take k) i).length = k - (8 + 80 * i) := by
  simp only [storedAt, slice, List.take_take, List.length_drop, List.length_take]
  rw [min_eq_right (by omega : k ≤ 8 + 80 * i + 80), min_eq_left h1]

theorem damageError_short {x : Bytes} (h : x.length < 80) :
    damageError x = if x.length = 0 then .missingHeader else .structError := by
  have hz : x ≠ zeros 80 := by
    rintro rfl; simp [zeros] at h
  simp only [damageError, hz, or_false, List.length_eq_zero_iff]

theorem slice_take (f : Bytes) {k i j : Nat} (h : j ≤ k) : slice (f.take k) i j = slice f i j := by
  simp only [slice, List.take_take]
  rw [min_eq_left h]

/-- A cut that hits no header. -/
theorem cut_opened {T : Tree} (he : Env s.H s.checkpoint S) (hI : Inv S s T) (k : Nat) (hk : k ≤ s.storage.file.length)
    (h : 8 + 80 * (s.checkpoint.height + T.length) ≤ k) :
    ∃ s', Headers.from_file s.H s.coin (some (s.storage.file.take k)) s.checkpoint =
      (some (s.storage.file.take k), .ok s') ∧ Desc S s' T ∧ s'.chains = s.chains ∧
      s'.storage = ⟨s.storage.file.take k, 8⟩ ∧ s'.H = s.H ∧ s'.coin = s.coin ∧ s'.checkpoint = s.checkpoint ∧
      (∀ hash, hash ≠ [] → s'.lookup hash = s.lookup hash) ∧
      (∀ c h, s'.raw_header_at_height c h = s.raw_header_at_height c h) := by
  obtain ⟨cap, hw⟩ := hI.wf
  have hlen8 : 8 ≤ (s.storage.file.take k).length := by rw [List.length_take]; omega
  have hcnt : leValue (slice s.storage.file 4 8) = s.checkpoint.height + T.length := by
    rw [hw.cnt, leValue_leBytes _ _ (by have := hw.count_lt; norm_num; omega)]
  have hst : ∀ i, i < s.checkpoint.height + T.length →
      storedAt (s.storage.file.take k) i = storedAt s.storage.file i := fun i hi => storedAt_take (by omega)
  obtain ⟨s', g1, g2, g3, g4, g5, g6, g7⟩ := opens_tree (coin := s.coin) he hI.good hI.room hw.count_lt
    hlen8 (by rw [slice_take _ (by omega)]; exact hw.head) (by rw [slice_take _ (by omega), hcnt])
    (fun i N hN => by
      have := getElem?_lt hN
      rw [hst _ (by omega), hI.slot_eq hN])
  have hsame := hI.toDesc.sameFrom g2 he.inj g5 g7 g3 (by
    rw [hI.len, Headers.len, g4, len_of_count hlen8 (by rw [slice_take _ (by omega), hcnt])])
  refine ⟨s', g1, g2, g3, g4, g5, g6, g7, hsame.lookup, ?_⟩
  intro c h
  have hTpos := hI.good.length_pos
  rcases lt_or_ge h (s.checkpoint.height : Int) with hlt | hge
  · cases hc : s.chains[c]? with
    | none =>
      simp only [Headers.raw_header_at_height, Headers.header_index, g3]
      cases hfu : s.chains.length with
      | zero => simp [Chain.header_index]
      | succ m => simp [Chain.header_index, hc]
    | some ch =>
      have hc' : s'.chains[c]? = some ch := by rw [g3]; exact hc
      rcases lt_or_ge h 0 with h0 | h0
      · rw [hI.toDesc.raw_neg hc h0, g2.raw_neg hc' h0]
      · obtain ⟨j, rfl⟩ : ∃ j : Nat, h = (j : Int) := ⟨h.toNat, by omega⟩
        rw [hI.toDesc.raw_below hc (by omega), g2.raw_below hc' (by rw [g7]; omega), g4, hI.storage_eq, get_stored,
          get_stored, hst j (by omega)]
  · exact hsame.raw_header c h hge

/-- A file that is cut off at any point.  If nothing is left opening it raises `ValueError`.  If the checkpoint is not
complete all is lost: the file is made anew, with the checkpoint only.  If the cut is in the headers after it opening the
file raises `MissingHeader` or `struct.error`, and goes on doing so.  If no header is hit the same headers are found.  In no
case is it opened with some of its headers. -/
theorem C111_cut (he : Env H cp S) (hr : Reachable H coin cp S s A) (n : Nat) (hn : s.len = .ok (n : Int)) (k : Nat)
    (hk : k ≤ s.storage.file.length) :
    (k = 0 → Headers.from_file H coin (some (s.storage.file.take k)) cp = (some [], .error .valueError)) ∧
    (0 < k → k < 8 + 80 * (cp.height + 1) → ∃ s0, Headers.from_file H coin (some (s.storage.file.take k)) cp =
      (some s0.storage.file, .ok s0) ∧ Reachable H coin cp S s0 [cp.raw_header]) ∧
    (8 + 80 * (cp.height + 1) ≤ k → k < 8 + 80 * n → Headers.from_file H coin (some (s.storage.file.take k)) cp =
      (some (s.storage.file.take k), .error (if (k - 8) % 80 = 0 then .missingHeader else .structError))) ∧
    (8 + 80 * n ≤ k → ∃ s', Headers.from_file H coin (some (s.storage.file.take k)) cp =
      (some (s.storage.file.take k), .ok s') ∧ s'.chains = s.chains ∧ s'.len = s.len ∧
      (∀ hash, hash ≠ [] → s'.lookup hash = s.lookup hash) ∧
      (∀ c h, s'.raw_header_at_height c h = s.raw_header_at_height c h)) := by
  have hr0 := hr
  obtain ⟨T, hI, rfl, rfl, rfl, hA⟩ := reachable_inv he hr
  have hn0 := hn
  rw [hI.len] at hn
  have hn' : n = s.checkpoint.height + T.length := by
    simp only [Except.ok.injEq] at hn; omega
  have hTpos := hI.good.length_pos
  obtain ⟨cap, hw⟩ := hI.wf
  have hwl := hw.length
  have hcl := hw.count_le
  have hlen8 : 8 ≤ k → 8 ≤ (s.storage.file.take k).length := by intro h; rw [List.length_take]; omega
  have hcnt : leValue (slice s.storage.file 4 8) = s.checkpoint.height + T.length := by
    rw [hw.cnt, leValue_leBytes _ _ (by have := hw.count_lt; norm_num; omega)]
  have hrem : 8 + 80 * (s.checkpoint.height + 1) ≤ k →
      Remains s.checkpoint s.storage.file (s.storage.file.take k) n := by
    intro hc
    refine ⟨hlen8 (by omega), slice_take _ (by omega), ?_, storedAt_take (by omega), ?_⟩
    · rw [slice_take _ (by omega), hcnt, hn']
    · intro i h1 h2
      rcases Nat.lt_or_ge k (8 + 80 * i + 80) with h | h
      · exact .inr (.inr (by rw [storedAt_take_length hk h]; omega))
      · exact .inl (storedAt_take h)
  refine ⟨?_, ?_, ?_, ?_⟩
  · rintro rfl
    simp only [List.take_zero, Headers.from_file, C22_empty_file]
  · intro h0 hc
    have hne : some (s.storage.file.take k) ≠ some [] := by
      intro h
      have := congrArg (Option.map List.length) h
      simp only [Option.map_some, List.length_take, List.length_nil, Option.some.injEq] at this
      omega
    have hnm : ∀ f, some (s.storage.file.take k) = some f → ¬ Matches f s.checkpoint.raw_header s.checkpoint.height := by
      rintro f hf ⟨m1, m2, m3⟩
      simp only [Option.some.injEq] at hf
      subst hf
      have h8 : 8 ≤ k := by rw [List.length_take] at m1; omega
      have e1 : slice (s.storage.file.take k) 0 2 = [8, 0] := by
        have : slice s.storage.file 0 2 = (slice s.storage.file 0 4).take 2 := by simp [slice, List.take_take]
        rw [slice_take _ (by omega), this, hw.head]; rfl
      rw [e1, show leValue [8, 0] = 8 from rfl] at m3
      have := congrArg List.length m3
      have h2 := storedAt_take_length (i := s.checkpoint.height) hk (by omega)
      rw [storedAt] at h2
      rw [h2, he.cp_length] at this
      omega
    have hv := (hI.toDesc.valid hI.good.root_node).work
    simp only at hv
    obtain ⟨s0, h1, _⟩ := fresh_ok (coin := s.coin) he hv hne hnm
    exact ⟨s0, h1, .start hne hnm h1⟩
  · intro h1 h2
    have hj1 : s.checkpoint.height < (k - 8) / 80 := by omega
    have hj2 : (k - 8) / 80 < n := by omega
    have hl := storedAt_take_length (f := s.storage.file) (k := k) (i := (k - 8) / 80) hk (by omega)
    have := C111_incomplete he hr0 .now n hn0 _ (hrem h1) ((k - 8) / 80) hj1 hj2 (by
        intro hc
        have := congrArg List.length hc
        rw [hl, storedAt, slice_length _ _ _ (by omega)] at this
        omega) (fun i a b => storedAt_take (by omega))
    rw [this, damageError_short (by omega), hl]
    have : (k - (8 + 80 * ((k - 8) / 80)) = 0) = ((k - 8) % 80 = 0) := by
      simp only [eq_iff_iff]; omega
    simp only [this]
  · intro h
    obtain ⟨s', g1, g2, g3, g4, _, _, _, g8, g9⟩ := cut_opened he hI k hk (by omega)
    exact ⟨s', g1, g3, by rw [hI.len, Headers.len, g4, len_of_count (hlen8 (by omega)) (by rw [slice_take _ (by omega), hcnt])],
      g8, g9⟩

/-- The checks of `connect` see nothing else of a collection. -/
theorem connect_check_congr {s s' : Headers} (hH : s'.H = s.H) (hcoin : s'.coin = s.coin) (hch : s'.chains = s.chains)
    (hlook : ∀ hash, hash ≠ [] → s'.lookup hash = s.lookup hash)
    (hraw : ∀ c h, s'.raw_header_at_height c h = s.raw_header_at_height c h) (raw : Bytes) :
    s'.connect_check raw = s.connect_check raw := by
  by_cases hl : raw.length = 80
  · have hf := mkHeader_fields (H := s.H) (-1) hl
    have e1 : s'.lookup (mkHeader s.H raw (-1)).prev_hash = s.lookup (mkHeader s.H raw (-1)).prev_hash := by
      apply hlook
      rw [hf.2.2.2.1]
      intro hc
      have := header_prev_hash_length hl
      rw [hc] at this; simp at this
    have e2 : s'.lookup (mkHeader s.H raw (-1)).hash = s.lookup (mkHeader s.H raw (-1)).hash := by
      apply hlook
      rw [hf.2.2.1]
      intro hc
      have := header_hash_length s.H raw
      rw [hc] at this; simp at this
    have e3 : ∀ c h t, s'.required_bits c h t = s.required_bits c h t :=
      fun c h t => C19_collections s' s c c h t hcoin hH (fun k _ => hraw c k)
    unfold Headers.connect_check
    rw [hH, mkHeader_ok (H := s.H) (-1) hl]
    simp only [ok_bind', e1, e2, e3, hch]
  · unfold Headers.connect_check
    rw [deserialized_header_err _ _ _ hl, deserialized_header_err _ _ _ hl]
    rfl

/-- A new header that is accepted has passed the checks. -/
theorem passed_of_grown {s s1 : Headers} {raw : Bytes} {r : Header × Nat} (hc : s.connect raw = (s1, .ok r))
    (hne : s1.len ≠ s.len) : ∃ hd, s.connect_check raw = .ok (.inr hd) := by
  cases hck : s.connect_check raw with
  | error e => simp [Headers.connect, hck] at hc
  | ok x =>
    cases x with
    | inl y =>
      simp only [Headers.connect, hck, Prod.mk.injEq] at hc
      rw [hc.1] at hne
      exact absurd rfl hne
    | inr hd => exact ⟨hd, rfl⟩

/-- A file that is cut within the first unused place is opened as if nothing had happened, but the next header that should be
accepted raises `IndexError`, and afterwards the file cannot be opened: it counts a header that is not there. -/
theorem C111_ragged (he : Env H cp S) (hr : Reachable H coin cp S s A) (hroom : Room s) (n : Nat)
    (hn : s.len = .ok (n : Int)) (k : Nat) (hk : k ≤ s.storage.file.length) (h1 : 8 + 80 * n < k)
    (h2 : k < 8 + 80 * n + 80) (raw : Bytes) (s1 : Headers) (r : Header × Nat) (hc : s.connect raw = (s1, .ok r))
    (hnew : s1.len ≠ s.len) :
    ∃ s' s2, Headers.from_file H coin (some (s.storage.file.take k)) cp = (some (s.storage.file.take k), .ok s') ∧
      s'.connect raw = (s2, .error .indexError) ∧
      Headers.from_file H coin (some s2.storage.file) cp = (some s2.storage.file, .error .structError) := by
  obtain ⟨hd, hck⟩ := passed_of_grown hc hnew
  obtain ⟨T, hI, rfl, rfl, rfl, hA⟩ := reachable_inv he hr
  have hrm := hroom.2 _ hn
  rw [hI.len] at hn
  have hn' : n = s.checkpoint.height + T.length := by
    simp only [Except.ok.injEq] at hn; omega
  obtain ⟨cap, hw⟩ := hI.wf
  have hwl := hw.length
  obtain ⟨s', g1, g2, g3, g4, g5, g6, g7, g8, g9⟩ := cut_opened he hI k hk (by omega)
  have hck' : s'.connect_check raw = .ok (.inr hd) := by
    rw [connect_check_congr g5 g6 g3 g8 g9, hck]
  have hl : raw.length = 80 := by
    by_contra hl
    unfold Headers.connect_check at hck
    rw [deserialized_header_err _ _ _ hl] at hck
    simp at hck
  generalize hgg : s.storage.file.take k = g at *
  have hgl : g.length = k := by rw [← hgg, List.length_take]; omega
  have hcnt : leValue (slice g 4 8) = n := by
    rw [← hgg, slice_take _ (by omega), hw.cnt, leValue_leBytes _ _ (by have := hw.count_lt; norm_num; omega), hn']
  have hlen := len_of_count (by omega) hcnt
  have hlen4 : (leBytes 4 (n + 1)).length = 4 := leBytes_length _ _
  have hap : Storage.append ⟨g, 8⟩ raw = (⟨writeAt g 4 (leBytes 4 (n + 1)), 8⟩, .error .indexError) := by
    have hoff : ∀ f : Bytes, (⟨f, 8⟩ : Storage).offset n = ((8 + 80 * n : Nat) : Int) := by
      intro f; simp [Storage.offset]; omega
    have hgrow : Storage.grow ⟨g, 8⟩ n = ⟨g, 8⟩ := by
      rw [Storage.grow, hoff, if_neg]
      rw [hgl]; omega
    have hp : pack_le_uint32 ((n : Int) + 1) = .ok (leBytes 4 (n + 1)) := by
      have := packU_ok 4 (n + 1) (by norm_num; omega)
      push_cast at this; exact this
    have hnn : (n : Int) ≥ n := le_refl _
    have hb : Storage.bump_count ⟨g, 8⟩ n = .ok ⟨writeAt g 4 (leBytes 4 (n + 1)), 8⟩ := by
      simp only [Storage.bump_count, hlen, ok_bind', hnn, if_true, Storage.set_count, hp, pure_ok']
    have hwr : Storage.write_header ⟨writeAt g 4 (leBytes 4 (n + 1)), 8⟩ n raw = .error .indexError := by
      rw [Storage.write_header, hoff, if_neg]
      simp only []
      rw [writeAt_length _ _ _ (by omega), hgl]; omega
    have hl' : ¬ raw.length ≠ 80 := by omega
    simp only [Storage.append, hlen, Int.toNat_natCast, Storage.set_raw_header, hl', if_false, hgrow, hb, hwr]
  refine ⟨s', { s' with storage := ⟨writeAt g 4 (leBytes 4 (n + 1)), 8⟩ }, g1, ?_, ?_⟩
  · simp only [Headers.connect, hck', g4, hap]
  · simp only []
    have hst : ∀ i, storedAt (writeAt g 4 (leBytes 4 (n + 1))) i = storedAt g i := by
      intro i
      simp only [storedAt]
      rw [slice_writeAt_after _ _ _ _ _ (by omega) (by omega)]
    have hshort : (storedAt g n).length = k - (8 + 80 * n) := by
      rw [← hgg]; exact storedAt_take_length hk h2
    have := refuses_tree (coin := s.coin) he hI.good hI.room (n := n + 1)
      (g := writeAt g 4 (leBytes 4 (n + 1))) (by rw [writeAt_length _ _ _ (by omega)]; omega)
      (by rw [slice_writeAt_before _ _ _ _ _ (by omega) (by omega), ← hgg, slice_take _ (by omega)]; exact hw.head)
      (by
        have := slice_writeAt_same g 4 (leBytes 4 (n + 1)) (by omega)
        rw [hlen4] at this
        rw [this, leValue_leBytes _ _ (by norm_num; omega)]) (by omega)
      (fun i N hN => by
        have := getElem?_lt hN
        rw [hst, ← hgg, storedAt_take (by omega), hI.slot_eq hN])
      (by rw [← hn', hst]; right; omega)
    rw [← hn', hst, damageError_short (by omega), hshort, if_neg (by omega)] at this
    exact this

/-- A header of which only the first part reached the disk, up to its time stamp at most, is taken for another header: the
file is opened, and holds a header that was never accepted and that `connect` refuses. -/
theorem C111_torn (he : Env H cp S) (hr : Reachable H coin cp S s A) (hroom : Room s) (n : Nat)
    (hn : s.len = .ok (n : Int)) (raw : Bytes) (hS : S raw) (s1 : Headers) (r : Header × Nat)
    (hc : s.connect raw = (s1, .ok r)) (hnew : s1.len ≠ s.len) (k : Nat) (h1 : 36 ≤ k) (h2 : k ≤ 72) (torn : Bytes)
    (ht : torn = raw.take k ++ zeros (80 - k)) (hSt : S torn) (htA : torn ∉ A) (htz : torn ≠ zeros 80)
    (hpos : 0 < leValue (header_hash H torn)) :
    (∃ s2 hd c, Headers.from_file H coin (some (writeAt s1.storage.file (8 + 80 * n) torn)) cp =
        (some (writeAt s1.storage.file (8 + 80 * n) torn), .ok s2) ∧
      s2.lookup (header_hash H torn) = .ok (hd, c) ∧ hd.raw = torn) ∧
    ∃ e, s.connect torn = (s, .error e) := by
  have hr0 := hr
  obtain ⟨T, hI, rfl, rfl, rfl, hA⟩ := reachable_inv he hr
  have hrm := hroom.2 _ hn
  rw [hI.len] at hn
  have hn' : n = s.checkpoint.height + T.length := by
    simp only [Except.ok.injEq] at hn; omega
  obtain ⟨T', hcon, hI'⟩ := hI.connected hS hroom hc
  cases hcon with
  | existing i M hM hi hraw h1 _ => rw [h1] at hnew; exact absurd rfl hnew
  | accepted p P c hl hp hprev hnewT hck a1 a2 a3 a4 a5 a6 a7 =>
    subst a7
    have htl : torn.length = 80 := by
      rw [ht, List.length_append, List.length_take, zeros, List.length_replicate]; omega
    have hkl : (raw.take k).length = k := by rw [List.length_take]; omega
    have htp : header_prev_hash torn = header_prev_hash raw := by
      rw [header_prev_hash, header_prev_hash, ht, slice_append_left _ _ _ _ (by omega), slice_take _ (by omega)]
    have htb : slice torn 72 76 = zeros 4 := by
      rw [ht, slice_append_right _ _ _ _ (by omega), hkl, slice_zeros _ _ _ (by omega)]
      congr 1; omega
    have hbits : bitsOf torn = 0 := by rw [bitsOf, htb]; rfl
    have hnt : ∀ M ∈ T, M.raw ≠ torn := by
      intro M hM he
      obtain ⟨i, hi⟩ := List.mem_iff_getElem?.1 hM
      exact htA ((hA _).2 ⟨i, M, hi, he⟩)
    obtain ⟨w, hw⟩ := (work_ok_iff htl).2 ⟨0, by rw [hbits]; exact zeros_target⟩
    have hv : Valid S torn := ⟨htl, htz, by simp [workOf, hw], hSt⟩
    refine ⟨?_, ?_⟩
    · obtain ⟨c', cs, hgood, hcs⟩ : ∃ c' cs, Good s.H s.checkpoint S (T ++ [⟨torn, P.path ++ [T.length], c'⟩]) cs ∧
          cs.length ≤ 65536 := by
        by_cases hch : HasChild T P
        · refine ⟨_, _, .fork hI.good hp hch hv (htp.trans hprev) hnt, ?_⟩
          rw [List.length_append, List.length_singleton]
          exact hroom.1
        · obtain ⟨ch, hch'⟩ := hI.toDesc.chain_exists hp
          refine ⟨_, _, .extend hI.good hp hch hch' hv (htp.trans hprev) hnt, ?_⟩
          rw [List.length_set]
          exact hI.room
      obtain ⟨cap, hwf⟩ := hI'.wf
      have hwl := hwf.length
      have hcl := hwf.count_le
      rw [a3, List.length_append, List.length_singleton] at hwf hcl
      have hbefore : ∀ i j, j ≤ 8 + 80 * n → slice (writeAt s1.storage.file (8 + 80 * n) torn) i j =
          slice s1.storage.file i j :=
        fun i j hj => slice_writeAt_before _ _ _ _ _ hj (by omega)
      have hlast : storedAt (writeAt s1.storage.file (8 + 80 * n) torn) n = torn := by
        have := slice_writeAt_same s1.storage.file (8 + 80 * n) torn (by omega)
        rw [htl] at this
        exact this
      obtain ⟨s2, g1, g2, g3, g4, g5, g6, g7⟩ := opens_tree (coin := s.coin) he hgood hcs (by
          rw [List.length_append, List.length_singleton]; omega) (g := writeAt s1.storage.file (8 + 80 * n) torn)
        (by rw [writeAt_length _ _ _ (by omega)]; omega) (by rw [hbefore _ _ (by omega)]; exact hwf.head)
        (by
          rw [hbefore _ _ (by omega), hwf.cnt, leValue_leBytes _ _ (by have := hwf.count_lt; norm_num; omega),
            List.length_append, List.length_singleton])
        (fun i N hN => by
          rcases getElem?_snoc.1 hN with hN | ⟨rfl, rfl⟩
          · have := getElem?_lt hN
            rw [storedAt, hbefore _ _ (by omega)]
            have := hI'.slot_eq (getElem?_snoc.2 (.inl hN))
            rw [a3] at this
            exact this
          · rw [Nat.add_comm T.length, ← hn']; exact hlast)
      have := g2.lookup_found (by rw [g5]; exact he.inj) (i := T.length) (N := ⟨torn, P.path ++ [T.length], c'⟩)
        (getElem?_snoc.2 (.inr ⟨rfl, rfl⟩))
      rw [g5] at this
      exact ⟨s2, _, _, g1, this, (mkHeader_fields (H := s.H) _ htl).1⟩
    · have hlook : s.lookup (header_prev_hash torn) = .ok (mkHeader s.H P.raw (nodeHeight s.checkpoint P), P.chain) := by
        rw [htp, hprev, hI.toDesc.lookup_found hI.env.inj hp]
      obtain ⟨hd, v, b1, b2, s', r', b3, b4⟩ := C26_rules he hr0 hroom torn hSt htl htA _ _ hlook
      cases v with
      | error e =>
        simp only at b4
        exact ⟨e, by rw [b3, b4.1, b4.2]⟩
      | ok u =>
        exfalso
        cases b2 with
        | accept t c1 c2 c3 =>
          rw [mkHeader_ok _ htl] at b1
          cases b1
          have hf := mkHeader_fields (H := s.H) ((mkHeader s.H P.raw (nodeHeight s.checkpoint P)).height + 1) htl
          have hb := hf.2.2.2.2.2
          rw [header_bits_eq htl, hbits] at hb
          simp only [Except.ok.injEq] at hb
          rw [← hb, zeros_target] at c2
          cases c2
          rw [hf.2.2.1] at c3
          omega

end Bitcoinx

namespace Bitcoinx.DamageExample
open Spec ChainExample

/-- The first 56 bytes of a header. -/
@[irreducible] def torn : Bytes := raw1.take 56 ++ zeros (80 - 56)
def St (x : Bytes) : Prop := x ∈ [raw0, raw1, raw2, torn]

theorem env : Env toyHashes cp St := by
  refine ⟨?_, ?_, ?_, ?_, ?_, ?_, ?_⟩
  · have : ∀ a ∈ [raw0, raw1, raw2, torn], ∀ b ∈ [raw0, raw1, raw2, torn],
        header_hash toyHashes a = header_hash toyHashes b → a = b := by decide +kernel
    intro a b ha hb; exact this a ha b hb
  · show ∀ a ∈ [raw0, raw1, raw2, torn], header_hash toyHashes a ≠ header_prev_hash cp.raw_header
    decide +kernel
  · decide +kernel
  · decide +kernel
  · exact List.mem_cons_self
  · decide +kernel
  · decide +kernel

/-- A file that is full grows by 5000 places. -/
theorem append_grown {st : Storage} {n : Nat} (h : st.WF n n) {raw : Bytes} (hl : raw.length = 80)
    (hn : n + 1 < 2 ^ 32) : (st.append raw).1.file.length = 8 + 80 * (n + 5000) := by
  obtain ⟨cap, g1, _, g3, _⟩ := h.grow n
  have hcap : (st.grow n).file.length = 8 + 80 * (n + 5000) := by
    have h5 : (n : Int) + 5000 = ((n + 5000 : Nat) : Int) := by push_cast; rfl
    have hlen := h.length
    rw [Storage.grow, h5, h.offset, h.offset, if_pos (by omega)]
    simp only [List.length_append, zeros, List.length_replicate, Int.toNat_natCast]
    omega
  obtain ⟨st1, b1, b2, _⟩ := g1.bump n g3 hn
  obtain ⟨st2, w1, w2, _⟩ := b2.write n raw g3 hl
  have hl' : ¬ raw.length ≠ 80 := by omega
  simp only [Storage.append, h.len, Int.toNat_natCast, Storage.set_raw_header, hl', if_false, b1, w1]
  rw [w2.length, ← g1.length, hcap]

/-- A new collection, to which two headers are connected. -/
theorem history : ∃ s s1 s2 r r2, Reachable toyHashes Bitcoin cp St s [raw0] ∧ Room s ∧ s.len = .ok 1 ∧
    s.connect raw1 = (s1, .ok r) ∧ s1.len ≠ s.len ∧
    Reachable toyHashes Bitcoin cp St s1 ([raw0] ++ [raw1]) ∧ Room s1 ∧ s1.len = .ok 2 ∧
    s1.storage.file.length = 8 + 80 * 5001 ∧ s1.connect raw2 = (s2, .ok r2) ∧ s2.len ≠ s1.len := by
  have hb : ∀ x ∈ [raw1, raw2], x.length = 80 ∧ header_bits x = .ok 0x1d00ffff ∧
      hash_to_value (header_hash toyHashes x) ≤ 0xffff <<< (8 * 26) := by decide +kernel
  have hb1 := hb raw1 (by simp)
  have hb2 := hb raw2 (by simp)
  have ht : bits_to_target 0x1d00ffff = .ok (0xffff <<< (8 * 26)) := by decide +kernel
  have hw : ∃ w, header_work raw0 = .ok w := by
    have : (match header_work raw0 with | .ok _ => true | .error _ => false) = true := by decide +kernel
    cases h : header_work raw0 with
    | ok w => exact ⟨w, rfl⟩
    | error e => rw [h] at this; cases this
  obtain ⟨w, hw⟩ := hw
  obtain ⟨s0, a1, a2, a3, a4, a5, a6⟩ := fresh_ok (coin := Bitcoin) (file := none) env
    (by simp [workOf, cp, hw]) (by simp) (by simp)
  have r0 : Reachable toyHashes Bitcoin cp St s0 [raw0] := .start (by simp) (by simp) a1
  have hlen0 : s0.len = .ok 1 := by rw [a2.len, a5]; rfl
  have hc0 : s0.chains.length = 1 := by rw [a6]; rfl
  have hroom0 : Room s0 := ⟨by omega, fun n hn => by
    rw [hlen0] at hn; simp only [Except.ok.injEq] at hn; omega⟩
  obtain ⟨s1, c1, d1, b1, b2, b3, b4, b5, b6⟩ := easy_connect a2 a4 (p := 0) rfl
    (by rw [a5]; decide) (by simp [St]) hb1.1 (by rw [a3]; decide +kernel)
    (by simp only [List.mem_singleton]; rintro M rfl; decide +kernel)
    (by decide +kernel) hb1.2.1 ht (by rw [a3]; exact hb1.2.2) hroom0
  have hlen1 : s1.len = .ok 2 := by rw [b2.len, b5, a5]; rfl
  have hc1 : s1.chains.length ≤ 2 := by
    cases b6 with
    | extended ch _ _ _ h => rw [h, List.length_set]; omega
    | forked _ _ h => rw [h, List.length_append]; simp only [List.length_singleton]; omega
  have hroom1 : Room s1 := ⟨by omega, fun n hn => by
    rw [hlen1] at hn; simp only [Except.ok.injEq] at hn; omega⟩
  obtain ⟨s2, c2, d2, e1, e2, e3, e4, e5, e6⟩ := easy_connect b2 (b4.trans a4) (p := 0) rfl
    (by rw [b5, a5]; decide) (by simp [St]) hb2.1 (by rw [b3, a3]; decide +kernel)
    (by
      simp only [List.mem_append, List.mem_singleton]
      rintro M (rfl | rfl)
      · decide +kernel
      · show raw1 ≠ raw2
        decide +kernel)
    (by decide +kernel) hb2.2.1 ht (by rw [b3, a3]; exact hb2.2.2) hroom1
  have hlen2 : s2.len = .ok 3 := by rw [e2.len, e5, b5, a5]; rfl
  have hst : s0.storage.file.length = 88 := by
    obtain ⟨f0, h1, h2, h3⟩ := created_open cp env.cp_length env.cp_ne env.cp_height
    have hwf := (created_wf cp env.cp_length env.cp_ne env.cp_height).1
    have := open_or_create_again none cp f0 _ (.inr (.inr rfl)) h1 h3
    have h4 := congrArg Prod.fst a1
    simp only [Headers.from_file, this, Option.some.injEq] at h4
    rw [← h4, ← h2, hwf.length]
    rfl
  refine ⟨s0, s1, s2, _, _, r0, hroom0, hlen0, b1, by rw [hlen0, hlen1]; decide,
    .accept r0 (by simp [St]) hroom0 b1, hroom1, hlen1, ?_, e1, by rw [hlen1, hlen2]; decide⟩
  obtain ⟨cap, hwf⟩ := a2.wf
  have hwl := hwf.length
  rw [a5] at hwf
  have hcap : cap = 0 + 1 := by omega
  subst hcap
  have hs1 : s1.storage = (s0.storage.append raw1).1 := by
    obtain ⟨T', hcon, _⟩ := a2.connected (by simp [St]) hroom0 b1
    cases hcon with
    | existing i M hM hi hraw h1 _ => rw [h1, hlen0] at hlen1; simp at hlen1
    | accepted p P c hl hp hprev hnewT hck k1 k2 k3 k4 k5 => exact k5
  rw [hs1]
  exact append_grown (n := 1) hwf hb1.1 (by norm_num)

/-- The file of the second collection, cut within its third place. -/
example : ∃ (s1 s' s2 : Headers),
    Headers.from_file toyHashes Bitcoin (some (s1.storage.file.take 200)) cp =
      (some (s1.storage.file.take 200), .ok s') ∧ s'.connect raw2 = (s2, .error .indexError) ∧
    Headers.from_file toyHashes Bitcoin (some s2.storage.file) cp = (some s2.storage.file, .error .structError) := by
  obtain ⟨s, s1, s2, r, r2, h1, h2, h3, h4, h5, h6, h7, h8, h9, h10, h11⟩ := history
  obtain ⟨s', s2', g⟩ := C111_ragged env h6 h7 2 h8 200 (by rw [h9]; norm_num) (by norm_num) (by norm_num) raw2 s2 r2 h10 h11
  exact ⟨s1, s', s2', g⟩

/-- A header of which 56 bytes were written. -/
example : ∃ (s s1 s2 : Headers) (r : Header × Nat) (hd : Header) (c : Nat) (e : Err), s.connect raw1 = (s1, .ok r) ∧
    Headers.from_file toyHashes Bitcoin (some (writeAt s1.storage.file 88 torn)) cp =
      (some (writeAt s1.storage.file 88 torn), .ok s2) ∧
    s2.lookup (header_hash toyHashes torn) = .ok (hd, c) ∧ hd.raw = torn ∧ s.connect torn = (s, .error e) := by
  obtain ⟨s, s1, s2, r, r2, h1, h2, h3, h4, h5, _⟩ := history
  obtain ⟨⟨s2', hd, c, g1, g2, g3⟩, e, g4⟩ := C111_torn env h1 h2 1 h3 raw1 (by simp [St]) s1 r h4 h5 56 (by norm_num) (by norm_num)
    torn (by decide +kernel) (by simp [St]) (by decide +kernel) (by decide +kernel) (by decide +kernel)
  exact ⟨s, s1, s2', r, hd, c, e, h4, g1, g2, g3, g4⟩

theorem count_two {s1 : Headers} (h6 : Reachable toyHashes Bitcoin cp St s1 ([raw0] ++ [raw1])) (h8 : s1.len = .ok 2) :
    slice s1.storage.file 4 8 = leBytes 4 2 := by
  obtain ⟨T, hI, _, _, hcp, hA⟩ := reachable_inv env h6
  obtain ⟨cap, hw⟩ := hI.wf
  have hl := hI.len
  rw [h8] at hl
  simp only [Except.ok.injEq] at hl
  have hc0 : cp.height = 0 := rfl
  rw [hcp] at hw hl
  rw [hw.cnt]; congr 1; omega

/-- Only the number of headers did not reach the disk. -/
example : ∃ (s s1 s2 : Headers), Headers.from_file toyHashes Bitcoin (some (writeAt s1.storage.file 4 [1, 0, 0, 0])) cp =
    (some (writeAt s1.storage.file 4 [1, 0, 0, 0]), .ok s2) ∧ SameFrom cp s2 s ∧ s1.len ≠ s.len := by
  obtain ⟨s, s1, s2, r, r2, h1, h2, h3, h4, h5, h6, h7, h8, h9, h10, h11⟩ := history
  have hst : ∀ i, storedAt (writeAt s1.storage.file 4 [1, 0, 0, 0]) i = storedAt s1.storage.file i := by
    intro i
    exact slice_writeAt_after _ _ _ _ _ (by simp) (by rw [h9]; simp)
  obtain ⟨s3, g1, g2⟩ := C111_earlier env h1 (.connect .now (by simp [St]) h2 h4) 1 h3 (writeAt s1.storage.file 4 [1, 0, 0, 0])
    ⟨by rw [writeAt_length _ _ _ (by rw [h9]; simp)]; omega,
      slice_writeAt_before _ _ _ _ _ (by omega) (by rw [h9]; simp),
      by
        have := slice_writeAt_same s1.storage.file 4 [1, 0, 0, 0] (by rw [h9]; simp)
        simp only [List.length_cons, List.length_nil] at this
        rw [this]; rfl,
      hst _, fun i _ _ => .inl (hst i)⟩ (fun i _ _ => hst i)
  exact ⟨s, s1, s3, g1, g2, h5⟩

/-- Only the last header did not reach the disk, and a file cut within it. -/
example : ∃ (s1 : Headers), s1.len = .ok 2 ∧
    Headers.from_file toyHashes Bitcoin (some (writeAt s1.storage.file 88 (zeros 80))) cp =
      (some (writeAt s1.storage.file 88 (zeros 80)), .error .missingHeader) ∧
    Headers.from_file toyHashes Bitcoin (some (s1.storage.file.take 100)) cp =
      (some (s1.storage.file.take 100), .error .structError) := by
  obtain ⟨s, s1, s2, r, r2, h1, h2, h3, h4, h5, h6, h7, h8, h9, h10, h11⟩ := history
  have p1 := count_two h6 h8
  have hz : (zeros 80).length = 80 := by rw [zeros, List.length_replicate]
  have hsame : storedAt (writeAt s1.storage.file 88 (zeros 80)) 1 = zeros 80 := by
    have := slice_writeAt_same s1.storage.file 88 (zeros 80) (by omega)
    rw [hz] at this
    exact this
  have hb : ∀ i j, j ≤ 88 → slice (writeAt s1.storage.file 88 (zeros 80)) i j = slice s1.storage.file i j :=
    fun i j h => slice_writeAt_before _ _ _ _ _ h (by omega)
  have hget : storedAt s1.storage.file 1 ≠ zeros 80 := by
    obtain ⟨T, hI, hH, _, hcp, hA⟩ := reachable_inv env h6
    have hl := hI.len
    rw [h8, hcp] at hl
    simp only [Except.ok.injEq] at hl
    have hc0 : cp.height = 0 := rfl
    have hT : 1 < T.length := by omega
    have := hI.slot_eq (List.getElem?_eq_getElem hT)
    rw [hcp] at this
    have hv := (hI.toDesc.valid (List.getElem?_eq_getElem hT)).nonzero
    rw [← this] at hv
    exact hv
  have := C111_incomplete env h6 .now 2 h8 (writeAt s1.storage.file 88 (zeros 80))
    ⟨by rw [writeAt_length _ _ _ (by omega)]; omega, hb _ _ (by omega), by rw [hb _ _ (by omega), p1]; rfl,
      hb _ _ (by decide), fun i h1 h2 => by
        have : cp.height = 0 := rfl
        obtain rfl : i = 1 := by omega
        exact .inr (.inl hsame)⟩ 1 (by decide) (by decide) (by rw [hsame]; exact hget.symm)
    (fun i h1 h2 => by
      have : cp.height = 0 := rfl
      omega)
  rw [hsame, damageError, if_pos (.inr rfl)] at this
  have hc := (C111_cut env h6 2 h8 100 (by omega)).2.2.1 (by decide) (by decide)
  exact ⟨s1, h8, this, hc⟩

end Bitcoinx.DamageExample
