import Verif.Props.History
import Verif.Spec.Damage

/-! # Reading damaged headers files -/

namespace Bitcoinx
open Spec

theorem slice_clip (b : Bytes) (i j : Nat) : slice b (min i b.length) (min j b.length) = slice b i j := by
  simp only [slice]
  rcases Nat.le_total j b.length with h | h
  · rw [min_eq_left h]
    rcases Nat.le_total i b.length with h' | h'
    · rw [min_eq_left h']
    · rw [min_eq_right h', List.drop_eq_nil_of_le (by simp), List.drop_eq_nil_of_le (by simp; omega)]
  · rw [min_eq_right h, List.take_of_length_le (le_refl _), List.take_of_length_le h]
    rcases Nat.le_total i b.length with h' | h'
    · rw [min_eq_left h']
    · rw [min_eq_right h', List.drop_eq_nil_of_le (le_refl _), List.drop_eq_nil_of_le h']

/-- Reading from any file with a reserved area of eight bytes. -/
theorem get_stored (f : Bytes) (i : Nat) : Storage.get ⟨f, 8⟩ i =
    if storedAt f i = [] ∨ storedAt f i = zeros 80 then .error .missingHeader else .ok (storedAt f i) := by
  have eo : (⟨f, 8⟩ : Storage).offset i = ((8 + 80 * i : Nat) : Int) := by simp [Storage.offset]; omega
  have eo2 : ((8 + 80 * i : Nat) : Int) + 80 = ((8 + 80 * i + 80 : Nat) : Int) := by omega
  have es : pySlice f ((8 + 80 * i : Nat) : Int) ((8 + 80 * i + 80 : Nat) : Int) = storedAt f i := by
    rw [pySlice, Storage.clipIndex_nat, Storage.clipIndex_nat, slice_clip]; rfl
  rw [Storage.get_nat, Storage.header]
  simp only [eo, eo2, es, empty_header]

theorem stored_of_get {f : Bytes} {i : Nat} {x : Bytes} (h : Storage.get ⟨f, 8⟩ i = .ok x) :
    storedAt f i = x ∧ x ≠ [] ∧ x ≠ zeros 80 := by
  rw [get_stored] at h
  split at h
  · cases h
  · next hn =>
    cases h
    rw [not_or] at hn
    exact ⟨rfl, hn⟩

theorem Good.take {H : Hashes} {cp : CheckPoint} {S : Bytes → Prop} {T : Tree} {cs : List Chain}
    (h : Good H cp S T cs) (k : Nat) (h1 : 1 ≤ k) (h2 : k ≤ T.length) :
    ∃ cs', Good H cp S (T.take k) cs' ∧ cs'.length ≤ cs.length := by
  induction h with
  | base hv =>
    have : k = 1 := by simp at h2; omega
    subst this
    exact ⟨_, .base hv, le_refl _⟩
  | @extend T cs p P ch raw hg hp hc hch hv hprev hnew ih =>
    rcases Nat.lt_or_ge T.length k with hk | hk
    · rw [List.take_of_length_le (by rw [List.length_append, List.length_singleton]; omega)]
      exact ⟨_, .extend hg hp hc hch hv hprev hnew, le_refl _⟩
    · obtain ⟨cs', g1, g2⟩ := ih hk
      rw [List.take_append_of_le_length hk]
      exact ⟨cs', g1, by simpa using g2⟩
  | @fork T cs p P raw hg hp hc hv hprev hnew ih =>
    rcases Nat.lt_or_ge T.length k with hk | hk
    · rw [List.take_of_length_le (by rw [List.length_append, List.length_singleton]; omega)]
      exact ⟨_, .fork hg hp hc hv hprev hnew, le_refl _⟩
    · obtain ⟨cs', g1, g2⟩ := ih hk
      rw [List.take_append_of_le_length hk]
      exact ⟨cs', g1, by rw [List.length_append]; omega⟩

/-- A file that begins as a headers file does, with the checkpoint at its place, is opened as it is. -/
theorem open_head {g : Bytes} {cp : CheckPoint} (h8 : 8 ≤ g.length) (hh : slice g 0 4 = [8, 0, 0, 0])
    (hl : cp.raw_header.length = 80) (hne : cp.raw_header ≠ zeros 80) (hc : storedAt g cp.height = cp.raw_header) :
    Storage.open_or_create (some g) cp = (some g, .ok ⟨g, 8⟩) := by
  have h02 : slice g 0 2 = [8, 0] := by
    have : slice g 0 2 = (slice g 0 4).take 2 := by simp [slice, List.take_take]
    rw [this, hh]; rfl
  have h24 : slice g 2 4 = [0, 0] := by
    have : slice g 2 4 = (slice g 0 4).drop 2 := by simp [slice]
    rw [this, hh]; rfl
  have e0 : unpack_le_uint16 (slice g 0 2) = .ok 8 := by rw [h02]; decide
  have e2 : unpack_le_uint16 (slice g 2 4) = .ok 0 := by rw [h24]; decide
  have hf : g ≠ [] := by intro hc; rw [hc] at h8; simp at h8
  have hg : Storage.get ⟨g, 8⟩ cp.height = .ok cp.raw_header := by
    rw [get_stored, hc, if_neg]
    rintro (h | h)
    · rw [h] at hl; simp at hl
    · exact hne h
  have h8' : g.length ≥ 8 := h8
  have ho : Storage.open_file (some g) cp = .ok ⟨g, 8⟩ := by
    simp only [Storage.open_file, hf, if_false, h8', if_true, e0, e2, ok_bind', pure_ok',
      show (8 : Int).toNat = 8 from rfl, hg]
  simp only [Storage.open_or_create, ho]

theorem len_of_count {g : Bytes} {n : Nat} (h8 : 8 ≤ g.length) (h : leValue (slice g 4 8) = n) :
    Storage.len ⟨g, 8⟩ = .ok (n : Int) := by
  have h4 : (slice g 4 8).length = 4 := by rw [slice_length _ _ _ (by omega)]
  rw [Storage.len, unpack_le_uint32, unpackU, if_pos h4, le_bytes_to_int_eq, h]

variable {S : Bytes → Prop} {s : Headers} {T : Tree}

theorem Inv.storage_eq (h : Inv S s T) : s.storage = ⟨s.storage.file, 8⟩ := by
  obtain ⟨cap, hw⟩ := h.wf
  rw [← hw.reserved]

theorem Inv.slot_eq (h : Inv S s T) {i : Nat} {N : Node} (hN : T[i]? = some N) :
    storedAt s.storage.file (i + s.checkpoint.height) = N.raw := by
  have := h.stored i N hN
  rw [h.storage_eq, ← Int.natCast_add] at this
  exact (stored_of_get this).1

theorem Inv.file_head (h : Inv S s T) : slice s.storage.file 0 4 = [8, 0, 0, 0] := by
  obtain ⟨cap, hw⟩ := h.wf
  exact hw.head

/-- A file in which all headers of a tree are at their places is opened to it, whatever comes after them. -/
theorem opens_tree {H : Hashes} {coin : Coin} {cp : CheckPoint} {cs : List Chain} (he : Env H cp S)
    (hg : Good H cp S T cs) (hcs : cs.length ≤ 65536) (hlt : cp.height + T.length < 2 ^ 32) {g : Bytes}
    (h8 : 8 ≤ g.length) (hh : slice g 0 4 = [8, 0, 0, 0]) (hn : leValue (slice g 4 8) = cp.height + T.length)
    (hst : ∀ (i : Nat) (N : Node), T[i]? = some N → storedAt g (i + cp.height) = N.raw) :
    ∃ s, Headers.from_file H coin (some g) cp = (some g, .ok s) ∧ Desc S s T ∧ s.chains = cs ∧ s.storage = ⟨g, 8⟩ ∧
      s.H = H ∧ s.coin = coin ∧ s.checkpoint = cp := by
  have hcp := hst 0 _ hg.root_node
  simp only [Nat.zero_add] at hcp
  have ho := open_head h8 hh he.cp_length he.cp_ne hcp
  have hst' : ∀ (i : Nat) (N : Node), T[i]? = some N → Storage.get ⟨g, 8⟩ ((i : Int) + cp.height) = .ok N.raw := by
    intro i N hN
    have hv := (hg.node i N hN).valid
    rw [← Int.natCast_add, get_stored, hst i N hN, if_neg]
    rintro (h | h)
    · have := hv.length; rw [h] at this; simp at this
    · exact hv.nonzero h
  obtain ⟨s, h1, h2⟩ := init_spec (coin := coin) he.inj hg hst' (by
    rw [len_of_count h8 hn]) hlt hcs
  refine ⟨s, ?_, h2⟩
  simp only [Headers.from_file, ho, h1]

/-- A file in which the headers of a tree are at their places, and the number of headers is greater but no header follows,
is not opened. -/
theorem refuses_tree {H : Hashes} {coin : Coin} {cp : CheckPoint} {cs : List Chain} (he : Env H cp S)
    (hg : Good H cp S T cs) (hcs : cs.length ≤ 65536) {n : Nat} {g : Bytes}
    (h8 : 8 ≤ g.length) (hh : slice g 0 4 = [8, 0, 0, 0]) (hn : leValue (slice g 4 8) = n) (hnt : cp.height + T.length < n)
    (hst : ∀ (i : Nat) (N : Node), T[i]? = some N → storedAt g (i + cp.height) = N.raw)
    (hbad : storedAt g (cp.height + T.length) = zeros 80 ∨ (storedAt g (cp.height + T.length)).length < 80) :
    Headers.from_file H coin (some g) cp = (some g, .error (damageError (storedAt g (cp.height + T.length)))) := by
  have hcp := hst 0 _ hg.root_node
  simp only [Nat.zero_add] at hcp
  have ho := open_head h8 hh he.cp_length he.cp_ne hcp
  have hst' : ∀ (i : Nat) (N : Node), T[i]? = some N → Storage.get ⟨g, 8⟩ ((i : Int) + cp.height) = .ok N.raw := by
    intro i N hN
    have hv := (hg.node i N hN).valid
    rw [← Int.natCast_add, get_stored, hst i N hN, if_neg]
    rintro (h | h)
    · have := hv.length; rw [h] at this; simp at this
    · exact hv.nonzero h
  have hlt : n < 2 ^ 32 := by
    have h4 : (slice g 4 8).length = 4 := by rw [slice_length _ _ _ (by omega)]
    have := leValue_lt (slice g 4 8)
    rw [h4, hn] at this
    norm_num at this ⊢; omega
  obtain ⟨s, a1, a2, a3, a4, a5, a6, a7⟩ := read_all (coin := coin) he.inj hg hst' (by omega) hcs
  have hpos := hg.length_pos
  have hread : (s.read_header (cp.height + 1 + (T.length - 1))).2 =
      .error (damageError (storedAt g (cp.height + T.length))) := by
    rw [show cp.height + 1 + (T.length - 1) = cp.height + T.length by omega]
    have hp : s.read_prev (cp.height + T.length) = .error (damageError (storedAt g (cp.height + T.length))) := by
      rw [Headers.read_prev, a4, get_stored, damageError]
      split
      · rfl
      · next hx =>
        rw [not_or] at hx
        have hl : (storedAt g (cp.height + T.length)).length ≠ 80 := by
          rcases hbad with h | h
          · exact absurd h hx.2
          · omega
        simp only [ok_bind', deserialized_header_err _ _ _ hl, error_bind']
    rw [Headers.read_header, hp]
  have hall := read_headers_error (T.length - 1) (cp.height + 1) a1 (n - (cp.height + T.length) - 1) hread
  rw [show T.length - 1 + 1 + (n - (cp.height + T.length) - 1) = n - (cp.height + 1) by omega] at hall
  have hv := (hg.node 0 _ hg.root_node).valid
  simp only at hv
  simp only [Headers.from_file, ho, init_read (coin := coin) he hv.work (k := n - (cp.height + 1)) (by
    rw [len_of_count h8 hn]; congr 2; omega)]
  rcases hb : (baseHeaders H coin ⟨g, 8⟩ cp).read_headers (cp.height + 1) (n - (cp.height + 1)) with ⟨s1, r⟩
  rw [hb] at hall
  simp only at hall
  subst hall
  rfl

/-- Two states with the same tree and chains. -/
theorem Desc.sameFrom {s' : Headers} (hI : Desc S s T) (h : Desc S s' T) (hi : Inj s.H S) (hH : s'.H = s.H)
    (hcp : s'.checkpoint = s.checkpoint) (hch : s'.chains = s.chains) (hlen : s'.len = s.len) :
    SameFrom s.checkpoint s' s := by
  refine ⟨hch, hlen, ?_, ?_⟩
  · intro hash hn
    by_cases hx : ∃ (i : Nat) (N : Node), T[i]? = some N ∧ header_hash s.H N.raw = hash
    · obtain ⟨i, N, hN, rfl⟩ := hx
      have := h.lookup_found (by rw [hH]; exact hi) hN
      rw [hH, hcp] at this
      rw [this, hI.lookup_found hi hN]
    · rw [hI.lookup_missing hn (fun i N hN hh => hx ⟨i, N, hN, hh⟩),
        h.lookup_missing hn (fun i N hN hh => hx ⟨i, N, hN, by rw [← hH]; exact hh⟩)]
  · intro c k hk
    cases hc : s.chains[c]? with
    | none =>
      simp only [Headers.raw_header_at_height, Headers.header_index, hch]
      cases hfu : s.chains.length with
      | zero => simp [Chain.header_index]
      | succ m => simp [Chain.header_index, hc]
    | some ch =>
      obtain ⟨t, N, base, own, hci⟩ := hI.chain_at hc
      obtain ⟨j, rfl⟩ : ∃ j : Nat, k = ((s.checkpoint.height + j : Nat) : Int) := ⟨(k - s.checkpoint.height).toNat, by omega⟩
      cases hj : N.path[j]? with
      | some i =>
        have hlt : i < T.length := 
          lt_of_le_of_lt ((hI.good.node t N hci.node).le i (List.mem_of_getElem? hj)) (getElem?_lt hci.node)
        obtain ⟨M, hM⟩ : ∃ M, T[i]? = some M := ⟨_, List.getElem?_eq_getElem hlt⟩
        rw [hI.raw_at hc hci hj hM]
        have hci' : Good.ChainIs s'.H s'.checkpoint T c ch t N base own := by rw [hH, hcp]; exact hci
        have := h.raw_at (by rw [hch]; exact hc) hci' hj hM
        rw [hcp] at this
        exact this
      | none =>
        have hle := List.getElem?_eq_none_iff.1 hj
        have hh := (hI.height_eq hci).1
        have hpos := (hI.good.node t N hci.node).pos
        have habove : ch.height < ((s.checkpoint.height + j : Nat) : Int) := by
          rw [hh, nodeHeight]; omega
        rw [hI.raw_above hc habove, h.raw_above (by rw [hch]; exact hc) habove]

end Bitcoinx
