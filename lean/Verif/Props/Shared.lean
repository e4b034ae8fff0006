import Verif.Model.Shared
import Verif.Props.History
import Verif.Props.Concurrent

/-! # C114: two collections on one file -/

namespace Bitcoinx
open Spec

section
variable {H : Hashes} {coin : Coin} {cp : CheckPoint} {S : Bytes → Prop} {a a' b : Headers} {A A' : List Bytes} {T T' : Tree}

theorem Shared.slice_take {f : Bytes} {i j L : Nat} (h : j ≤ L) : slice (f.take L) i j = slice f i j := by
  unfold slice
  rw [List.take_take, min_eq_left h]

/-- What the second object sees of a header within its mapping. -/
theorem get_take {st st' : Storage} {n cap n' cap' : Nat} (h : st.WF n cap) (h' : st'.WF n' cap') {i : Nat} (hi : i < cap)
    (hi' : i < cap') : ({ st with file := st'.file.take st.file.length } : Storage).get i = st'.get i := by
  have hl := h.length
  have hl' := h'.length
  rw [Storage.get_nat, Storage.get_nat]
  unfold Storage.header Storage.offset
  simp only [h.reserved, h'.reserved]
  have e : pySlice (st'.file.take st.file.length) (((8 : Nat) : Int) + (i : Int) * 80) (((8 : Nat) : Int) + (i : Int) * 80 + 80) =
      pySlice st'.file (((8 : Nat) : Int) + (i : Int) * 80) (((8 : Nat) : Int) + (i : Int) * 80 + 80) := by
    have e1 : ((8 : Nat) : Int) + (i : Int) * 80 = ((8 + 80 * i : Nat) : Int) := by omega
    have e2 : ((8 : Nat) : Int) + (i : Int) * 80 + 80 = ((8 + 80 * i + 80 : Nat) : Int) := by omega
    rw [e2, e1, pySlice, pySlice, Storage.clipIndex_nat, Storage.clipIndex_nat, Storage.clipIndex_nat,
      Storage.clipIndex_nat, List.length_take,
      min_eq_left (by omega), min_eq_left (by omega), min_eq_left (by omega), min_eq_left (by omega), Shared.slice_take (by omega)]
  rw [e]

/-- The second object is described by the tree that it was opened with. -/
theorem see_desc (he : Env H cp S) (hr : Reachable H coin cp S a A) {f : Option Bytes}
    (hb : Headers.from_file H coin (some a.storage.file) cp = (f, .ok b)) (hl : Later H coin cp S a a') :
    ∃ T T2, Inv S a T ∧ Inv S b T ∧ Inv S a' (T ++ T2) ∧ Desc S (b.see a'.storage.file) T ∧ b.H = H ∧ b.checkpoint = cp ∧
      a'.H = H ∧ a'.checkpoint = cp ∧ b.chains = a.chains ∧ b.storage = a.storage ∧
      (∀ x, x ∈ A ↔ ∃ (i : Nat) (N : Node), T[i]? = some N ∧ N.raw = x) := by
  obtain ⟨T, hI, rfl, rfl, rfl, hA⟩ := reachable_inv he hr
  obtain ⟨b', h1, h2, h3, h4, h5, h6, h7⟩ := hI.reopen a.coin
  rw [h1] at hb
  cases hb
  obtain ⟨T2, g1, g2, g3, g4, g5⟩ := later_tree hI hl
  refine ⟨T, T2, hI, h2, g1, ?_, h5, h7, g2, g4, h3, h4, hA⟩
  refine ⟨h2.good, h2.heights, h2.chain_indices, h2.short, h2.cache, ?_⟩
  intro i N hN
  obtain ⟨cap, hw⟩ := h2.wf
  obtain ⟨cap', hw'⟩ := g1.wf
  have hi := getElem?_lt hN
  have c1 := hw.count_le
  have c2 := hw'.count_le
  rw [List.length_append, g4] at c2
  rw [h7] at c1
  have e := get_take hw hw' (i := i + a.checkpoint.height) (by omega) (by omega)
  have := g1.stored i N (getElem?_append_some hN)
  rw [g4, ← Int.natCast_add] at this
  show Storage.get { b.storage with file := a'.storage.file.take b.storage.file.length } ((i : Int) + b.checkpoint.height) = _
  rw [h7, ← Int.natCast_add, e, this]

theorem see_len {T T' : Tree} (hb : Inv S b T) (ha : Inv S a T') : (b.see a.storage.file).len = a.len := by
  obtain ⟨cap, hw⟩ := hb.wf
  have := hw.length
  have h0 := hb.good.length_pos
  have := hw.count_le
  show unpack_le_uint32 (slice (a.storage.file.take b.storage.file.length) 4 8) = unpack_le_uint32 (slice a.storage.file 4 8)
  rw [Shared.slice_take (by omega)]

/-- A collection opened from the file of another, while the other goes on: it answers as when it was opened, except that
`len` counts the headers of the other and the headers before the checkpoint are those that the other has set. -/
theorem C114_reader (he : Env H cp S) (hr : Reachable H coin cp S a A) {f : Option Bytes}
    (hb : Headers.from_file H coin (some a.storage.file) cp = (f, .ok b)) (hl : Later H coin cp S a a') :
    (∀ hash, hash ≠ [] → (b.see a'.storage.file).lookup hash = a.lookup hash) ∧
    (∀ c, c < a.chains.length → ∀ k : Int, cp.height ≤ k →
      (b.see a'.storage.file).raw_header_at_height c k = a.raw_header_at_height c k) ∧
    (∀ c, c < a.chains.length → ∀ k : Int, k < cp.height →
      (b.see a'.storage.file).raw_header_at_height c k = a'.raw_header_at_height c k) ∧
    (b.see a'.storage.file).chains = a.chains ∧ (b.see a'.storage.file).len = a'.len := by
  obtain ⟨T, T2, ha, hbI, ha', hd, e1, e2, e3, e4, e5, e6, hA⟩ := see_desc he hr hb hl
  have eH : a.H = H := (reachable_inv he hr).choose_spec.2.1
  have eC : a.checkpoint = cp := (reachable_inv he hr).choose_spec.2.2.2.1
  have hinj : Inj (b.see a'.storage.file).H S := hbI.env.inj
  have hH : (b.see a'.storage.file).H = a.H := by rw [eH, ← e1]; rfl
  have hC : (b.see a'.storage.file).checkpoint = a.checkpoint := by rw [eC, ← e2]; rfl
  refine ⟨fun hash hne => ?_, fun c hc k hk => ?_, fun c hc k hk => ?_, e5, see_len hbI ha'⟩
  · by_cases hm : ∃ (i : Nat) (N : Node), T[i]? = some N ∧ header_hash a.H N.raw = hash
    · obtain ⟨i, N, hN, rfl⟩ := hm
      have h1 := hd.lookup_found hinj hN
      rw [hH, hC] at h1
      rw [h1, ha.toDesc.lookup_found ha.env.inj hN]
    · push Not at hm
      rw [hd.lookup_missing hne (by rw [hH]; exact hm), ha.toDesc.lookup_missing hne hm]
  · have hch : a.chains[c]? = some a.chains[c] := List.getElem?_eq_getElem hc
    have hch' : (b.see a'.storage.file).chains[c]? = some a.chains[c] := by
      show b.chains[c]? = _
      rw [e5]; exact hch
    obtain ⟨t, N, base, own, hci⟩ := ha.toDesc.chain_at hch
    have hci' : Good.ChainIs (b.see a'.storage.file).H (b.see a'.storage.file).checkpoint T c a.chains[c] t N base own := by
      rw [hH, hC]; exact hci
    obtain ⟨n, rfl⟩ : ∃ n : Nat, k = ((cp.height + n : Nat) : Int) := ⟨(k - cp.height).toNat, by omega⟩
    by_cases hn : n < N.path.length
    · obtain ⟨i, hi⟩ : ∃ i, N.path[n]? = some i := ⟨_, List.getElem?_eq_getElem hn⟩
      obtain ⟨M, hM, _⟩ := ha.good.path _ _ _ _ hci.node hi
      have h1 := hd.raw_at hch' hci' hi hM
      have h2 := ha.toDesc.raw_at hch hci hi hM
      rw [hC, eC] at h1
      rw [eC] at h2
      rw [h1, h2]
    · unfold Headers.raw_header_at_height Headers.header_index
      rw [hd.good.header_index _ c _ t N base own hch' hci' (getElem?_lt hch'),
        ha.good.header_index _ c _ t N base own hch hci (getElem?_lt hch), hC, eC]
      have q1 : ¬ ((cp.height + n : Nat) : Int) < 0 := by omega
      have q2 : ¬ ((cp.height + n : Nat) : Int) < (cp.height : Int) := by omega
      have q3 : (((cp.height + n : Nat) : Int) - (cp.height : Int)).toNat = n := by omega
      have q4 : N.path[n]? = none := List.getElem?_eq_none (by omega)
      simp only [q1, q2, if_false, q3, q4, error_bind']
  · have hch' : (b.see a'.storage.file).chains[c]? = some a.chains[c] := by
      show b.chains[c]? = _
      rw [e5]; exact List.getElem?_eq_getElem hc
    obtain ⟨ch2, hch2, _⟩ := C97_chain he hr hl c _ (List.getElem?_eq_getElem hc)
    rcases lt_or_ge k 0 with hneg | hpos
    · rw [hd.raw_neg hch' hneg, ha'.toDesc.raw_neg hch2 hneg]
    · obtain ⟨n, rfl⟩ : ∃ n : Nat, k = (n : Int) := ⟨k.toNat, by omega⟩
      rw [hd.raw_below hch' (by rw [hC, eC]; omega), ha'.toDesc.raw_below hch2 (by rw [e4]; omega)]
      obtain ⟨cap, hw⟩ := hbI.wf
      obtain ⟨cap', hw'⟩ := ha'.wf
      have c1 := hw.count_le
      have c2 := hw'.count_le
      rw [e2] at c1
      rw [e4] at c2
      exact get_take hw hw' (by omega) (by omega)

/-- What `_read_header` does to the fields that a search uses. -/
theorem read_header_effect {x x' : Headers} {i c : Nat} (h : x.read_header i = (x', .ok c)) :
    ∃ raw, x.storage.get i = .ok raw ∧ x'.storage = x.storage ∧ x'.H = x.H ∧ x'.checkpoint = x.checkpoint ∧
      x'.short_hashes = x.short_hashes ++ (header_hash x.H raw).take 4 := by
  rcases h0 : x.read_prev i with e | ⟨new_tip, prev, c0⟩
  · simp only [Headers.read_header, h0] at h; cases h
  obtain ⟨raw, hg, hnt⟩ : ∃ raw, x.storage.get i = .ok raw ∧ new_tip.hash = header_hash x.H raw := by
    unfold Headers.read_prev at h0
    obtain ⟨raw, hg, h0⟩ := bind_eq_ok.mp h0
    obtain ⟨nt, hd, h0⟩ := bind_eq_ok.mp h0
    obtain ⟨⟨p, q⟩, hlk, h0⟩ := bind_eq_ok.mp h0
    simp only [pure_ok', Except.ok.injEq, Prod.mk.injEq] at h0
    refine ⟨raw, hg, ?_⟩
    rw [← h0.1]
    exact (deserialized_header_fields hd).2.2.2.1
  have tip : ∀ {y y' : Headers} {ch : Chain} {k : Nat}, y.add_chain_tip ch k = (y', .ok ()) →
      y'.storage = y.storage ∧ y'.H = y.H ∧ y'.checkpoint = y.checkpoint ∧
        y'.short_hashes = y.short_hashes ++ ch.tip.hash.take 4 := by
    intro y y' ch k hy
    rw [Headers.add_chain_tip] at hy
    generalize arrayAppend 4 y.heights ch.tip.height = r1 at hy
    generalize arrayAppend 2 y.chain_indices k = r2 at hy
    cases r1 with
    | error e => cases hy
    | ok r1 =>
      cases r2 with
      | error e => cases hy
      | ok r2 =>
        have := congrArg Prod.fst hy
        subst this
        exact ⟨rfl, rfl, rfl, rfl⟩
  refine ⟨raw, hg, ?_⟩
  rcases h1 : x.chains[c0]? with _ | chain
  · simp only [Headers.read_header, h0, h1] at h; cases h
  by_cases ht : chain.tip.hash = prev.hash
  · rcases h2 : chain.append new_tip i with ⟨ch, e | u⟩
    · simp only [Headers.read_header, h0, h1, ht, if_true, h2] at h; cases h
    rcases h3 : Headers.add_chain_tip { x with chains := x.chains.set c0 ch } ch c0 with ⟨s2, e | v⟩
    · simp only [Headers.read_header, h0, h1, ht, if_true, h2, h3] at h; cases h
    simp only [Headers.read_header, h0, h1, ht, if_true, h2, h3] at h
    have e : s2 = x' := congrArg Prod.fst h
    subst e
    have htip : ch.tip = new_tip := by
      have := Moment.append_tip chain new_tip i
      rw [h2] at this; exact this
    obtain ⟨t1, t2, t3, t4⟩ := tip h3
    rw [htip, hnt] at t4
    exact ⟨t1, t2, t3, t4⟩
  · rcases h2 : x.chainwork_to_height c0 prev.height with e | pw
    · simp only [Headers.read_header, h0, h1, ht, if_false, h2] at h; cases h
    rcases h3 : Chain.new (some c0) new_tip i pw with e | ch
    · simp only [Headers.read_header, h0, h1, ht, if_false, h2, h3] at h; cases h
    rcases h4 : Headers.add_chain x ch with ⟨s2, er | v⟩
    · simp only [Headers.read_header, h0, h1, ht, if_false, h2, h3, h4] at h; cases h
    simp only [Headers.read_header, h0, h1, ht, if_false, h2, h3, h4] at h
    have e : s2 = x' := congrArg Prod.fst h
    subst e
    have htip : ch.tip = new_tip := by
      unfold Chain.new at h3
      obtain ⟨w, _, h3⟩ := bind_eq_ok.mp h3
      obtain ⟨l, _, h3⟩ := bind_eq_ok.mp h3
      simp only [pure_ok', Except.ok.injEq] at h3
      rw [← h3]
    rw [Headers.add_chain] at h4
    obtain ⟨t1, t2, t3, t4⟩ := tip h4
    rw [htip, hnt] at t4
    exact ⟨t1, t2, t3, t4⟩

/-- A header that is not held is stored by `connect`. -/
theorem connect_stores {x x' : Headers} (hd : Desc S x T) {raw : Bytes} (hnew : ∀ (i : Nat) (N : Node), T[i]? = some N →
    header_hash x.H N.raw ≠ header_hash x.H raw) {r : Header × Nat} (h : x.connect raw = (x', .ok r)) :
    ∃ i v, x.storage.append raw = (x'.storage, .ok i) ∧ x'.storage.get i = .ok v ∧ x'.H = x.H ∧
      x'.checkpoint = x.checkpoint ∧ x'.short_hashes = x.short_hashes ++ (header_hash x.H v).take 4 := by
  unfold Headers.connect at h
  rcases hck : x.connect_check raw with e | ⟨r' | hd'⟩
  · rw [hck] at h; cases h
  · exfalso
    unfold Headers.connect_check at hck
    obtain ⟨hdr, h1, hck⟩ := bind_eq_ok.mp hck
    obtain ⟨⟨p, c⟩, h2, hck⟩ := bind_eq_ok.mp hck
    have hh := (deserialized_header_fields h1).2.2.2.1
    have hm : x.lookup hdr.hash = .error .missingHeader := by
      rw [hh]
      apply hd.lookup_missing _ hnew
      intro hc
      have := header_hash_length x.H raw
      rw [hc] at this; cases this
    simp only [hm] at hck
    split at hck
    · cases hck
    · simp only [ite_self] at hck
      obtain ⟨rb, _, hck⟩ := bind_eq_ok.mp hck
      split at hck
      · cases hck
      · obtain ⟨t, _, hck⟩ := bind_eq_ok.mp hck
        split at hck
        · cases hck
        · simp only [pure_ok', Except.ok.injEq] at hck
          cases hck
  · rw [hck] at h
    simp only at h
    rcases ha : x.storage.append raw with ⟨st, e | i⟩
    · rw [ha] at h; cases h
    rw [ha] at h
    simp only at h
    rcases hrd : Headers.read_header { x with storage := st } i with ⟨x2, e | c⟩
    · rw [hrd] at h; cases h
    rw [hrd] at h
    have e : x2 = x' := congrArg Prod.fst h
    subst e
    obtain ⟨v, v1, v2, v3, v4, v5⟩ := read_header_effect hrd
    refine ⟨i, v, ?_, ?_, v3, v4, v5⟩
    · rw [v2]
    · rw [v2]; exact v1

/-- A search that meets only headers with other hashes. -/
theorem slow_missing_of {x : Headers} {hash : Bytes} (hne : hash ≠ [])
    (hno : ∀ j : Nat, 4 * j < x.short_hashes.length → ∃ v, x.storage.get ((j : Int) + x.checkpoint.height) = .ok v ∧
      header_hash x.H v ≠ hash)
    (fuel start : Nat) (hf : start + fuel = x.short_hashes.length + 2) (hs : start ≤ x.short_hashes.length + 1) :
    x.header_index_slow_loop hash fuel start = .error .missingHeader := by
  induction fuel generalizing start with
  | zero => omega
  | succ fuel ih =>
    have hkey : hash.take 4 ≠ [] := by
      intro hc
      have h1 := congrArg List.length hc
      have h2 := List.length_pos_iff.2 hne
      rw [List.length_take, List.length_nil] at h1
      omega
    simp only [Headers.header_index_slow_loop]
    cases hfind : bytesFind x.short_hashes (hash.take 4) start with
    | none => rfl
    | some j =>
      have hj := bytesFind_some hfind hkey
      have hrec := ih (start + 1) (by omega) (by omega)
      simp only
      by_cases hm : j % 4 = 0
      · obtain ⟨v, v1, v2⟩ := hno (j / 4) (by omega)
        simp only [hm, if_true, v1, v2, if_false, hrec]
      · simp only [hm, if_false, hrec]

theorem append_get {st st' : Storage} {n cap i : Nat} (h : st.WF n cap) (hn : n + 1 < 2 ^ 32) {raw : Bytes}
    (ha : st.append raw = (st', .ok i)) :
    i = n ∧ (∃ cap', st'.WF (n + 1) cap') ∧ (∀ v, st'.get n = .ok v → v = raw) ∧
      ∀ k : Nat, k ≠ n → st'.get k = st.get k := by
  unfold Storage.append at ha
  rw [h.len] at ha
  simp only [Int.toNat_natCast] at ha
  by_cases hl : raw.length = 80
  · obtain ⟨st2, cap', h1, h2, h3, h4, h5⟩ := h.get_set n raw hl hn
    rw [h1] at ha
    simp only [Prod.mk.injEq, Except.ok.injEq] at ha
    obtain ⟨rfl, rfl⟩ := ha
    rw [max_eq_right (by omega)] at h2
    refine ⟨rfl, ⟨cap', h2⟩, fun v hv => ?_, h5⟩
    by_cases he : raw = empty_header
    · rw [h4 he] at hv; cases hv
    · rw [h3 he] at hv; injection hv with hv; exact hv.symm
  · simp only [Storage.set_raw_header, ne_eq, hl, not_false_eq_true, if_true] at ha
    cases ha

/-- The second object connects a header that is new to it, after the first has stored others (without enlarging the file,
so that both mappings span it).  The header comes after those of the first in the file, a second time if the first has
stored it too.  The first object does not notice, and the second cannot find the header once it has left the cache. -/
theorem C114_writer (he : Env H cp S) (hr : Reachable H coin cp S a A) {f : Option Bytes}
    (hb : Headers.from_file H coin (some a.storage.file) cp = (f, .ok b)) (hl : Later H coin cp S a a')
    (hr' : Reachable H coin cp S a' A') (hlen : a'.storage.file.length = a.storage.file.length) (hmore : a'.len ≠ a.len)
    (hroom : ∀ n, a'.len = .ok n → n + 1 < 2 ^ 32) {raw : Bytes} (hS : S raw) (hnew : raw ∉ A) {b' : Headers}
    {r : Header × Nat} (hc : (b.see a'.storage.file).connect raw = (b', .ok r)) :
    (∃ n : Nat, a'.len = .ok (n : Int) ∧ b'.len = .ok ((n + 1 : Nat) : Int) ∧ b'.storage.get n = .ok raw ∧
      (∀ k : Nat, k ≠ n → b'.storage.get k = a'.storage.get k) ∧
      (raw ∈ A' → ∃ k < n, b'.storage.get k = .ok raw)) ∧
    (∀ hash, hash ≠ [] → (a'.see b'.storage.file).lookup hash = a'.lookup hash) ∧
    (raw ∉ A' → ∀ cache, dictGet cache (header_hash H raw) = none →
      Headers.lookup { b' with cache } (header_hash H raw) = .error .missingHeader) := by
  obtain ⟨T, T2, ha, hbI, ha', hd, e1, e2, e3, e4, e5, e6, hA⟩ := see_desc he hr hb hl
  have eC : a.checkpoint = cp := (reachable_inv he hr).choose_spec.2.2.2.1
  obtain ⟨T', hI', _, _, _, hA'⟩ := reachable_inv he hr'
  obtain ⟨cap, hw⟩ := hbI.wf
  obtain ⟨cap', hw'⟩ := ha'.wf
  have hst : (b.see a'.storage.file).storage = a'.storage := by
    have h1 : b.storage.reserved_size = a'.storage.reserved_size := by rw [hw.reserved, hw'.reserved]
    have h2 : a'.storage.file.take b.storage.file.length = a'.storage.file := by
      rw [e6, ← hlen]; exact List.take_length
    show ({ b.storage with file := a'.storage.file.take b.storage.file.length } : Storage) = _
    rw [h2, show b.storage = ⟨b.storage.file, b.storage.reserved_size⟩ from rfl, h1]
  have hH : (b.see a'.storage.file).H = H := e1
  have hC : (b.see a'.storage.file).checkpoint = cp := e2
  have hTne : ∀ (i : Nat) (N : Node), T[i]? = some N → header_hash H N.raw ≠ header_hash H raw := by
    intro i N hN hq
    have := he.inj _ _ (ha.toDesc.valid hN).mem hS hq
    exact hnew ((hA raw).2 ⟨i, N, hN, this⟩)
  obtain ⟨i, v, c1, c2, c3, c4, c5⟩ := connect_stores hd (by rw [hH]; exact hTne) hc
  rw [hst] at c1
  have hla' := ha'.len
  rw [e4] at hla'
  have hla := ha.len
  rw [eC] at hla
  have hn := hroom _ hla'
  rw [e4] at hw'
  have hT2 : 0 < T2.length := by
    by_contra h0
    apply hmore
    rw [hla', hla, List.length_append, show T2.length = 0 by omega]
    rfl
  obtain ⟨rfl, ⟨cap2, hw2⟩, g1, g2⟩ := append_get hw' (by omega) c1
  have hv : v = raw := g1 v c2
  subst hv
  have hstored : ∀ (k : Nat) (N : Node), (T ++ T2)[k]? = some N →
      b'.storage.get ((k : Int) + cp.height) = .ok N.raw := by
    intro k N hN
    have hk := getElem?_lt hN
    rw [← Int.natCast_add, g2 (k + cp.height) (by omega), Int.natCast_add]
    have := ha'.stored k N hN
    rwa [e4] at this
  -- the tree of the first object, by both descriptions
  have hmem : v ∈ A' → ∃ (k : Nat) (N : Node), (T ++ T2)[k]? = some N ∧ N.raw = v := by
    intro hm
    obtain ⟨k, N, hN, rfl⟩ := (hA' v).1 hm
    have h1 := hI'.stored k N hN
    exact ⟨k, ha'.held k N.raw h1⟩
  refine ⟨⟨_, hla', hw2.len, c2, g2, ?_⟩, ?_, ?_⟩
  · intro hm
    obtain ⟨k, N, hN, rfl⟩ := hmem hm
    have hk := getElem?_lt hN
    refine ⟨k + cp.height, by omega, ?_⟩
    rw [Int.natCast_add]
    exact hstored k N hN
  · have hd2 : Desc S (a'.see b'.storage.file) (T ++ T2) := by
      refine ⟨ha'.good, ha'.heights, ha'.chain_indices, ha'.short, ha'.cache, ?_⟩
      intro k N hN
      have hk := getElem?_lt hN
      have q1 := hw'.count_le
      have q2 := hw2.count_le
      have e := get_take hw' hw2 (i := k + cp.height) (by omega) (by omega)
      show Storage.get { a'.storage with file := b'.storage.file.take a'.storage.file.length } ((k : Int) + a'.checkpoint.height) = _
      rw [e4, ← Int.natCast_add, e, Int.natCast_add]
      exact hstored k N hN
    intro hash hne
    by_cases hm : ∃ (i : Nat) (N : Node), (T ++ T2)[i]? = some N ∧ header_hash a'.H N.raw = hash
    · obtain ⟨i, N, hN, rfl⟩ := hm
      exact (hd2.lookup_found ha'.env.inj hN).trans (ha'.toDesc.lookup_found ha'.env.inj hN).symm
    · push Not at hm
      exact (hd2.lookup_missing hne hm).trans (ha'.toDesc.lookup_missing hne hm).symm
  · intro hm cache hcache
    have hno : ∀ (k : Nat) (N : Node), (T ++ T2)[k]? = some N → header_hash H N.raw ≠ header_hash H v := by
      intro k N hN hq
      have := he.inj _ _ (ha'.toDesc.valid hN).mem hS hq
      subst this
      apply hm
      have h1 := ha'.stored k N hN
      obtain ⟨M, hM, hMr⟩ := hI'.held k N.raw h1
      exact (hA' _).2 ⟨k, M, hM, hMr⟩
    have hne : header_hash H v ≠ [] := by
      intro hq
      have := header_hash_length H v
      rw [hq] at this; cases this
    rw [hH] at c3 c5
    rw [hC] at c4
    have hs : b'.short_hashes.length = 4 * T.length + 4 := by
      have h1 : (b.see a'.storage.file).short_hashes.length = 4 * T.length := hd.short_length
      rw [c5, List.length_append, h1, List.length_take, header_hash_length]
      rfl
    have := slow_missing_of (x := b') hne (fun j hj => by
      obtain ⟨N, hN⟩ : ∃ N, (T ++ T2)[j]? = some N :=
        ⟨_, List.getElem?_eq_getElem (by rw [List.length_append]; omega)⟩
      rw [c4, c3]
      exact ⟨N.raw, hstored j N hN, hno j N hN⟩) (b'.short_hashes.length + 2) 0 (by omega) (by omega)
    simp only [Headers.lookup, hcache, Headers.header_index_slow, slow_loop_cache, this, error_bind']

/-- If the first object would have accepted the header as well, then it is stored as if the first had connected it: a
collection opened afterwards holds all headers. -/
theorem C114_reopen (he : Env H cp S) (hr : Reachable H coin cp S a A) {f : Option Bytes}
    (hb : Headers.from_file H coin (some a.storage.file) cp = (f, .ok b)) (hl : Later H coin cp S a a')
    (hr' : Reachable H coin cp S a' A') (hlen : a'.storage.file.length = a.storage.file.length) (hroom : Room a')
    {raw : Bytes} (hS : S raw) (hnew : raw ∉ A') {a'' b' : Headers} {r r' : Header × Nat}
    (ha'' : a'.connect raw = (a'', .ok r')) (hc : (b.see a'.storage.file).connect raw = (b', .ok r)) :
    ∃ s, Headers.from_file H coin (some b'.storage.file) cp = (some b'.storage.file, .ok s) ∧
      Reachable H coin cp S s (A' ++ [raw]) ∧ s.chains = a''.chains ∧ ∀ hash, hash ≠ [] → s.lookup hash = a''.lookup hash := by
  obtain ⟨T, T2, ha, hbI, ha', hd, e1, e2, e3, e4, e5, e6, hA⟩ := see_desc he hr hb hl
  obtain ⟨T', hI', _, _, _, hA'⟩ := reachable_inv he hr'
  obtain ⟨cap, hw⟩ := hbI.wf
  obtain ⟨cap', hw'⟩ := ha'.wf
  have hst : (b.see a'.storage.file).storage = a'.storage := by
    have h1 : b.storage.reserved_size = a'.storage.reserved_size := by rw [hw.reserved, hw'.reserved]
    have h2 : a'.storage.file.take b.storage.file.length = a'.storage.file := by
      rw [e6, ← hlen]; exact List.take_length
    show ({ b.storage with file := a'.storage.file.take b.storage.file.length } : Storage) = _
    rw [h2, show b.storage = ⟨b.storage.file, b.storage.reserved_size⟩ from rfl, h1]
  have hno : ∀ (k : Nat) (N : Node), (T ++ T2)[k]? = some N → header_hash H N.raw ≠ header_hash H raw := by
    intro k N hN hq
    have := he.inj _ _ (ha'.toDesc.valid hN).mem hS hq
    subst this
    apply hnew
    obtain ⟨M, hM, hMr⟩ := hI'.held k N.raw (ha'.stored k N hN)
    exact (hA' _).2 ⟨k, M, hM, hMr⟩
  have hH : (b.see a'.storage.file).H = H := e1
  obtain ⟨i, v, c1, _⟩ := connect_stores hd (by rw [hH]; exact fun k N hN => hno k N (getElem?_append_some hN)) hc
  obtain ⟨i', v', c1', _⟩ := connect_stores ha'.toDesc (by rw [e3]; exact hno) ha''
  rw [hst, c1'] at c1
  have hsame : a''.storage = b'.storage := congrArg Prod.fst c1
  have hr2 : Reachable H coin cp S a'' (A' ++ [raw]) := .accept hr' hS hroom ha''
  obtain ⟨T3, hI3, g1, g2, g3, _⟩ := reachable_inv he hr2
  obtain ⟨s, h1, h2, h3, h4, h5, h6, h7⟩ := hI3.reopen coin
  rw [g1, g3, hsame] at h1
  refine ⟨s, h1, .reopen hr2 (by rw [hsame]; exact h1), h3, fun hash hne => ?_⟩
  by_cases hm : ∃ (i : Nat) (N : Node), T3[i]? = some N ∧ header_hash a''.H N.raw = hash
  · obtain ⟨i, N, hN, rfl⟩ := hm
    have q := h2.toDesc.lookup_found h2.env.inj hN
    rw [h5, h7] at q
    rw [q, hI3.toDesc.lookup_found hI3.env.inj hN]
  · push Not at hm
    rw [h2.toDesc.lookup_missing hne (by rw [h5]; exact hm), hI3.toDesc.lookup_missing hne hm]

end

open ConcurrentExample ChainExample in
/-- The hypotheses are met: a collection is opened twice, the first object connects two headers, and the second, which does
not know them, one that is new (`raw1`) or the first of them again (`raw2`). -/
example : ∀ raw ∈ [raw1, raw2], ∃ a b a' b' f r, Reachable toyHashes Bitcoin cp S a [raw0] ∧
    Headers.from_file toyHashes Bitcoin (some a.storage.file) cp = (f, .ok b) ∧
    Later toyHashes Bitcoin cp S a a' ∧ Reachable toyHashes Bitcoin cp S a' [raw0, raw2, raw3] ∧
    a'.storage.file.length = a.storage.file.length ∧ a'.len = .ok 3 ∧ a.len = .ok 1 ∧ S raw ∧ raw ∉ [raw0] ∧
    (b.see a'.storage.file).connect raw = (b', .ok r) ∧
    (raw = raw1 → Room a' ∧ raw ∉ [raw0, raw2, raw3] ∧ ∃ a'' r', a'.connect raw = (a'', .ok r')) := by
  intro raw hraw
  have h : ∀ raw ∈ [raw1, raw2], (match opened with
      | .ok a => (match (Headers.from_file toyHashes Bitcoin (some a.storage.file) cp).2 with
        | .ok b => (match a.connect raw2 with
          | (a1, .ok _) => (match a1.connect raw3 with
            | (a', .ok _) => decide (a.chains.length = 1 ∧ a.len = .ok 1 ∧ a1.chains.length = 1 ∧ a1.len = .ok 2 ∧
                a'.len = .ok 3 ∧ a'.storage.file.length = a.storage.file.length ∧
                ((b.see a'.storage.file).connect raw).2.isOk = true ∧ a'.chains.length = 1 ∧
                (a'.connect raw1).2.isOk = true)
            | _ => false)
          | _ => false)
        | .error _ => false)
      | .error _ => false) = true := by decide +kernel
  have h := h raw hraw
  split at h
  · next a h1 =>
    split at h
    · next b h2 =>
      split at h
      · next a1 r1 h3 =>
        split at h
        · next a' r3 h4 =>
          simp only [decide_eq_true_eq] at h
          obtain ⟨q1, q2, q3, q4, q5, q6, q7, q8, q9⟩ := h
          have hroom : Room a := ⟨by omega, fun n hn => by rw [q2] at hn; cases hn; decide⟩
          have hroom1 : Room a1 := ⟨by omega, fun n hn => by rw [q4] at hn; cases hn; decide⟩
          have hS2 : S raw2 := by simp [S]
          have hS3 : S raw3 := by simp [S]
          rcases h5 : (b.see a'.storage.file).connect raw with ⟨b', e | r⟩
          · rw [h5] at q7; cases q7
          refine ⟨a, b, a', b', _, r, reachable h1, Prod.ext rfl h2, ?_, ?_, q6, q5, q2, ?_, ?_, h5, ?_⟩
          · exact .connect (.connect .now hS2 hroom h3) hS3 hroom1 h4
          · exact .accept (.accept (reachable h1) hS2 hroom h3) hS3 hroom1 h4
          · simp only [List.mem_cons, List.not_mem_nil, or_false] at hraw
            rcases hraw with rfl | rfl <;> simp [S]
          · have : ∀ raw ∈ [raw1, raw2], raw ∉ [raw0] := by decide +kernel
            exact this raw hraw
          · rintro rfl
            refine ⟨⟨by omega, fun n hn => by rw [q5] at hn; cases hn; decide⟩, by decide +kernel, ?_⟩
            rcases h6 : a'.connect raw1 with ⟨a'', e | r'⟩
            · rw [h6] at q9; cases q9
            · exact ⟨a'', r', rfl⟩
        · cases h
      · cases h
    · cases h
  · cases h

end Bitcoinx
