import Verif.Lemmas.Common
import Verif.Props.Daa

/-! # Properties C23-C33: collections of headers, and C19 and C34 for them

`Reachable H coin cp S s A` (Spec/Chain): `s` is the state of a `Headers` object after some history
of operations, `A` the headers accepted in it. -/

namespace Bitcoinx
open Spec

variable {H : Hashes} {coin : Coin} {cp : CheckPoint} {S : Bytes → Prop} {s : Headers} {A : List Bytes}

/-! ## C23 -/

/-- Every accepted header is found by its hash, with the chain holding it; its height is the
checkpoint's or one more than its predecessor's. -/
theorem C23_lookup (he : Env H cp S) (hr : Reachable H coin cp S s A) (raw : Bytes) (hx : raw ∈ A) :
    ∃ (hd : Header) (c : Nat) (ch : Chain), s.lookup (header_hash H raw) = .ok (hd, c) ∧
      deserialized_header H raw hd.height = .ok hd ∧ s.chains[c]? = some ch ∧
      ch.first_height ≤ hd.height ∧ hd.height ≤ ch.height ∧
      s.raw_header_at_height c hd.height = .ok raw ∧
      ((raw = cp.raw_header ∧ hd.height = cp.height ∧ c = 0) ∨
        ∃ prev pc, header_prev_hash raw = prev.hash ∧ prev.raw ∈ A ∧
          s.lookup (header_prev_hash raw) = .ok (prev, pc) ∧ hd.height = prev.height + 1) := by
  obtain ⟨T, hI, rfl, rfl, rfl, hA⟩ := reachable_inv he hr
  obtain ⟨i, N, hN, rfl⟩ := (hA raw).1 hx
  have hv := hI.toDesc.valid hN
  have hf := mkHeader_fields (H := s.H) (nodeHeight s.checkpoint N) hv.length
  obtain ⟨ch, hch⟩ := hI.toDesc.chain_exists hN
  obtain ⟨t, M, base, own, hci⟩ := hI.toDesc.chain_at hch
  obtain ⟨hpre, hbase⟩ := hI.good.prefix_tip hci hN rfl
  have hlen := congrArg List.length hpre
  rw [List.length_take] at hlen
  have hnode := hI.good.node i N hN
  have hpos := hnode.pos
  have hheight := (hI.toDesc.height_eq hci).1
  have hki : M.path[N.path.length - 1]? = some i := by
    have := hnode.last
    rw [List.getLast?_eq_getElem?, hpre, List.getElem?_take] at this
    rw [← hpre] at this
    simpa [hpos] using this
  refine ⟨_, N.chain, ch, hI.toDesc.lookup_found hI.env.inj hN, ?_, hch, ?_, ?_, ?_, ?_⟩
  · rw [hf.2.1]; exact mkHeader_ok _ hv.length
  · rw [hf.2.1, hci.first, nodeHeight]; omega
  · rw [hf.2.1, hheight, nodeHeight, nodeHeight]; omega
  · rw [hf.2.1]
    have := hI.toDesc.raw_at hch hci hki hN
    rwa [show s.checkpoint.height + (N.path.length - 1) = nodeHeight s.checkpoint N by
      rw [nodeHeight]; omega] at this
  · by_cases hi : i = 0
    · left
      subst hi
      rw [hI.good.root_node] at hN; cases hN
      exact ⟨rfl, by rw [hf.2.1]; simp [nodeHeight], rfl⟩
    · right
      obtain ⟨p, P, hp, h2, h3⟩ := hI.good.parent i N hN hi
      have hPf := mkHeader_fields (H := s.H) (nodeHeight s.checkpoint P) (hI.toDesc.valid hp).length
      refine ⟨mkHeader s.H P.raw (nodeHeight s.checkpoint P), P.chain, ?_, ?_, ?_, ?_⟩
      · rw [hPf.2.2.1, h3]
      · rw [hPf.1]; exact (hA _).2 ⟨p, P, hp, rfl⟩
      · rw [h3]; exact hI.toDesc.lookup_found hI.env.inj hp
      · rw [hf.2.1, hPf.2.1, nodeHeight, nodeHeight, h2]
        have := (hI.good.node p P hp).pos
        simp only [List.length_append, List.length_singleton]; omega

/-- No other hash is found. -/
theorem C23_missing (he : Env H cp S) (hr : Reachable H coin cp S s A) (hash : Bytes)
    (hx : ∀ raw ∈ A, header_hash H raw ≠ hash) : s.lookup hash = .error .missingHeader := by
  obtain ⟨T, hI, rfl, rfl, rfl, hA⟩ := reachable_inv he hr
  by_cases hn : hash = []
  · rw [hn]; exact hI.lookup_nil
  · exact hI.toDesc.lookup_missing hn (fun i N hN => hx _ ((hA _).2 ⟨i, N, hN, rfl⟩))

/-! ## C24 -/

/-- From the checkpoint to its height a chain has a header at every height; each is linked by hash to
the one below. -/
theorem C24_linked (he : Env H cp S) (hr : Reachable H coin cp S s A) (c : Nat) (ch : Chain)
    (hch : s.chains[c]? = some ch) (h : Int) (h1 : (cp.height : Int) ≤ h) (h2 : h ≤ ch.height) :
    ∃ hd, s.header_at_height c h = .ok hd ∧ hd.height = h ∧ hd.raw ∈ A ∧
      deserialized_header H hd.raw h = .ok hd ∧
      (h = cp.height → hd.raw = cp.raw_header) ∧
      ((cp.height : Int) < h → ∃ prev, s.header_at_height c (h - 1) = .ok prev ∧ hd.prev_hash = prev.hash) := by
  obtain ⟨T, hI, rfl, rfl, rfl, hA⟩ := reachable_inv he hr
  obtain ⟨t, N, base, own, hci⟩ := hI.toDesc.chain_at hch
  have hheight := (hI.toDesc.height_eq hci).1
  have hpos := (hI.good.node t N hci.node).pos
  rw [hheight, nodeHeight] at h2
  have at_ : ∀ k, k < N.path.length → ∃ (i : Nat) (M : Node), N.path[k]? = some i ∧ T[i]? = some M ∧
      M.path = N.path.take (k + 1) ∧
      s.header_at_height c ((s.checkpoint.height + k : Nat) : Int) =
        .ok (mkHeader s.H M.raw ((s.checkpoint.height + k : Nat) : Int)) := by
    intro k hk
    obtain ⟨M, hM, hpath⟩ := hI.good.path t N k _ hci.node (List.getElem?_eq_getElem hk)
    refine ⟨_, M, List.getElem?_eq_getElem hk, hM, hpath, ?_⟩
    have hraw := hI.toDesc.raw_at hch hci (List.getElem?_eq_getElem hk) hM
    simp only [Headers.header_at_height, ChainView.header_at_height, Headers.view, hraw, ok_bind']
    exact mkHeader_ok _ (hI.toDesc.valid hM).length
  obtain ⟨k, rfl⟩ : ∃ k : Nat, h = ((s.checkpoint.height + k : Nat) : Int) :=
    ⟨(h - s.checkpoint.height).toNat, by omega⟩
  obtain ⟨i, M, hk, hM, hpath, hhd⟩ := at_ k (by omega)
  have hl := (hI.toDesc.valid hM).length
  have hf := mkHeader_fields (H := s.H) ((s.checkpoint.height + k : Nat) : Int) hl
  refine ⟨_, hhd, hf.2.1, ?_, ?_, ?_, ?_⟩
  · rw [hf.1]; exact (hA _).2 ⟨i, M, hM, rfl⟩
  · rw [hf.1]; exact mkHeader_ok _ hl
  · intro hk0
    have hk0 : k = 0 := by omega
    subst hk0
    rw [(hI.good.node t N hci.node).head] at hk
    cases hk
    rw [hI.good.root_node] at hM; cases hM
    exact hf.1
  · intro hk0
    obtain ⟨i', M', hk', hM', _, hhd'⟩ := at_ (k - 1) (by omega)
    have hf' := mkHeader_fields (H := s.H) ((s.checkpoint.height + (k - 1) : Nat) : Int)
      (hI.toDesc.valid hM').length
    refine ⟨mkHeader s.H M'.raw ((s.checkpoint.height + (k - 1) : Nat) : Int), ?_, ?_⟩
    · rw [show ((s.checkpoint.height + k : Nat) : Int) - 1 = ((s.checkpoint.height + (k - 1) : Nat) : Int) by
        omega]
      exact hhd'
    · rw [hf.2.2.2.1, hf'.2.2.1]
      have hk1 : N.path[k - 1 + 1]? = some i := by
        rw [show k - 1 + 1 = k by omega]; exact hk
      exact hI.good.link t N (k - 1) i' i M' M hci.node hk' hk1 hM' hM

/-- The tip is the header at the chain's height, which is not below the checkpoint. -/
theorem C24_tip (he : Env H cp S) (hr : Reachable H coin cp S s A) (c : Nat) (ch : Chain)
    (hch : s.chains[c]? = some ch) :
    (cp.height : Int) ≤ ch.height ∧ s.header_at_height c ch.height = .ok ch.tip ∧
      ch.tip.height = ch.height := by
  obtain ⟨T, hI, rfl, rfl, rfl, hA⟩ := reachable_inv he hr
  obtain ⟨t, N, base, own, hci⟩ := hI.toDesc.chain_at hch
  obtain ⟨hheight, htip⟩ := hI.toDesc.height_eq hci
  have hnode := hI.good.node t N hci.node
  have hpos := hnode.pos
  refine ⟨by rw [hheight, nodeHeight]; omega, ?_, htip⟩
  have hk := hnode.last
  rw [List.getLast?_eq_getElem?] at hk
  have hraw := hI.toDesc.raw_at hch hci hk hci.node
  rw [show s.checkpoint.height + (N.path.length - 1) = nodeHeight s.checkpoint N by
    rw [nodeHeight]; omega] at hraw
  rw [hheight, hci.tip]
  simp only [Headers.header_at_height, ChainView.header_at_height, Headers.view, hraw, ok_bind']
  exact mkHeader_ok _ (hI.toDesc.valid hci.node).length

/-- Outside `0..height` there is no header. -/
theorem C24_outside (he : Env H cp S) (hr : Reachable H coin cp S s A) (c : Nat) (ch : Chain)
    (hch : s.chains[c]? = some ch) (h : Int) (hh : h < 0 ∨ ch.height < h) :
    s.header_at_height c h = .error .missingHeader ∧
      s.raw_header_at_height c h = .error .missingHeader := by
  obtain ⟨T, hI, rfl, rfl, rfl, hA⟩ := reachable_inv he hr
  have hraw : s.raw_header_at_height c h = .error .missingHeader := by
    rcases hh with hh | hh
    · exact hI.toDesc.raw_neg hch hh
    · exact hI.toDesc.raw_above hch hh
  exact ⟨by simp only [Headers.header_at_height, ChainView.header_at_height, Headers.view, hraw,
    error_bind'], hraw⟩

/-- Below the checkpoint all chains see the stored headers. -/
theorem C24_below (he : Env H cp S) (hr : Reachable H coin cp S s A) (c : Nat) (ch : Chain)
    (hch : s.chains[c]? = some ch) (h : Nat) (hh : h < cp.height) :
    s.raw_header_at_height c h = s.storage.get h := by
  obtain ⟨T, hI, rfl, rfl, rfl, hA⟩ := reachable_inv he hr
  exact hI.toDesc.raw_below hch hh

/-! ## C25 -/

/-- The work of a chain is the sum of the work of its headers from the checkpoint on, on top of the
work before the checkpoint; `chainwork_to_height` is the partial sum. -/
theorem C25_work (he : Env H cp S) (hr : Reachable H coin cp S s A) (c : Nat) (ch : Chain)
    (hch : s.chains[c]? = some ch) :
    ∃ works : List Nat, (cp.height : Int) + works.length = ch.height + 1 ∧
      (∀ (k : Nat) (w : Nat), works[k]? = some w →
        ∃ hd, s.header_at_height c (cp.height + k : Nat) = .ok hd ∧ bits_to_work hd.bits = .ok w) ∧
      ch.work = cp.prev_work + works.sum ∧
      ∀ n : Nat, n ≤ works.length →
        s.chainwork_to_height c (cp.height + n - 1) = .ok (cp.prev_work + (works.take n).sum) := by
  obtain ⟨T, hI, rfl, rfl, rfl, hA⟩ := reachable_inv he hr
  obtain ⟨t, N, base, own, hci⟩ := hI.toDesc.chain_at hch
  have hheight := (hI.toDesc.height_eq hci).1
  have hpos := (hI.good.node t N hci.node).pos
  refine ⟨N.path.map (nodeWork T), ?_, ?_, hci.work, ?_⟩
  · rw [List.length_map, hheight, nodeHeight]; omega
  · intro k w hw
    rw [List.getElem?_map] at hw
    cases hk : N.path[k]? with
    | none => rw [hk] at hw; simp at hw
    | some i =>
      rw [hk] at hw
      obtain ⟨M, hM, _⟩ := hI.good.path t N k i hci.node hk
      have hraw := hI.toDesc.raw_at hch hci hk hM
      have hv := hI.toDesc.valid hM
      have hwk := mkHeader_work (H := s.H) ((s.checkpoint.height + k : Nat) : Int) hv.length
      refine ⟨mkHeader s.H M.raw ((s.checkpoint.height + k : Nat) : Int), ?_, ?_⟩
      · simp only [Headers.header_at_height, ChainView.header_at_height, Headers.view, hraw, ok_bind']
        exact mkHeader_ok _ hv.length
      · rw [Header.work, hv.work] at hwk
        rw [hwk]
        simp [nodeWork, hM] at hw
        rw [hw]
  · intro n hn
    rw [List.length_map] at hn
    rw [hI.toDesc.chainwork_to hch hci n hn _ (by push_cast; omega), totalWork, List.map_take]

/-! ## C26 -/

/-- The verdict of `connect` on a well-formed header that is not stored yet and whose predecessor
`prev` is stored. -/
inductive Verdict (s : Headers) (hd : Header) (pc : Nat) : Res Unit → Prop
  | noBits (e : Err) : s.required_bits pc hd.height hd.timestamp = .error e → Verdict s hd pc (.error e)
  | wrongBits (b : Int) : s.required_bits pc hd.height hd.timestamp = .ok b → hd.bits ≠ b →
      Verdict s hd pc (.error .incorrectBits)
  | badTarget (e : Err) : s.required_bits pc hd.height hd.timestamp = .ok hd.bits →
      bits_to_target hd.bits = .error e → Verdict s hd pc (.error e)
  | noPoW (t : Nat) : s.required_bits pc hd.height hd.timestamp = .ok hd.bits →
      bits_to_target hd.bits = .ok t → t < leValue hd.hash → Verdict s hd pc (.error .insufficientPoW)
  | accept (t : Nat) : s.required_bits pc hd.height hd.timestamp = .ok hd.bits →
      bits_to_target hd.bits = .ok t → leValue hd.hash ≤ t → Verdict s hd pc (.ok ())

/-- `connect` on a new header: it is accepted exactly if its bits are the required ones and its hash
does not exceed its target; the exceptions come in this order. -/
theorem C26_rules (he : Env H cp S) (hr : Reachable H coin cp S s A) (hroom : Room s) (raw : Bytes)
    (hS : S raw) (hl : raw.length = 80) (hnew : raw ∉ A) (prev : Header) (pc : Nat)
    (hprev : s.lookup (header_prev_hash raw) = .ok (prev, pc)) :
    ∃ hd v, deserialized_header H raw (prev.height + 1) = .ok hd ∧ Verdict s hd pc v ∧
      ∃ s' r, s.connect raw = (s', r) ∧
        match v with
        | .error e => r = .error e ∧ s' = s
        | .ok () => ∃ c, r = .ok (hd, c) := by
  obtain ⟨T, hI, rfl, rfl, rfl, hA⟩ := reachable_inv he hr
  have hnew' : ∀ M ∈ T, M.raw ≠ raw := by
    intro M hM hc
    obtain ⟨i, hi⟩ := List.mem_iff_getElem?.1 hM
    exact hnew ((hA _).2 ⟨i, M, hi, hc⟩)
  have hne : header_prev_hash raw ≠ [] := by
    intro hc
    have := header_prev_hash_length hl
    rw [hc] at this; simp at this
  obtain ⟨p, P, hp, hph⟩ : ∃ (p : Nat) (P : Node), T[p]? = some P ∧
      header_hash s.H P.raw = header_prev_hash raw := by
    by_contra hcon
    rw [hI.toDesc.lookup_missing hne (fun i N hN h => hcon ⟨i, N, hN, h⟩)] at hprev
    cases hprev
  rw [← hph, hI.toDesc.lookup_found hI.env.inj hp] at hprev
  cases hprev
  have hPf := mkHeader_fields (H := s.H) (nodeHeight s.checkpoint P) (hI.toDesc.valid hp).length
  have hcast : ((nodeHeight s.checkpoint P + 1 : Nat) : Int) = (nodeHeight s.checkpoint P : Int) + 1 := by
    push_cast; rfl
  have hhd := mkHeader_ok (H := s.H) ((nodeHeight s.checkpoint P : Int) + 1) hl
  have hf := mkHeader_fields (H := s.H) ((nodeHeight s.checkpoint P : Int) + 1) hl
  have hck := hI.connect_check_new hS hl hp hph.symm hnew'
  rw [hcast] at hck
  rw [hPf.2.1]
  refine ⟨mkHeader s.H raw ((nodeHeight s.checkpoint P : Int) + 1), ?_⟩
  generalize hgen : mkHeader s.H raw ((nodeHeight s.checkpoint P : Int) + 1) = hd at *
  rw [← hf.2.1] at hck
  simp only at hck
  have hfail : ∀ e, s.connect_check raw = .error e → s.connect raw = (s, .error e) := by
    intro e h; simp only [Headers.connect, h]
  cases hb : s.required_bits P.chain hd.height hd.timestamp with
  | error e =>
    rw [hb] at hck
    exact ⟨.error e, hhd, .noBits e hb, s, _, hfail e hck, rfl, rfl⟩
  | ok b =>
    rw [hb] at hck
    simp only [ok_bind'] at hck
    by_cases hbb : hd.bits = b
    · subst hbb
      simp only [ne_eq, not_true_eq_false, if_false] at hck
      rw [Header.target] at hck
      cases ht : bits_to_target hd.bits with
      | error e =>
        rw [ht] at hck
        exact ⟨.error e, hhd, .badTarget e hb ht, s, _, hfail e hck, rfl, rfl⟩
      | ok t =>
        rw [ht] at hck
        simp only [ok_bind'] at hck
        by_cases hgt : hd.hash_value > t
        · simp only [hgt, if_true] at hck
          exact ⟨.error .insufficientPoW, hhd, .noPoW t hb ht (by rw [← le_bytes_to_int_eq]; exact hgt), s, _, hfail _ hck, rfl, rfl⟩
        · simp only [hgt, if_false, pure_ok'] at hck
          refine ⟨.ok (), hhd, .accept t hb ht (by rw [← le_bytes_to_int_eq]; exact Nat.le_of_not_lt hgt), ?_⟩
          have hv : Valid S raw := by
            apply hI.env.valid hS hl (height := (nodeHeight s.checkpoint P : Int) + 1) (t := t)
            · rw [hgen]; exact ht
            · rw [hgen]; omega
          have hrm := hroom.2 _ hI.len
          obtain ⟨s', c, c1, _⟩ := hI.connect_accept hv hp hph.symm hnew' hck (by omega)
            (fun _ => hroom.1)
          exact ⟨s', _, c1, c, rfl⟩
    · simp only [ne_eq, hbb, not_false_iff, if_true] at hck
      exact ⟨.error .incorrectBits, hhd, .wrongBits b hb hbb, s, _, hfail _ hck, rfl, rfl⟩

/-- A well-formed header whose predecessor is not stored raises `MissingHeader`, whatever else is
wrong with it. -/
theorem C26_missing (he : Env H cp S) (hr : Reachable H coin cp S s A) (raw : Bytes)
    (hl : raw.length = 80) (hno : ∀ x ∈ A, header_hash H x ≠ header_prev_hash raw) :
    s.connect raw = (s, .error .missingHeader) := by
  obtain ⟨T, hI, rfl, rfl, rfl, hA⟩ := reachable_inv he hr
  exact hI.connect_missing raw hl (fun i N hN => hno _ ((hA _).2 ⟨i, N, hN, rfl⟩))

/-- A header of any other length than 80 raises `struct.error`. -/
theorem C26_malformed (s : Headers) (raw : Bytes) (hl : raw.length ≠ 80) :
    s.connect raw = (s, .error .structError) := Inv.connect_malformed raw hl

/-! ## C27 -/

/-- If `connect` raises, nothing has changed (neither the object nor its file). -/
theorem C27_unchanged (he : Env H cp S) (hr : Reachable H coin cp S s A) (hroom : Room s) (raw : Bytes)
    (hS : S raw) (s' : Headers) (e : Err) (hc : s.connect raw = (s', .error e)) : s' = s := by
  obtain ⟨T, hI, rfl, rfl, rfl, hA⟩ := reachable_inv he hr
  obtain ⟨T', hcon, _⟩ := hI.connected hS hroom hc
  cases hcon <;> assumption

/-! ## C28 -/

/-- Connecting an accepted header again changes nothing and returns what `lookup` finds. -/
theorem C28_idempotent (he : Env H cp S) (hr : Reachable H coin cp S s A) (raw : Bytes) (hx : raw ∈ A)
    (hne : raw ≠ cp.raw_header) :
    ∃ r, s.connect raw = (s, .ok r) ∧ s.lookup (header_hash H raw) = .ok r := by
  obtain ⟨T, hI, rfl, rfl, rfl, hA⟩ := reachable_inv he hr
  obtain ⟨i, N, hN, rfl⟩ := (hA raw).1 hx
  have hi : i ≠ 0 := by
    rintro rfl
    rw [hI.good.root_node] at hN; cases hN
    exact hne rfl
  exact ⟨_, hI.connect_existing hN hi, hI.toDesc.lookup_found hI.env.inj hN⟩

/-- Finding: the checkpoint's own header, though stored and found by `lookup`, cannot be connected
again: `connect` looks for its predecessor first. -/
theorem C28_checkpoint (he : Env H cp S) (hr : Reachable H coin cp S s A) :
    s.connect cp.raw_header = (s, .error .missingHeader) ∧
      ∃ r, s.lookup (header_hash H cp.raw_header) = .ok r := by
  obtain ⟨T, hI, rfl, rfl, rfl, hA⟩ := reachable_inv he hr
  exact ⟨hI.connect_missing _ he.cp_length (fun i N hN => he.noroot _ (hI.toDesc.valid hN).mem),
    _, hI.toDesc.lookup_found hI.env.inj hI.good.root_node⟩

/-! ## C29 -/

/-- A newly accepted header extends the chain of which its predecessor is the tip, or makes one new
chain. -/
theorem C29_chains (he : Env H cp S) (hr : Reachable H coin cp S s A) (hroom : Room s) (raw : Bytes)
    (hS : S raw) (hnew : raw ∉ A) (s' : Headers) (hd : Header) (c : Nat)
    (hc : s.connect raw = (s', .ok (hd, c))) :
    ∃ (prev : Header) (pc : Nat) (ch : Chain) (w n : Nat),
      s.lookup (header_prev_hash raw) = .ok (prev, pc) ∧ s.chains[pc]? = some ch ∧
      bits_to_work hd.bits = .ok w ∧ s.len = .ok (n : Int) ∧ s'.len = .ok ((n + 1 : Nat) : Int) ∧
      ((ch.tip = prev ∧ c = pc ∧ s'.chains = s.chains.set pc
          { parent := ch.parent, tip := hd, work := ch.work + w, first_height := ch.first_height,
            header_indices := ch.header_indices ++ [n] }) ∨
        (ch.tip ≠ prev ∧ c = s.chains.length ∧ ∃ pw : Int,
          s.chainwork_to_height pc prev.height = .ok pw ∧
          s'.chains = s.chains ++
            [{ parent := some pc, tip := hd, work := pw + w, first_height := prev.height + 1,
               header_indices := [n] }])) := by
  obtain ⟨T, hI, rfl, rfl, rfl, hA⟩ := reachable_inv he hr
  obtain ⟨T', hcon, hI'⟩ := hI.connected hS hroom hc
  cases hcon with
  | existing i M hM hi hraw _ _ => exact absurd ((hA _).2 ⟨i, M, hM, hraw⟩) hnew
  | accepted p P c hl hp hprev hnew' hck e1 e2 e3 hadd _ _ hT =>
    subst hT
    obtain ⟨ch, hch⟩ := hI.toDesc.chain_exists hp
    have hPf := mkHeader_fields (H := s.H) (nodeHeight s.checkpoint P) (hI.toDesc.valid hp).length
    have hv := hI'.toDesc.valid (getElem?_snoc.2 (.inr ⟨rfl, rfl⟩) :
      (T ++ [⟨raw, P.path ++ [T.length], c⟩])[T.length]? = some ⟨raw, P.path ++ [T.length], c⟩)
    simp only at hv
    have hwk := mkHeader_work (H := s.H) ((nodeHeight s.checkpoint P + 1 : Nat) : Int) hl
    rw [Header.work, hv.work] at hwk
    have htip : ch.tip = mkHeader s.H P.raw (nodeHeight s.checkpoint P) ↔ ¬ HasChild T P := by
      rw [← hI.toDesc.tip_iff hI.env.inj hp hch]
      constructor
      · intro h; rw [h, hPf.2.2.1]
      · intro h
        have hnc := (hI.toDesc.tip_iff hI.env.inj hp hch).1 h
        obtain ⟨t, N, base, own, hci⟩ := hI.toDesc.chain_at hch
        have := hI.good.leaf_is_tip hci hp rfl hnc
        subst this
        rw [hci.node] at hp; cases hp
        exact hci.tip
    have hlen' : s'.len = .ok ((s.checkpoint.height + T.length + 1 : Nat) : Int) := by
      rw [hI'.len, e3, List.length_append, List.length_singleton, Nat.add_assoc]
    refine ⟨mkHeader s.H P.raw (nodeHeight s.checkpoint P), P.chain, ch, workOf raw,
      s.checkpoint.height + T.length, ?_, hch, hwk, hI.len, hlen', ?_⟩
    · rw [hprev]; exact hI.toDesc.lookup_found hI.env.inj hp
    · cases hadd with
      | extended ch' hnc hcc hch' hs' =>
        left
        rw [hch] at hch'; cases hch'
        refine ⟨htip.2 hnc, hcc, ?_⟩
        rw [hs', extendedChain, Nat.add_comm T.length]
      | forked hhc hcc hs' =>
        right
        obtain ⟨t, N, base, own, hci⟩ := hI.toDesc.chain_at hch
        obtain ⟨hpre, _⟩ := hI.good.prefix_tip hci hp rfl
        have hle := congrArg List.length hpre
        rw [List.length_take] at hle
        have hpos := (hI.good.node p P hp).pos
        refine ⟨fun h => htip.1 h hhc, hcc, s.checkpoint.prev_work + totalWork T P.path, ?_, ?_⟩
        · rw [hPf.2.1, hI.toDesc.chainwork_to hch hci P.path.length (by omega) _
            (by rw [nodeHeight]; omega), ← hpre]
        · rw [hs', forkedChain, hPf.2.1, Nat.add_comm T.length]
          push_cast
          rfl

/-! ## C30 -/

/-- Opening the file of a reachable state again gives the same chains, lookups and length. -/
theorem C30_reopen (he : Env H cp S) (hr : Reachable H coin cp S s A) :
    ∃ s', Headers.from_file H coin (some s.storage.file) cp = (some s.storage.file, .ok s') ∧
      s'.chains = s.chains ∧ s'.storage = s.storage ∧ s'.len = s.len ∧
      (∀ hash, s'.lookup hash = s.lookup hash) ∧
      (∀ c h, s'.raw_header_at_height c h = s.raw_header_at_height c h) := by
  obtain ⟨T, hI, rfl, rfl, rfl, hA⟩ := reachable_inv he hr
  obtain ⟨s', h1, h2, h3, h4, h5, h6, h7⟩ := hI.reopen s.coin
  refine ⟨s', h1, h3, h4, by rw [Headers.len, Headers.len, h4], ?_, ?_⟩
  · intro hash
    by_cases hx : ∃ (i : Nat) (N : Node), T[i]? = some N ∧ header_hash s.H N.raw = hash
    · obtain ⟨i, N, hN, rfl⟩ := hx
      have := h2.toDesc.lookup_found h2.env.inj hN
      rw [h5, h7] at this
      rw [this, hI.toDesc.lookup_found hI.env.inj hN]
    · by_cases hn : hash = []
      · rw [hn, hI.lookup_nil, h2.lookup_nil]
      · rw [hI.toDesc.lookup_missing hn (fun i N hN h => hx ⟨i, N, hN, h⟩),
          h2.toDesc.lookup_missing hn (fun i N hN h => hx ⟨i, N, hN, by rw [← h5]; exact h⟩)]
  · intro c h
    simp only [Headers.raw_header_at_height, Headers.header_index, h3, h4]

/-! ## C31 -/

/-- The cache has no influence: with any other cache content that agrees with the slow search,
`lookup` and `connect` give the same results, and the states after `connect` again differ in the
cache only.  The other queries do not use it. -/
theorem C31_cache (he : Env H cp S) (hr : Reachable H coin cp S s A)
    (cache : List (Bytes × Header × Nat))
    (hcache : ∀ e ∈ cache, Headers.lookup { s with cache := [] } e.1 = .ok e.2) :
    (∀ hash, Headers.lookup { s with cache := cache } hash = s.lookup hash) ∧
    (∀ raw, S raw → Room s → ∃ s1 s2 r, s.connect raw = (s1, r) ∧
      Headers.connect { s with cache := cache } raw = (s2, r) ∧ { s2 with cache := s1.cache } = s1) := by
  obtain ⟨T, hI, rfl, rfl, rfl, hA⟩ := reachable_inv he hr
  have hnil : Inv S { s with cache := [] } T :=
    ⟨⟨hI.good, hI.heights, hI.chain_indices, hI.short, by simp, hI.stored⟩, hI.env, hI.wf, hI.rest, hI.room⟩
  have key : ∀ s1 s2 : Headers, Inv S s1 T → Inv S s2 T → s1.H = s2.H → s1.checkpoint = s2.checkpoint →
      ∀ hash, s1.lookup hash = s2.lookup hash := by
    intro s1 s2 h1 h2 hH hcp hash
    by_cases hx : ∃ (i : Nat) (N : Node), T[i]? = some N ∧ header_hash s1.H N.raw = hash
    · obtain ⟨i, N, hN, rfl⟩ := hx
      rw [h1.toDesc.lookup_found h1.env.inj hN, hH, hcp, h2.toDesc.lookup_found h2.env.inj hN]
    · by_cases hn : hash = []
      · rw [hn, h1.lookup_nil, h2.lookup_nil]
      · rw [h1.toDesc.lookup_missing hn (fun i N hN h => hx ⟨i, N, hN, h⟩),
          h2.toDesc.lookup_missing hn (fun i N hN h => hx ⟨i, N, hN, by rw [hH]; exact h⟩)]
  have hnew : Inv S { s with cache := cache } T := by
    refine ⟨⟨hI.good, hI.heights, hI.chain_indices, hI.short, ?_, hI.stored⟩, hI.env, hI.wf, hI.rest,
      hI.room⟩
    intro e hein
    have hlk := hcache e hein
    by_cases hx : ∃ (i : Nat) (N : Node), T[i]? = some N ∧ header_hash s.H N.raw = e.1
    · obtain ⟨i, N, hN, hh⟩ := hx
      have := hnil.toDesc.lookup_found hI.env.inj hN
      simp only at this
      rw [hh, hlk] at this
      cases this' : e with
      | mk a b =>
        rw [this'] at this hh
        simp only [Except.ok.injEq] at this
        exact ⟨i, N, hN, by simp only at hh ⊢; rw [hh, this]⟩
    · exfalso
      by_cases hn : e.1 = []
      · rw [hn, hnil.lookup_nil] at hlk; cases hlk
      · rw [hnil.toDesc.lookup_missing hn (fun i N hN h => hx ⟨i, N, hN, h⟩)] at hlk; cases hlk
  have hlk : ∀ hash, Headers.lookup { s with cache := cache } hash = s.lookup hash :=
    key _ s hnew hI rfl rfl
  refine ⟨hlk, fun raw hS hroom => ?_⟩
  have hck : Headers.connect_check { s with cache := cache } raw = s.connect_check raw := by
    unfold Headers.connect_check
    simp only [hlk]
    rfl
  rcases h1 : s.connect raw with ⟨s1, r1⟩
  rcases h2 : Headers.connect { s with cache := cache } raw with ⟨s2, r2⟩
  refine ⟨s1, s2, r1, rfl, ?_⟩
  cases hres : s.connect_check raw with
  | error e =>
    rw [Headers.connect, hres] at h1
    rw [Headers.connect, hck, hres] at h2
    cases h1; cases h2
    exact ⟨rfl, rfl⟩
  | ok x =>
    cases x with
    | inl x =>
      rw [Headers.connect, hres] at h1
      rw [Headers.connect, hck, hres] at h2
      cases h1; cases h2
      exact ⟨rfl, rfl⟩
    | inr x =>
      obtain ⟨T1, c1, i1⟩ := hI.connected hS hroom h1
      obtain ⟨T2, c2, i2⟩ := hnew.connected hS hroom h2
      cases c1 with
      | malformed hl _ _ => simp [Headers.connect_check, deserialized_header_err s.H raw _ hl] at hres
      | missing hl hno _ _ =>
        rw [Headers.connect, hres] at h1
        have := hI.connect_missing raw hl hno
        rw [Headers.connect, hres] at this
        exfalso
        revert this
        have hck2 : s.connect_check raw = .error .missingHeader := by
          have hf := mkHeader_fields (H := s.H) (-1) hl
          have hne : header_prev_hash raw ≠ [] := by
            intro hc
            have := header_prev_hash_length hl
            rw [hc] at this; simp at this
          simp only [Headers.connect_check, mkHeader_ok _ hl, ok_bind', hf.2.2.2.1,
            hI.toDesc.lookup_missing hne hno, error_bind']
        rw [hres] at hck2
        cases hck2
      | rejected p P e hl hp hprev hn hbad _ _ => rw [hres] at hbad; cases hbad
      | existing i M hM hi hraw hs hT =>
        subst hraw
        rw [hI.connect_existing hM hi] at h1
        rw [hnew.connect_existing hM hi] at h2
        cases h1; cases h2
        exact ⟨rfl, rfl⟩
      | accepted p P c hl hp hprev hn hck1 e1 e2 e3 hadd1 hst1 _ hT1 =>
        have hckk := hck
        rw [hck1] at hckk
        cases c2 with
        | malformed hl' _ _ => exact absurd hl hl'
        | missing _ hno _ _ => exact absurd hprev.symm (hno p P hp)
        | existing i M hM hi hraw _ _ => exact absurd hraw (hn M (List.mem_of_getElem? hM))
        | rejected p' P' e hl' hp' hprev' hn' hbad _ _ => rw [hckk] at hbad; cases hbad
        | accepted p' P' c' hl' hp' hprev' hn' hck2 f1 f2 f3 hadd2 hst2 _ hT2 =>
          have hPP : P' = P := by
            have hraw := hI.env.inj _ _ (hI.toDesc.valid hp').mem (hI.toDesc.valid hp).mem
              (by rw [← hprev]; exact hprev'.symm)
            have := hI.good.raw_inj _ _ P' P hp' hp hraw
            subst this
            rw [hp] at hp'; cases hp'; rfl
          subst hPP
          have hchains : s2.chains = s1.chains ∧ c' = c := by
            cases hadd1 with
            | extended ch a b d e =>
              cases hadd2 with
              | extended ch' a' b' d' e' =>
                simp only at d' e'
                rw [d] at d'; cases d'
                exact ⟨by rw [e, e'], by rw [b, b']⟩
              | forked a' b' e' => exact absurd a' a
            | forked a b e =>
              cases hadd2 with
              | extended ch' a' b' d' e' => exact absurd a a'
              | forked a' b' e' => exact ⟨by rw [e, e'], by rw [b, b']⟩
          obtain ⟨hch, rfl⟩ := hchains
          subst hT1 hT2
          refine ⟨rfl, ?_⟩
          simp only at f1 f2 f3 hst2
          have g1 : s2.heights = s1.heights := by rw [i1.heights, i2.heights, e3, f3]
          have g2 : s2.chain_indices = s1.chain_indices := by rw [i1.chain_indices, i2.chain_indices]
          have g3 : s2.short_hashes = s1.short_hashes := by rw [i1.short, i2.short, e1, f1]
          have g4 : s2.storage = s1.storage := by rw [hst1, hst2]
          cases s1; cases s2
          simp only at *
          subst g1 g2 g3 g4 hch e1 e2 e3
          simp only [Headers.mk.injEq]
          simp [f1, f2, f3]

/-- The hypothesis on the cache holds for the empty cache and for the cache of the state itself. -/
theorem C31_own_cache (he : Env H cp S) (hr : Reachable H coin cp S s A) :
    ∀ e ∈ s.cache, Headers.lookup { s with cache := [] } e.1 = .ok e.2 := by
  obtain ⟨T, hI, rfl, rfl, rfl, hA⟩ := reachable_inv he hr
  have hnil : Inv S { s with cache := [] } T :=
    ⟨⟨hI.good, hI.heights, hI.chain_indices, hI.short, by simp, hI.stored⟩, hI.env, hI.wf, hI.rest, hI.room⟩
  intro e hein
  obtain ⟨i, N, hN, rfl⟩ := hI.cache e hein
  exact hnil.toDesc.lookup_found hI.env.inj hN

/-! ## C32 -/

theorem longest_loop_spec (chains : List Chain) :
    ∀ (rest : List Chain) (i j : Nat) (ch : Chain), chains.drop i = rest → chains[j]? = some ch → j ≤ i →
      (∀ (k : Nat) (x : Chain), k < i → chains[k]? = some x →
        x.work ≤ ch.work ∧ (k < j → x.work < ch.work)) →
      (j = i → ∃ tl, rest = ch :: tl) →
      ∃ (m : Nat) (x : Chain), Headers.longest_loop (j, ch) i rest = (m, x) ∧ chains[m]? = some x ∧
        (∀ (k : Nat) (y : Chain), chains[k]? = some y → y.work ≤ x.work ∧ (k < m → y.work < x.work)) := by
  intro rest
  induction rest with
  | nil =>
    intro i j ch hd hj hji hall hfirst
    refine ⟨j, ch, rfl, hj, fun k y hk => hall k y ?_ hk⟩
    have h1 := getElem?_lt hk
    have h2 := List.drop_eq_nil_iff.1 hd
    omega
  | cons a rest ih =>
    intro i j ch hd hj hji hall hfirst
    have hi : chains[i]? = some a := by
      have := congrArg (fun l => l[0]?) hd
      simpa using this
    have hd' : chains.drop (i + 1) = rest := by
      rw [← List.drop_drop, hd]; rfl
    rw [Headers.longest_loop]
    by_cases hgt : a.work > ch.work
    · simp only [hgt, if_true]
      refine ih (i + 1) i a hd' hi (by omega) ?_ (by omega)
      intro k x hk hx
      rcases Nat.lt_succ_iff_lt_or_eq.1 hk with h | rfl
      · have := (hall k x h hx).1
        exact ⟨by omega, fun _ => by omega⟩
      · rw [hi] at hx; cases hx
        exact ⟨le_refl _, fun h => absurd h (lt_irrefl _)⟩
    · simp only [hgt, if_false]
      refine ih (i + 1) j ch hd' hj (by omega) ?_ (by omega)
      intro k x hk hx
      rcases Nat.lt_succ_iff_lt_or_eq.1 hk with h | rfl
      · exact hall k x h hx
      · rw [hi] at hx; cases hx
        exact ⟨by omega, fun h => absurd h (by omega)⟩

/-- `longest_chain` is the first of the chains with maximal work. -/
theorem C32_longest (s : Headers) (hne : s.chains ≠ []) :
    ∃ (m : Nat) (x : Chain), s.longest_chain = .ok m ∧ s.chains[m]? = some x ∧
      (∀ (k : Nat) (y : Chain), s.chains[k]? = some y → y.work ≤ x.work) ∧
      (∀ (k : Nat) (y : Chain), s.chains[k]? = some y → k < m → y.work < x.work) := by
  cases hc : s.chains with
  | nil => exact absurd hc hne
  | cons a rest =>
    obtain ⟨m, x, h1, h2, h3⟩ := longest_loop_spec s.chains s.chains 0 0 a rfl (by simp [hc]) (le_refl _)
      (fun k x hk => absurd hk (by omega)) (fun _ => ⟨rest, hc⟩)
    refine ⟨m, x, ?_, ?_, ?_, ?_⟩
    · simp only [Headers.longest_chain, hc]
      rw [hc] at h1
      rw [h1]
    · rw [← hc]; exact h2
    · intro k y hk; exact (h3 k y (by rw [hc]; exact hk)).1
    · intro k y hk hkm; exact (h3 k y (by rw [hc]; exact hk)).2 hkm

/-- A reachable state has a chain, so `C32_longest` applies. -/
theorem C32_reachable (he : Env H cp S) (hr : Reachable H coin cp S s A) : s.chains ≠ [] := by
  obtain ⟨T, hI, rfl, rfl, rfl, hA⟩ := reachable_inv he hr
  obtain ⟨ch, hch⟩ := hI.toDesc.chain_exists hI.good.root_node
  intro hc
  rw [hc] at hch; simp at hch

/-! ## C33 -/

/-- `common_chain_and_height` is the exact fork point of two chains: they have the same headers up to
that height and no header in common above it; the chain returned owns the header at that height; the
order of the two chains does not matter. -/
theorem C33_fork_point (he : Env H cp S) (hr : Reachable H coin cp S s A) (a b : Nat) (ca cb : Chain)
    (ha : s.chains[a]? = some ca) (hb : s.chains[b]? = some cb) :
    ∃ (c : Nat) (h : Int) (ch : Chain), Chain.common_chain_and_height s.chains a b = (some c, h) ∧
      Chain.common_chain_and_height s.chains b a = (some c, h) ∧
      s.chains[c]? = some ch ∧ ch.first_height ≤ h ∧ h ≤ ch.height ∧
      (cp.height : Int) ≤ h ∧ h ≤ ca.height ∧ h ≤ cb.height ∧
      (∀ k, k ≤ h → s.raw_header_at_height a k = s.raw_header_at_height b k ∧
        s.raw_header_at_height c k = s.raw_header_at_height a k) ∧
      (∀ i j x y, (cp.height : Int) ≤ i → (cp.height : Int) ≤ j → (h < i ∨ h < j) →
        s.raw_header_at_height a i = .ok x → s.raw_header_at_height b j = .ok y → x ≠ y) := by
  obtain ⟨T, hI, rfl, rfl, rfl, hA⟩ := reachable_inv he hr
  obtain ⟨ta, Na, basea, owna, hca⟩ := hI.toDesc.chain_at ha
  obtain ⟨tb, Nb, baseb, ownb, hcb⟩ := hI.toDesc.chain_at hb
  obtain ⟨k, i, M, hM, e1, e2, e3, e4, e5⟩ := common_spec hI.good ha hb hca hcb
  obtain ⟨k', i', M', hM', e1', e2', e3', e4', e5'⟩ := common_spec hI.good hb ha hcb hca
  have hk : k' = k := by
    have h1 := e4 i' k' k' e2' e1'
    have h2 := e4' i k k e2 e1
    omega
  subst hk
  rw [e1] at e2'; cases e2'
  rw [hM] at hM'; cases hM'
  obtain ⟨ch, hch⟩ := hI.toDesc.chain_exists hM
  obtain ⟨tc, Nc, basec, ownc, hcc⟩ := hI.toDesc.chain_at hch
  obtain ⟨hpre, hbl⟩ := hI.good.prefix_tip hcc hM rfl
  obtain ⟨M2, hM2, hMp⟩ := hI.good.path ta Na k' i hca.node e1
  rw [hM] at hM2; cases hM2
  have la := getElem?_lt e1
  have lb := getElem?_lt e2
  have hml : M.path.length = k' + 1 := by rw [hMp, List.length_take]; omega
  have hle := congrArg List.length hpre
  rw [List.length_take] at hle
  have ec : Nc.path.take (k' + 1) = Na.path.take (k' + 1) := by rw [← hMp, hpre, hml]
  have heq : ∀ {c1 c2 : Nat} {d1 d2 : Chain} {t1 t2 : Nat} {N1 N2 : Node} {b1 o1 b2 o2 : List Nat},
      s.chains[c1]? = some d1 → s.chains[c2]? = some d2 →
      Good.ChainIs s.H s.checkpoint T c1 d1 t1 N1 b1 o1 → Good.ChainIs s.H s.checkpoint T c2 d2 t2 N2 b2 o2 →
      N1.path.take (k' + 1) = N2.path.take (k' + 1) → k' < N1.path.length →
      ∀ h : Int, h ≤ ((s.checkpoint.height + k' : Nat) : Int) →
        s.raw_header_at_height c1 h = s.raw_header_at_height c2 h := by
    intro c1 c2 d1 d2 t1 t2 N1 N2 b1 o1 b2 o2 h1 h2 i1 i2 hag hlt h hh
    rcases lt_or_ge h 0 with hn | hn
    · rw [hI.toDesc.raw_neg h1 hn, hI.toDesc.raw_neg h2 hn]
    · obtain ⟨n, rfl⟩ : ∃ n : Nat, h = n := ⟨h.toNat, by omega⟩
      rcases Nat.lt_or_ge n s.checkpoint.height with hb | hb
      · rw [hI.toDesc.raw_below h1 hb, hI.toDesc.raw_below h2 hb]
      · obtain ⟨j, rfl⟩ : ∃ j, n = s.checkpoint.height + j := ⟨n - s.checkpoint.height, by omega⟩
        have hj : j < k' + 1 := by omega
        have q1 := List.getElem?_eq_getElem (l := N1.path) (i := j) (by omega)
        obtain ⟨X, hX, _⟩ := hI.good.path t1 N1 j _ i1.node q1
        have q2 : N2.path[j]? = some N1.path[j] := by
          have := congrArg (fun l => l[j]?) hag
          simp only [List.getElem?_take, hj, if_true] at this
          rw [← this]; exact q1
        rw [hI.toDesc.raw_at h1 i1 q1 hX, hI.toDesc.raw_at h2 i2 q2 hX]
  have hta := (hI.toDesc.height_eq hca).1
  have htb := (hI.toDesc.height_eq hcb).1
  have htc := (hI.toDesc.height_eq hcc).1
  refine ⟨M.chain, _, ch, e5, e5', hch, ?_, ?_, ?_, ?_, ?_, ?_, ?_⟩
  · rw [hcc.first]; omega
  · rw [htc, nodeHeight]; omega
  · omega
  · rw [hta, nodeHeight]; omega
  · rw [htb, nodeHeight]; omega
  · intro h hh
    exact ⟨heq ha hb hca hcb e3 la h hh, heq hch ha hcc hca ec (by omega) h hh⟩
  · intro x y rx ry hx hy hor h1 h2 hxy
    subst hxy
    have find : ∀ {c1 : Nat} {d1 : Chain} {t1 : Nat} {N1 : Node} {b1 o1 : List Nat},
        s.chains[c1]? = some d1 → Good.ChainIs s.H s.checkpoint T c1 d1 t1 N1 b1 o1 → ∀ h : Int,
        (s.checkpoint.height : Int) ≤ h → s.raw_header_at_height c1 h = .ok rx →
        ∃ (n i : Nat) (X : Node), h = ((s.checkpoint.height + n : Nat) : Int) ∧ N1.path[n]? = some i ∧
          T[i]? = some X ∧ X.raw = rx := by
      intro c1 d1 t1 N1 b1 o1 g1 g2 h g3 g4
      have ht := (hI.toDesc.height_eq g2).1
      have hpos := (hI.good.node t1 N1 g2.node).pos
      rcases lt_or_ge d1.height h with hgt | hle
      · rw [hI.toDesc.raw_above g1 hgt] at g4; cases g4
      · rw [ht, nodeHeight] at hle
        have q1 := List.getElem?_eq_getElem (l := N1.path) (i := (h - s.checkpoint.height).toNat) (by omega)
        obtain ⟨X, hX, _⟩ := hI.good.path t1 N1 _ _ g2.node q1
        have := hI.toDesc.raw_at g1 g2 q1 hX
        have hh : h = ((s.checkpoint.height + (h - s.checkpoint.height).toNat : Nat) : Int) := by omega
        rw [← hh, g4] at this
        cases this
        exact ⟨_, _, X, hh, q1, hX, rfl⟩
    obtain ⟨n, i1, X, f1, f2, f3, f4⟩ := find ha hca x hx h1
    obtain ⟨m, i2, Y, g1, g2, g3, g4⟩ := find hb hcb y hy h2
    have := hI.good.raw_inj _ _ X Y f3 g3 (by rw [f4, g4])
    subst this
    have hle := e4 i1 n m f2 g2
    obtain ⟨rfl, _⟩ := hI.good.common_prefix hca.node hcb.node f2 g2
    omega

/-! ## C19 and C34 for collections -/

/-- Two collections (for instance one object at two times) whose chains `c` and `c'` agree below a
height require the same bits there, whatever else they hold. -/
theorem C19_collections (s s' : Headers) (c c' : Nat) (h t : Int) (hc : s.coin = s'.coin) (hH : s.H = s'.H)
    (heq : ∀ k, k < h → s.raw_header_at_height c k = s'.raw_header_at_height c' k) :
    s.required_bits c h t = s'.required_bits c' h t :=
  C19_only_ancestors (s.view c) (s'.view c') h t hc hH heq

/-- Connecting a header does not change what the existing chains require for their next header, nor
for any height up to it. -/
theorem C19_connect (he : Env H cp S) (hr : Reachable H coin cp S s A) (hroom : Room s) (raw : Bytes)
    (hS : S raw) (s' : Headers) (r : Res (Header × Nat)) (hcon : s.connect raw = (s', r)) (c : Nat)
    (ch : Chain) (hch : s.chains[c]? = some ch) (h t : Int) (hh : h ≤ ch.height + 1) :
    s'.required_bits c h t = s.required_bits c h t := by
  obtain ⟨T, hI, rfl, rfl, rfl, hA⟩ := reachable_inv he hr
  obtain ⟨T', hc, hI'⟩ := hI.connected hS hroom hcon
  have main : ∀ (p : Nat) (P : Node) (d : Nat), T[p]? = some P → s'.H = s.H → s'.coin = s.coin →
      s'.checkpoint = s.checkpoint → Added s T P raw s' d →
      (∀ i : Nat, i ≠ T.length + s.checkpoint.height → s'.storage.get i = s.storage.get i) →
      T' = T ++ [⟨raw, P.path ++ [T.length], d⟩] → s'.required_bits c h t = s.required_bits c h t := by
    intro p P d hp e1 e2 e3 hadd hget hT
    subst hT
    obtain ⟨tt, N, base, own, hci⟩ := hI.toDesc.chain_at hch
    have hht := (hI.toDesc.height_eq hci).1
    have hpos := (hI.good.node tt N hci.node).pos
    -- the chain afterwards has the old path as a prefix
    obtain ⟨ch', hch'⟩ : ∃ ch', s'.chains[c]? = some ch' := by
      cases hadd with
      | extended x _ _ _ hs' =>
        exact ⟨_, List.getElem?_eq_getElem (by rw [hs', List.length_set]; exact getElem?_lt hch)⟩
      | forked _ _ hs' =>
        exact ⟨_, List.getElem?_eq_getElem (by
          rw [hs', List.length_append]; have := getElem?_lt hch; omega)⟩
    obtain ⟨t', N', base', own', hci'⟩ := hI'.toDesc.chain_at hch'
    have hN : (T ++ [⟨raw, P.path ++ [T.length], d⟩])[tt]? = some N := getElem?_snoc.2 (.inl hci.node)
    obtain ⟨hpre, _⟩ := hI'.good.prefix_tip hci' hN hci.chain
    have hle := congrArg List.length hpre
    rw [List.length_take] at hle
    apply C19_collections _ _ _ _ _ _ e2 e1
    intro k hk
    rcases lt_or_ge k 0 with hn | hn
    · rw [hI.toDesc.raw_neg hch hn, hI'.toDesc.raw_neg hch' hn]
    · obtain ⟨n, rfl⟩ : ∃ n : Nat, k = n := ⟨k.toNat, by omega⟩
      rcases Nat.lt_or_ge n s.checkpoint.height with hb | hb
      · rw [hI.toDesc.raw_below hch hb, hI'.toDesc.raw_below hch' (by rw [e3]; exact hb),
          hget n (by omega)]
      · obtain ⟨j, rfl⟩ : ∃ j, n = s.checkpoint.height + j := ⟨n - s.checkpoint.height, by omega⟩
        have hj : j < N.path.length := by rw [hht, nodeHeight] at hh; omega
        have q1 := List.getElem?_eq_getElem (l := N.path) (i := j) hj
        obtain ⟨X, hX, _⟩ := hI.good.path tt N j _ hci.node q1
        have q2 : N'.path[j]? = some N.path[j] := by
          have := congrArg (fun l => l[j]?) hpre
          simp only [List.getElem?_take, hj, if_true] at this
          rw [← this]; exact q1
        have r2 := hI'.toDesc.raw_at hch' hci' q2 (getElem?_snoc.2 (.inl hX))
        rw [e3] at r2
        rw [hI.toDesc.raw_at hch hci q1 hX, r2]
  cases hc with
  | malformed _ hs _ => rw [hs]
  | missing _ _ hs _ => rw [hs]
  | existing _ _ _ _ _ hs _ => rw [hs]
  | rejected _ _ _ _ _ _ _ _ hs _ => rw [hs]
  | accepted p P d hl hp hprev hnew hck e1 e2 e3 hadd hst hget hT =>
    exact main p P d hp e1 e2 e3 hadd hget hT

/-- The median time past of a chain of a reachable state, at least 10 above the checkpoint. -/
theorem C34_collections (he : Env H cp S) (hr : Reachable H coin cp S s A) (c : Nat) (ch : Chain)
    (hch : s.chains[c]? = some ch) (h : Nat) (h1 : cp.height + 10 ≤ h ∨ cp.height = 0)
    (h2 : (h : Int) ≤ ch.height) :
    ∃ (ts : Nat → Int) (m : Int),
      (∀ k : Nat, k ≤ h → h < k + 11 → ∃ hd, s.header_at_height c k = .ok hd ∧ hd.timestamp = ts k) ∧
      s.median_time_past c h = .ok m ∧
      UpperMedian ((List.range (min 11 (h + 1))).map (fun i => ts (h - i))) m := by
  have hex : ∀ k : Nat, ∃ raw t, (k ≤ h → h < k + 11 → s.raw_header_at_height c k = .ok raw ∧
      header_timestamp raw = .ok t ∧ ∃ hd, s.header_at_height c k = .ok hd ∧ hd.timestamp = t) := by
    intro k
    by_cases hk : k ≤ h ∧ h < k + 11
    · obtain ⟨hd, a1, a2, a3, a4, _⟩ := C24_linked he hr c ch hch k (by omega) (by omega)
      have hraw : s.raw_header_at_height c k = .ok hd.raw := by
        simp only [Headers.header_at_height, ChainView.header_at_height, Headers.view, bind_eq_ok] at a1
        obtain ⟨raw, b1, b2⟩ := a1
        rw [(deserialized_header_fields b2).2.1]; exact b1
      refine ⟨hd.raw, hd.timestamp, fun _ _ => ⟨hraw, ?_, hd, a1, rfl⟩⟩
      exact (deserialized_header_fields a4).2.2.2.2.2.1
    · exact ⟨[], 0, fun h1 h2 => absurd ⟨h1, h2⟩ hk⟩
  obtain ⟨m, hm1, hm2⟩ := C34_median_time_past (s.view c) h (fun k => (hex k).choose)
    (fun k => (hex k).choose_spec.choose)
    (fun k g1 g2 => ((hex k).choose_spec.choose_spec g1 g2).1)
    (fun k g1 g2 => ((hex k).choose_spec.choose_spec g1 g2).2.1)
  exact ⟨_, m, fun k g1 g2 => ((hex k).choose_spec.choose_spec g1 g2).2.2, hm1, hm2⟩

end Bitcoinx
