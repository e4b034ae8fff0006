import Verif.Lemmas.Headers
import Verif.Spec.OpenFile

/-! # Reading headers from a file written elsewhere -/

namespace Bitcoinx
open Spec

variable {S : Bytes → Prop}

theorem Desc.hasChild_iff {s : Headers} {T : Tree} (hD : Desc S s T) (hi : Inj s.H S)
    (hno : ∀ x, S x → header_hash s.H x ≠ header_prev_hash s.checkpoint.raw_header) {i : Nat} {N : Node}
    (hN : T[i]? = some N) :
    HasChild T N ↔ ∃ (q : Nat) (Q : Node), T[q]? = some Q ∧ header_prev_hash Q.raw = header_hash s.H N.raw := by
  constructor
  · rintro ⟨q, Q, hQ, hpath⟩
    by_cases hq : q = 0
    · subst hq
      rw [hD.good.root_node] at hQ; cases hQ
      have := (hD.good.node i N hN).pos
      have h := congrArg List.length hpath
      simp only [List.length_append, List.length_singleton] at h
      omega
    · obtain ⟨p, P, g1, g2, g3⟩ := hD.good.parent q Q hQ hq
      rw [g2] at hpath
      have hpp := List.append_inj_left' hpath rfl
      have h1 := (hD.good.node p P g1).last
      have h2 := (hD.good.node i N hN).last
      rw [hpp, h2] at h1
      cases h1
      rw [hN] at g1; cases g1
      exact ⟨q, Q, hQ, g3⟩
  · rintro ⟨q, Q, hQ, hprev⟩
    by_cases hq : q = 0
    · subst hq
      rw [hD.good.root_node] at hQ; cases hQ
      exact absurd hprev.symm (hno _ (hD.valid hN).mem)
    · obtain ⟨p, P, g1, g2, g3⟩ := hD.good.parent q Q hQ hq
      have h := hi _ _ (hD.valid g1).mem (hD.valid hN).mem (by rw [← g3, hprev])
      have := hD.good.raw_inj _ _ P N g1 hN h
      subst this
      rw [hN] at g1; cases g1
      exact ⟨q, Q, hQ, g2⟩

/-- What goes wrong when one more header is read. -/
inductive ReadFails (s : Headers) (T : Tree) (x : Bytes) : Err → Prop
  | zero : x = zeros 80 → ReadFails s T x .missingHeader
  | orphan : (∀ (i : Nat) (N : Node), T[i]? = some N → header_hash s.H N.raw ≠ header_prev_hash x) →
      ReadFails s T x .missingHeader
  | bits (p : Nat) (P : Node) (e : Err) : x ≠ zeros 80 → T[p]? = some P →
      header_hash s.H P.raw = header_prev_hash x → header_work x = .error e → ReadFails s T x e
  | chains (p : Nat) (P : Node) : x ≠ zeros 80 → T[p]? = some P →
      header_hash s.H P.raw = header_prev_hash x → (∃ w, header_work x = .ok w) → HasChild T P →
      65536 ≤ s.chains.length → ReadFails s T x .overflowError

theorem add_chain_tip_overflow (s : Headers) (ch : Chain) (c ht : Nat) (hh : ch.tip.height = (ht : Int))
    (h1 : ht < 2 ^ 32) (h2 : 65536 ≤ c) : (s.add_chain_tip ch c).2 = .error .overflowError := by
  have e1 : arrayAppend 4 s.heights (ht : Int) = .ok (s.heights ++ [ht]) := arrayAppend_ok4 h1
  have e2 : arrayAppend 2 s.chain_indices (c : Int) = .error .overflowError := by
    have : ¬ (0 ≤ (c : Int) ∧ (c : Int) < 256 ^ 2) := by norm_num; omega
    rw [arrayAppend, if_neg this]
  rw [Headers.add_chain_tip, hh, e1, e2]
  rfl

theorem Chain.append_error (ch : Chain) (hd : Header) (i : Nat) (e : Err) (hi : i < 2 ^ 32)
    (hw : hd.work = .error e) : (ch.append hd i).2 = .error e := by
  rw [Chain.append, arrayAppend_ok4 hi, Chain.append_indices, hw]

theorem Chain.new_error (p : Option Nat) (hd : Header) (i : Nat) (w : Int) (e : Err)
    (hw : hd.work = .error e) : Chain.new p hd i w = .error e := by
  rw [Chain.new, hw]; rfl

theorem Desc.read_fails {s : Headers} {T : Tree} (h : Desc S s T) (hi : Inj s.H S) {x : Bytes}
    (hx : x.length = 80)
    (hst : s.storage.get ((T.length : Int) + s.checkpoint.height) =
      if x = zeros 80 then .error .missingHeader else .ok x)
    (hb : T.length + s.checkpoint.height < 2 ^ 32) {e : Err} (hf : ReadFails s T x e) :
    (s.read_header (T.length + s.checkpoint.height)).2 = .error e := by
  have e1 : ((T.length + s.checkpoint.height : Nat) : Int) = (T.length : Int) + s.checkpoint.height := by
    omega
  have found : ∀ (p : Nat) (P : Node), x ≠ zeros 80 → T[p]? = some P →
      header_hash s.H P.raw = header_prev_hash x → s.read_prev (T.length + s.checkpoint.height) =
      .ok (mkHeader s.H x (nodeHeight s.checkpoint P + 1 : Nat),
        mkHeader s.H P.raw (nodeHeight s.checkpoint P), P.chain) := by
    intro p P hne hp hprev
    rw [if_neg hne] at hst
    have hPH : (mkHeader s.H P.raw (nodeHeight s.checkpoint P)).height = nodeHeight s.checkpoint P :=
      (mkHeader_fields _ (h.valid hp).length).2.1
    have e2 : s.lookup (mkHeader s.H x (-1)).prev_hash =
        .ok (mkHeader s.H P.raw (nodeHeight s.checkpoint P), P.chain) := by
      rw [(mkHeader_fields (H := s.H) (-1) hx).2.2.2.1, ← hprev, h.lookup_found hi hp]
    simp only [Headers.read_prev, e1, hst, ok_bind', mkHeader_ok (H := s.H) (-1) hx, e2,
      pure_ok', hPH, mkHeader_with (H := s.H) _ _ hx]
    rfl
  cases hf with
  | zero h0 =>
    rw [if_pos h0] at hst
    simp only [Headers.read_header, Headers.read_prev, e1, hst, error_bind']
  | orphan hno =>
    split at hst
    · simp only [Headers.read_header, Headers.read_prev, e1, hst, error_bind']
    · have hne : header_prev_hash x ≠ [] := by
        intro hc
        have := header_prev_hash_length hx
        rw [hc] at this; simp at this
      have e2 : s.lookup (mkHeader s.H x (-1)).prev_hash = .error .missingHeader := by
        rw [(mkHeader_fields (H := s.H) (-1) hx).2.2.2.1, h.lookup_missing hne hno]
      simp only [Headers.read_header, Headers.read_prev, e1, hst, ok_bind', mkHeader_ok (H := s.H) (-1) hx,
        e2, error_bind']
  | bits p P e hne hp hprev hw =>
    have hread := found p P hne hp hprev
    obtain ⟨ch, hch⟩ := h.chain_exists hp
    have hwork : (mkHeader s.H x (nodeHeight s.checkpoint P + 1 : Nat)).work = .error e := by
      rw [mkHeader_work _ hx, hw]
    simp only [Headers.read_header, hread, hch]
    have hPH : (mkHeader s.H P.raw (nodeHeight s.checkpoint P)).height = nodeHeight s.checkpoint P :=
      (mkHeader_fields _ (h.valid hp).length).2.1
    split
    · have := Chain.append_error ch _ (T.length + s.checkpoint.height) e hb hwork
      split
      · next h1 => rw [h1] at this; simp only [Except.error.injEq] at this; rw [this]
      · next h1 => rw [h1] at this; cases this
    · obtain ⟨t, N, base, own, hci⟩ := h.chain_at hch
      have hnok := h.good.node p P hp
      have hpre := h.good.prefix_tip hci hp rfl
      have hwk := h.chainwork_to hch hci P.path.length (by
          have := congrArg List.length hpre.1
          rw [List.length_take] at this; omega) (nodeHeight s.checkpoint P) (by
          have := hnok.pos; simp only [nodeHeight]; omega)
      simp only [hPH, hwk, Chain.new_error _ _ _ _ e hwork]
  | chains p P hne hp hprev hw hchild hfull =>
    obtain ⟨w, hw⟩ := hw
    have hread := found p P hne hp hprev
    obtain ⟨ch, hch⟩ := h.chain_exists hp
    have hwork : (mkHeader s.H x (nodeHeight s.checkpoint P + 1 : Nat)).work = .ok w := by
      rw [mkHeader_work _ hx, hw]
    have hPf := mkHeader_fields (H := s.H) (nodeHeight s.checkpoint P) (h.valid hp).length
    have htest : ¬ ch.tip.hash = (mkHeader s.H P.raw (nodeHeight s.checkpoint P)).hash := by
      rw [hPf.2.2.1, h.tip_iff hi hp hch]; exact not_not.2 hchild
    obtain ⟨t, N, base, own, hci⟩ := h.chain_at hch
    have hnok := h.good.node p P hp
    have hpre := h.good.prefix_tip hci hp rfl
    have hwk := h.chainwork_to hch hci P.path.length (by
        have := congrArg List.length hpre.1
        rw [List.length_take] at this; omega) (nodeHeight s.checkpoint P) (by
        have := hnok.pos; simp only [nodeHeight]; omega)
    have hnh : (mkHeader s.H x (nodeHeight s.checkpoint P + 1 : Nat)).height =
        ((nodeHeight s.checkpoint P + 1 : Nat) : Int) := (mkHeader_fields _ hx).2.1
    have hht : nodeHeight s.checkpoint P + 1 < 2 ^ 32 := by
      have := hnok.pos
      have := hnok.len
      have := getElem?_lt hp
      simp only [nodeHeight]; omega
    have hnew := Chain.new_ok (some P.chain) (mkHeader s.H x (nodeHeight s.checkpoint P + 1 : Nat))
      (T.length + s.checkpoint.height) _ (s.checkpoint.prev_work + totalWork T (N.path.take P.path.length)) hb hwork
    simp only [Headers.read_header, hread, hch, htest, if_false, hPf.2.1, hwk]
    rw [hnew]
    generalize hg : ({
        parent := some P.chain, tip := mkHeader s.H x (nodeHeight s.checkpoint P + 1 : Nat),
        work := s.checkpoint.prev_work + totalWork T (N.path.take P.path.length) + w,
        first_height := (mkHeader s.H x (nodeHeight s.checkpoint P + 1 : Nat)).height,
        header_indices := [T.length + s.checkpoint.height] } : Chain) = nch
    have htip : nch.tip.height = ((nodeHeight s.checkpoint P + 1 : Nat) : Int) := by rw [← hg]; exact hnh
    have := add_chain_tip_overflow { s with chains := s.chains ++ [nch] } nch s.chains.length _ htip hht hfull
    simp only [Headers.add_chain]
    split
    · next h1 => rw [h1] at this; simp only [Except.error.injEq] at this; rw [this]
    · next h1 => rw [h1] at this; cases this

/-- One more header is read without or with one of these errors. -/
theorem Desc.read_step {s : Headers} {T : Tree} (h : Desc S s T) {x : Bytes} (hx : x.length = 80)
    (hS : S x) (hcl : s.chains.length ≤ 65536) :
    (∃ e, ReadFails s T x e) ∨
    ∃ (p : Nat) (P : Node), T[p]? = some P ∧ Valid S x ∧ header_prev_hash x = header_hash s.H P.raw ∧
      (HasChild T P → s.chains.length < 65536) := by
  by_cases h0 : x = zeros 80
  · exact .inl ⟨_, .zero h0⟩
  by_cases hp : ∃ (p : Nat) (P : Node), T[p]? = some P ∧ header_hash s.H P.raw = header_prev_hash x
  · obtain ⟨p, P, hp, hprev⟩ := hp
    cases hw : header_work x with
    | error e => exact .inl ⟨_, .bits p P e h0 hp hprev hw⟩
    | ok w =>
      by_cases hc : HasChild T P ∧ 65536 ≤ s.chains.length
      · exact .inl ⟨_, .chains p P h0 hp hprev ⟨w, hw⟩ hc.1 hc.2⟩
      · refine .inr ⟨p, P, hp, ⟨hx, h0, by simp [workOf, hw], hS⟩, hprev.symm, fun hch => ?_⟩
        exact Nat.lt_of_not_le fun he => hc ⟨hch, he⟩
  · exact .inl ⟨_, .orphan (fun i N hN he => hp ⟨i, N, hN, he⟩)⟩


/-! ## Files -/

theorem header_bits_eq {x : Bytes} (hx : x.length = 80) : header_bits x = .ok (bitsOf x) := by
  have h1 : (slice x 72 76).length = 4 := by rw [slice_length _ _ _ (by omega)]
  rw [header_bits, unpack_le_uint32, unpackU, if_pos h1, le_bytes_to_int_eq]
  rfl

theorem work_error_iff {x : Bytes} (hx : x.length = 80) (e : Err) :
    header_work x = .error e ↔ bits_to_target (bitsOf x) = .error e := by
  simp only [header_work, header_bits_eq hx, ok_bind', bits_to_work]
  cases bits_to_target (bitsOf x) <;> simp

theorem work_ok_iff {x : Bytes} (hx : x.length = 80) :
    (∃ w, header_work x = .ok w) ↔ ∃ t, bits_to_target (bitsOf x) = .ok t := by
  simp only [header_work, header_bits_eq hx, ok_bind', bits_to_work]
  cases bits_to_target (bitsOf x) <;> simp

theorem forks_snoc (u : List Bytes) (x : Bytes) :
    forks (u ++ [x]) = forks u + if ∃ y ∈ u, header_prev_hash y = header_prev_hash x then 1 else 0 := by
  simp only [forks, List.reverse_append, List.reverse_cons, List.reverse_nil, List.nil_append,
    List.singleton_append, forksRev, List.mem_reverse]

/-- The headers of the tree are the checkpoint and these. -/
def Reads (S : Bytes → Prop) (s : Headers) (T : Tree) (u : List Bytes) : Prop :=
  Desc S s T ∧ T.map Node.raw = s.checkpoint.raw_header :: u ∧ s.chains.length = 1 + forks u

theorem mem_raw_iff {T : Tree} {l : List Bytes} (h : T.map Node.raw = l) (y : Bytes) :
    y ∈ l ↔ ∃ (i : Nat) (N : Node), T[i]? = some N ∧ N.raw = y := by
  rw [← h, List.mem_map]
  constructor
  · rintro ⟨N, hN, rfl⟩
    obtain ⟨i, hi⟩ := List.mem_iff_getElem?.1 hN
    exact ⟨i, N, hi, rfl⟩
  · rintro ⟨i, N, hN, rfl⟩
    exact ⟨N, List.mem_of_getElem? hN, rfl⟩

theorem Reads.hasChild {s : Headers} {T : Tree} {u : List Bytes} (h : Reads S s T u) (hi : Inj s.H S)
    (hno : ∀ x, S x → header_hash s.H x ≠ header_prev_hash s.checkpoint.raw_header) {p : Nat} {P : Node}
    (hp : T[p]? = some P) {x : Bytes} (hprev : header_hash s.H P.raw = header_prev_hash x) :
    HasChild T P ↔ ∃ y ∈ u, header_prev_hash y = header_prev_hash x := by
  rw [h.1.hasChild_iff hi hno hp, hprev]
  constructor
  · rintro ⟨q, Q, hQ, he⟩
    have := (mem_raw_iff h.2.1 Q.raw).2 ⟨q, Q, hQ, rfl⟩
    rcases List.mem_cons.1 this with hc | hc
    · rw [hc, ← hprev] at he
      exact absurd he.symm (hno _ (h.1.valid hp).mem)
    · exact ⟨_, hc, he⟩
  · rintro ⟨y, hy, he⟩
    obtain ⟨q, Q, hQ, rfl⟩ := (mem_raw_iff h.2.1 y).1 (List.mem_cons_of_mem _ hy)
    exact ⟨q, Q, hQ, he⟩

theorem Reads.length {s : Headers} {T : Tree} {u : List Bytes} (h : Reads S s T u) :
    T.length = u.length + 1 := by
  have := congrArg List.length h.2.1
  simpa using this

theorem Reads.refused {s : Headers} {T : Tree} {u : List Bytes} (h : Reads S s T u) (hi : Inj s.H S)
    (hno : ∀ x, S x → header_hash s.H x ≠ header_prev_hash s.checkpoint.raw_header) {x : Bytes}
    (hx : x.length = 80) (hle : s.chains.length ≤ 65536) {e : Err}
    (hr : Refused s.H s.checkpoint u x e) : ReadFails s T x e := by
  have par : (∃ y ∈ s.checkpoint.raw_header :: u, header_hash s.H y = header_prev_hash x) →
      ∃ (p : Nat) (P : Node), T[p]? = some P ∧ header_hash s.H P.raw = header_prev_hash x := by
    rintro ⟨y, hy, he⟩
    obtain ⟨p, P, hp, rfl⟩ := (mem_raw_iff h.2.1 y).1 hy
    exact ⟨p, P, hp, he⟩
  cases hr with
  | missing hm =>
    rcases hm with hm | hm
    · exact .zero hm
    · exact .orphan fun i N hN => hm _ ((mem_raw_iff h.2.1 _).2 ⟨i, N, hN, rfl⟩)
  | bits h0 hp hb =>
    obtain ⟨p, P, hp, he⟩ := par hp
    exact .bits p P e h0 hp he ((work_error_iff hx e).2 hb)
  | chains h0 hp hb hf =>
    obtain ⟨p, P, hp, he⟩ := par hp
    rw [forks_snoc] at hf
    have h3 := h.2.2
    split at hf
    · next hs =>
      refine .chains p P h0 hp he ((work_ok_iff hx).2 hb) ((h.hasChild hi hno hp he).2 hs) (by omega)
    · omega

theorem Reads.step {s : Headers} {T : Tree} {u : List Bytes} (h : Reads S s T u) (hi : Inj s.H S)
    (hno : ∀ x, S x → header_hash s.H x ≠ header_prev_hash s.checkpoint.raw_header) {x : Bytes}
    (hx : x.length = 80) (hS : S x) (hnew : x ∉ s.checkpoint.raw_header :: u)
    (hst : s.storage.get ((T.length : Int) + s.checkpoint.height) =
      if x = zeros 80 then .error .missingHeader else .ok x)
    (hb : T.length + s.checkpoint.height < 2 ^ 32) (hle : s.chains.length ≤ 65536)
    (hf : Fits s.H s.checkpoint u x) :
    ∃ s' c T', s.read_header (T.length + s.checkpoint.height) = (s', .ok c) ∧ Reads S s' T' (u ++ [x]) ∧
      s'.chains.length ≤ 65536 ∧ s'.storage = s.storage ∧ s'.H = s.H ∧ s'.coin = s.coin ∧
      s'.checkpoint = s.checkpoint := by
  obtain ⟨y, hy, he⟩ := hf.parent
  obtain ⟨p, P, hp, rfl⟩ := (mem_raw_iff h.2.1 y).1 hy
  obtain ⟨w, hw⟩ := (work_ok_iff hx).2 hf.bits
  have hv : Valid S x := ⟨hx, hf.nonzero, by simp [workOf, hw], hS⟩
  have hfk := hf.chains
  rw [forks_snoc] at hfk
  have h3 := h.2.2
  have hch := h.hasChild hi hno hp he
  rw [if_neg hf.nonzero] at hst
  obtain ⟨s', c, r1, r2, r3, r4, r5, r6, r7⟩ := h.1.read_header hi hp hv he.symm
    (fun M hM hc => hnew (by rw [← hc, ← h.2.1]; exact List.mem_map_of_mem hM)) hst hb hle (by
      intro hc
      rw [if_pos (hch.1 hc)] at hfk
      omega)
  have hlen : s'.chains.length = 1 + forks (u ++ [x]) := by
    rw [forks_snoc]
    cases r7 with
    | extended ch hc _ _ hs =>
      rw [hs, List.length_set, if_neg (fun h => hc (hch.2 h))]; omega
    | forked hc _ hs =>
      rw [hs, List.length_append, if_pos (hch.1 hc), List.length_singleton]; omega
  refine ⟨s', c, _, r1, ⟨r2, ?_, hlen⟩, ?_, r3, r4, r5, r6⟩
  · rw [List.map_append, h.2.1, r6]; rfl
  · have := hf.chains
    omega

theorem holds_slots {cp : CheckPoint} {f : Bytes} {R : List Bytes} (he : cp.raw_header ≠ zeros 80)
    (h : Holds cp S f R) :
    ∃ cap, Storage.WF ⟨f, 8⟩ (cp.height + (R.length + 1)) cap ∧
      (Storage.get ⟨f, 8⟩ cp.height = .ok cp.raw_header) ∧
      (∀ (i : Nat) (x : Bytes), R[i]? = some x → x.length = 80 ∧ Storage.get ⟨f, 8⟩ ((i + 1 : Nat) + (cp.height : Int)) =
        if x = zeros 80 then .error .missingHeader else .ok x) ∧
      (∀ i : Nat, cp.height + (R.length + 1) ≤ i → Storage.get ⟨f, 8⟩ i = .error .missingHeader) := by
  obtain ⟨n, cap, hl, hn, hR⟩ := h.layout
  have hcl := hl.count_le
  have hfl := hl.length
  have h4 : (slice f 4 8).length = 4 := by rw [slice_length _ _ _ (by omega)]
  have hlt : n < 2 ^ 32 := by
    have := leValue_lt (slice f 4 8)
    rw [h4, hl.count] at this
    norm_num at this ⊢; omega
  have hlen : cp.height + (R.length + 1) = n := by
    rw [hR, storedFrom, List.length_map, List.length_range']; omega
  have hwf : Storage.WF ⟨f, 8⟩ n cap := by
    refine ⟨rfl, hl.head, ?_, hl.length, hl.count_le, hlt⟩
    have := leBytes_leValue (slice f 4 8)
    rw [h4, hl.count] at this
    exact this.symm
  have hslot : ∀ i, i < cap → Storage.get ⟨f, 8⟩ i =
      if storedAt f i = zeros 80 then .error .missingHeader else .ok (storedAt f i) := by
    intro i hi
    rw [Storage.get_nat, hwf.header_lt i hi]
    rfl
  rw [hlen]
  refine ⟨cap, hwf, ?_, ?_, ?_⟩
  · rw [hslot _ (by omega), h.checkpoint, if_neg he]
  · intro i x hx
    have hi := getElem?_lt hx
    rw [hR, storedFrom, List.getElem?_map, List.getElem?_range' (by
      rw [hR, storedFrom, List.length_map, List.length_range'] at hi; exact hi)] at hx
    simp only [Option.map_some, Option.some.injEq, Nat.one_mul] at hx
    subst hx
    have e : ((i + 1 : Nat) : Int) + (cp.height : Int) = ((cp.height + 1 + i : Nat) : Int) := by
      push_cast; ring
    have hi2 : cp.height + 1 + i < cap := by omega
    refine ⟨?_, by rw [e, hslot _ hi2]⟩
    rw [storedAt, slice_length _ _ _ (by omega)]; omega
  · intro i hi
    rcases Nat.lt_or_ge i cap with h1 | h1
    · rw [hslot i h1, hl.rest i hi h1, if_pos rfl]
    · rw [Storage.get_nat, hwf.header_ge i h1]

/-- The headers up to some point are read. -/
theorem read_prefix {H : Hashes} {coin : Coin} {st : Storage} {cp : CheckPoint} (he : Env H cp S)
    (hw : header_work cp.raw_header = .ok (workOf cp.raw_header)) {R : List Bytes}
    (hcp : st.get cp.height = .ok cp.raw_header)
    (hst : ∀ (i : Nat) (x : Bytes), R[i]? = some x → x.length = 80 ∧ st.get ((i + 1 : Nat) + (cp.height : Int)) =
      if x = zeros 80 then .error .missingHeader else .ok x)
    (hR : ∀ x ∈ R, x ≠ cp.raw_header ∧ S x) (hnd : R.Nodup) (hlen : cp.height + (R.length + 1) < 2 ^ 32)
    (u v : List Bytes) (huv : R = u ++ v)
    (hfit : ∀ a x b, u = a ++ x :: b → Fits H cp a x) :
    ∃ s T, (baseHeaders H coin st cp).read_headers (cp.height + 1) u.length = (s, .ok ()) ∧ Reads S s T u ∧
      s.chains.length ≤ 65536 ∧ s.storage = st ∧ s.H = H ∧ s.coin = coin ∧ s.checkpoint = cp := by
  induction u using List.reverseRecOn generalizing v with
  | nil =>
    refine ⟨_, _, rfl, ⟨base_desc ⟨he.cp_length, he.cp_ne, hw, he.cp_mem⟩ hcp, rfl, ?_⟩, ?_, rfl, rfl, rfl, rfl⟩
    · simp [baseHeaders, forks, forksRev]
    · simp [baseHeaders]
  | append_singleton u x ih =>
    obtain ⟨s, T, h1, h2, h3, h4, h5, h6, h7⟩ := ih ([x] ++ v) (by rw [huv]; simp) (by
      intro a y b hab
      exact hfit a y (b ++ [x]) (by rw [hab]; simp))
    have hget : R[u.length]? = some x := by rw [huv]; simp
    have hmem : x ∈ R := List.mem_of_getElem? hget
    obtain ⟨hx, hsx⟩ := hst _ _ hget
    have hTl := h2.length
    have hul := getElem?_lt hget
    subst h4 h5 h6 h7
    obtain ⟨s', c, T', r1, r2, r3, r4, r5, r6, r7⟩ := h2.step he.inj he.noroot hx (hR x hmem).2 (by
        intro hc
        rcases List.mem_cons.1 hc with hc | hc
        · exact (hR x hmem).1 hc
        · rw [huv, List.append_assoc] at hnd
          have := (List.nodup_append.1 hnd).2.2 x hc x (by simp)
          exact this rfl) (by rw [hTl]; exact hsx) (by omega) h3 (hfit u x [] (by simp))
    refine ⟨s', T', ?_, r2, r3, r4, r5, r6, r7⟩
    rw [List.length_append, List.length_singleton, read_headers_snoc, h1]
    simp only
    rw [show s.checkpoint.height + 1 + u.length = T.length + s.checkpoint.height by omega, r1]

/-- An error ends the loop. -/
theorem read_headers_error {s s' : Headers} {e : Err} : ∀ (k i : Nat), (s.read_headers i k) = (s', .ok ()) →
    ∀ m, (s'.read_header (i + k)).2 = .error e → (s.read_headers i (k + 1 + m)).2 = .error e := by
  intro k
  induction k generalizing s with
  | zero =>
    intro i h m he
    simp only [Headers.read_headers] at h
    cases h
    rw [show 0 + 1 + m = m + 1 by omega, Headers.read_headers]
    rcases hr : s'.read_header i with ⟨s1, r⟩
    rw [Nat.add_zero, hr] at he
    simp only at he
    subst he
    rfl
  | succ k ih =>
    intro i h m he
    rw [show k + 1 + 1 + m = (k + 1 + m) + 1 by omega, Headers.read_headers]
    rw [Headers.read_headers] at h
    rcases hr : s.read_header i with ⟨s1, r⟩
    rw [hr] at h
    cases r with
    | error e => simp at h
    | ok c =>
      simp only at h ⊢
      exact ih (i + 1) h m (by rw [show i + 1 + k = i + (k + 1) by omega]; exact he)

theorem fits_or_refused (H : Hashes) (cp : CheckPoint) (u : List Bytes) (x : Bytes) :
    Fits H cp u x ∨ ∃ e, Refused H cp u x e := by
  by_cases h0 : x = zeros 80
  · exact .inr ⟨_, .missing (.inl h0)⟩
  by_cases hp : ∃ y ∈ cp.raw_header :: u, header_hash H y = header_prev_hash x
  · cases hb : bits_to_target (bitsOf x) with
    | error e => exact .inr ⟨_, .bits h0 hp hb⟩
    | ok t =>
      rcases Nat.lt_or_ge (forks (u ++ [x])) 65536 with hf | hf
      · exact .inl ⟨h0, hp, ⟨t, hb⟩, hf⟩
      · exact .inr ⟨_, .chains h0 hp ⟨t, hb⟩ hf⟩
  · exact .inr ⟨_, .missing (.inr fun y hy he => hp ⟨y, hy, he⟩)⟩

theorem fits_not_refused {H : Hashes} {cp : CheckPoint} {u : List Bytes} {x : Bytes} (h : Fits H cp u x)
    {e : Err} (hr : Refused H cp u x e) : False := by
  cases hr with
  | missing hm =>
    rcases hm with hm | hm
    · exact h.nonzero hm
    · obtain ⟨y, hy, he⟩ := h.parent
      exact hm y hy he
  | bits _ _ hb =>
    obtain ⟨t, ht⟩ := h.bits
    rw [ht] at hb; cases hb
  | chains _ _ _ hf =>
    have := h.chains
    omega

/-- Either all headers fit or there is a first one that does not. -/
theorem all_fit_or (H : Hashes) (cp : CheckPoint) (R : List Bytes) :
    (∀ a x b, R = a ++ x :: b → Fits H cp a x) ∨
    ∃ u x v e, R = u ++ x :: v ∧ (∀ a y b, u = a ++ y :: b → Fits H cp a y) ∧ Refused H cp u x e := by
  induction R using List.reverseRecOn with
  | nil => exact .inl fun a x b h => by simp at h
  | append_singleton R x ih =>
    rcases ih with ih | ⟨u, y, v, e, h1, h2, h3⟩
    · rcases fits_or_refused H cp R x with hf | ⟨e, hr⟩
      · left
        intro a y b hab
        rcases List.eq_nil_or_concat b with rfl | ⟨b', z, rfl⟩
        · obtain ⟨rfl, hxy⟩ := List.append_inj' hab rfl
          cases hxy
          exact hf
        · have : R ++ [x] = (a ++ y :: b') ++ [z] := by rw [hab]; simp
          exact ih a y b' (List.append_inj_left' this rfl)
      · exact .inr ⟨R, x, [], e, rfl, ih, hr⟩
    · exact .inr ⟨u, y, v ++ [x], e, by rw [h1]; simp, h2, h3⟩

/-- The start of construction, up to the reading of the headers. -/
theorem init_read {H : Hashes} {coin : Coin} {st : Storage} {cp : CheckPoint} (he : Env H cp S)
    (hw : header_work cp.raw_header = .ok (workOf cp.raw_header)) {k : Nat}
    (hn : st.len = .ok ((cp.height + (k + 1) : Nat) : Int)) :
    Headers.init H coin st cp = match (baseHeaders H coin st cp).read_headers (cp.height + 1) k with
      | (_, .error e) => .error e
      | (s, .ok ()) => .ok s := by
  obtain ⟨ch, h1, h2⟩ := base_add (H := H) (coin := coin) (st := st) he.cp_length hw (by
    have := he.cp_height; omega)
  have e1 : (baseHeaders H coin st cp).storage.len = .ok ((cp.height + (k + 1) : Nat) : Int) := hn
  have e2 : (((cp.height + (k + 1) : Nat) : Int) - ((cp.height : Int) + 1)).toNat = k := by
    omega
  simp only [Headers.init, h1, ok_bind', h2, e1, e2, pure_ok']
  rcases (baseHeaders H coin st cp).read_headers (cp.height + 1) k with ⟨s, r⟩
  cases r <;> rfl

theorem open_all {H : Hashes} {coin : Coin} {cp : CheckPoint} (he : Env H cp S)
    (hw : header_work cp.raw_header = .ok (workOf cp.raw_header)) {f : Bytes} {R : List Bytes}
    (hf : Holds cp S f R) (hfit : ∀ a x b, R = a ++ x :: b → Fits H cp a x) :
    ∃ s T, Headers.from_file H coin (some f) cp = (some f, .ok s) ∧ Inv S s T ∧ Reads S s T R ∧
      s.storage = ⟨f, 8⟩ ∧ s.H = H ∧ s.coin = coin ∧ s.checkpoint = cp := by
  obtain ⟨cap, hwf, hcp, hst, hrest⟩ := holds_slots he.cp_ne hf
  obtain ⟨s, T, h1, h2, h3, h4, h5, h6, h7⟩ := read_prefix (coin := coin) he hw hcp hst hf.headers hf.distinct
    hwf.count_lt R [] (by simp) hfit
  have ho := (hwf.open cp hcp).2
  refine ⟨s, T, ?_, ⟨h2.1, ?_, ⟨cap, ?_⟩, ?_, h3⟩, h2, h4, h5, h6, h7⟩
  · simp only [Headers.from_file, ho, init_read (coin := coin) he hw hwf.len, h1]
  · rw [h5, h7]; exact he
  · rw [h4, h7, h2.length]; exact hwf
  · rw [h4, h7, h2.length]; exact hrest

theorem open_refused {H : Hashes} {coin : Coin} {cp : CheckPoint} (he : Env H cp S)
    (hw : header_work cp.raw_header = .ok (workOf cp.raw_header)) {f : Bytes} {R : List Bytes}
    (hf : Holds cp S f R) {u v : List Bytes} {x : Bytes} {e : Err} (hR : R = u ++ x :: v)
    (hfit : ∀ a y b, u = a ++ y :: b → Fits H cp a y) (hr : Refused H cp u x e) :
    Headers.from_file H coin (some f) cp = (some f, .error e) := by
  obtain ⟨cap, hwf, hcp, hst, hrest⟩ := holds_slots he.cp_ne hf
  obtain ⟨s, T, h1, h2, h3, h4, h5, h6, h7⟩ := read_prefix (coin := coin) he hw hcp hst hf.headers hf.distinct
    hwf.count_lt u (x :: v) hR hfit
  have ho := (hwf.open cp hcp).2
  have hget : R[u.length]? = some x := by rw [hR]; simp
  obtain ⟨hx, hsx⟩ := hst _ _ hget
  have hTl := h2.length
  have hul := getElem?_lt hget
  have hlt := hwf.count_lt
  subst h5 h6 h7
  have hfails := h2.refused he.inj he.noroot hx h3 hr
  have hread := h2.1.read_fails he.inj hx (by rw [hTl, h4]; exact hsx) (by omega) hfails
  have hall := read_headers_error u.length (s.checkpoint.height + 1) h1 v.length (by
    rw [show s.checkpoint.height + 1 + u.length = T.length + s.checkpoint.height by omega]; exact hread)
  rw [show u.length + 1 + v.length = R.length by rw [hR]; simp; omega] at hall
  simp only [Headers.from_file, ho, init_read (coin := s.coin) he hw hwf.len]
  rcases hb : (baseHeaders s.H s.coin ⟨f, 8⟩ s.checkpoint).read_headers (s.checkpoint.height + 1) R.length with ⟨s1, r⟩
  rw [hb] at hall
  simp only at hall
  subst hall
  rfl

theorem opened_inv {H : Hashes} {coin : Coin} {cp : CheckPoint} (he : Env H cp S) {f : Bytes} {R : List Bytes}
    (hf : Holds cp S f R) {f' : Option Bytes} {s : Headers}
    (h : Headers.from_file H coin (some f) cp = (f', .ok s)) :
    f' = some f ∧ (∀ a x b, R = a ++ x :: b → Fits H cp a x) ∧
      ∃ T, Inv S s T ∧ Reads S s T R ∧ s.storage = ⟨f, 8⟩ ∧ s.H = H ∧ s.coin = coin ∧ s.checkpoint = cp := by
  have hw : header_work cp.raw_header = .ok (workOf cp.raw_header) := by
    unfold Headers.from_file at h
    split at h
    · simp at h
    · simp only [Prod.mk.injEq] at h
      exact init_work he.cp_length h.2
  rcases all_fit_or H cp R with hfit | ⟨u, x, v, e, h1, h2, h3⟩
  · obtain ⟨s', T, g1, g2⟩ := open_all (coin := coin) he hw hf hfit
    rw [h] at g1
    simp only [Prod.mk.injEq, Except.ok.injEq] at g1
    obtain ⟨rfl, rfl⟩ := g1
    exact ⟨rfl, hfit, T, g2⟩
  · rw [open_refused (coin := coin) he hw hf h1 h2 h3] at h
    simp at h

end Bitcoinx
