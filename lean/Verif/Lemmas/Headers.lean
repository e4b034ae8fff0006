import Verif.Lemmas.Chain
import Verif.Props.Storage

/-! # The invariant of `Headers` and its preservation -/

namespace Bitcoinx
open Spec

/-- The object holds the tree, and so does its file. -/
structure Inv (S : Bytes → Prop) (s : Headers) (T : Tree) : Prop extends Desc S s T where
  env : Env s.H s.checkpoint S
  wf : ∃ cap, s.storage.WF (s.checkpoint.height + T.length) cap
  rest : ∀ i : Nat, s.checkpoint.height + T.length ≤ i → s.storage.get i = .error .missingHeader
  room : s.chains.length ≤ 65536

theorem work_of_target {raw : Bytes} {b : Int} {t : Nat} (hb : header_bits raw = .ok b)
    (ht : bits_to_target b = .ok t) : header_work raw = .ok (workOf raw) := by
  have : ∃ w, header_work raw = .ok w := by
    simp only [header_work, hb, ok_bind', bits_to_work, ht, pure_ok']
    exact ⟨_, rfl⟩
  obtain ⟨w, hw⟩ := this
  simp [workOf, hw]

theorem zeros_bits : header_bits (zeros 80) = .ok 0 := by decide

theorem zeros_target : bits_to_target 0 = .ok 0 := by decide

theorem mkHeader_timestamp {H : Hashes} {raw : Bytes} (a b : Int) (h : raw.length = 80) :
    (mkHeader H raw a).timestamp = (mkHeader H raw b).timestamp := by
  rw [← mkHeader_with a b h]

theorem mkHeader_bits {H : Hashes} {raw : Bytes} (a b : Int) (h : raw.length = 80) :
    (mkHeader H raw a).bits = (mkHeader H raw b).bits := by
  rw [← mkHeader_with a b h]

/-- What passes the proof of work check can be stored. -/
theorem Spec.Env.valid {H : Hashes} {cp : CheckPoint} {S : Bytes → Prop} (he : Env H cp S) {raw : Bytes}
    (hS : S raw) (hl : raw.length = 80) {height : Int} {t : Nat}
    (ht : (mkHeader H raw height).target = .ok t) (hle : (mkHeader H raw height).hash_value ≤ t) :
    Valid S raw := by
  have hf := mkHeader_fields (H := H) height hl
  refine ⟨hl, ?_, work_of_target hf.2.2.2.2.2 ht, hS⟩
  rintro rfl
  have hb := hf.2.2.2.2.2
  rw [zeros_bits] at hb
  injection hb with hb
  rw [Header.target, ← hb, zeros_target] at ht
  injection ht with ht
  have := he.nonzero
  rw [Header.hash_value, hf.2.2.1] at hle
  omega

/-! ## Opening -/

theorem read_headers_snoc (s : Headers) (i n : Nat) :
    s.read_headers i (n + 1) = match s.read_headers i n with
      | (s, .error e) => (s, .error e)
      | (s, .ok ()) => match s.read_header (i + n) with
        | (s, .error e) => (s, .error e)
        | (s, .ok _) => (s, .ok ()) := by
  induction n generalizing s i with
  | zero =>
    simp only [Headers.read_headers, Nat.add_zero]
    rcases s.read_header i with ⟨s', r⟩
    cases r <;> rfl
  | succ n ih =>
    rw [Headers.read_headers]
    conv_rhs => rw [Headers.read_headers]
    rcases s.read_header i with ⟨s', r⟩
    cases r with
    | error e => rfl
    | ok c =>
      simp only
      rw [ih, show i + (n + 1) = i + 1 + n by omega]

/-- The object just after the checkpoint's chain was added. -/
def baseHeaders (H : Hashes) (coin : Coin) (st : Storage) (cp : CheckPoint) : Headers :=
  { H, coin, checkpoint := cp, storage := st,
    chains := [{ parent := none, tip := mkHeader H cp.raw_header cp.height,
                 work := cp.prev_work + workOf cp.raw_header, first_height := cp.height,
                 header_indices := [cp.height] }],
    short_hashes := (header_hash H cp.raw_header).take 4, heights := [cp.height], chain_indices := [0],
    cache := [(header_hash H cp.raw_header, mkHeader H cp.raw_header cp.height, 0)] }

theorem base_desc {H : Hashes} {coin : Coin} {st : Storage} {cp : CheckPoint} {S : Bytes → Prop}
    (hv : Valid S cp.raw_header) (hst : st.get cp.height = .ok cp.raw_header) :
    Desc S (baseHeaders H coin st cp) [⟨cp.raw_header, [0], 0⟩] := by
  refine ⟨.base hv, ?_, rfl, ?_, ?_, ?_⟩
  · simp [baseHeaders, nodeHeight]
  · simp [baseHeaders]
  · intro e he
    simp only [baseHeaders, List.mem_singleton] at he
    exact ⟨0, _, rfl, by rw [he]; simp [baseHeaders, nodeHeight]⟩
  · intro i N hN
    match i with
    | 0 => simp at hN; subst hN; simpa [baseHeaders] using hst
    | i + 1 => simp at hN

theorem base_add {H : Hashes} {coin : Coin} {st : Storage} {cp : CheckPoint}
    (hl : cp.raw_header.length = 80) (hw : header_work cp.raw_header = .ok (workOf cp.raw_header))
    (hh : cp.height < 2 ^ 32) :
    ∃ ch, Chain.from_checkpoint H cp = .ok ch ∧
      Headers.add_chain
        { H := H, coin := coin, checkpoint := cp, storage := st, chains := [],
          short_hashes := [], heights := [], chain_indices := [], cache := [] } ch =
       (baseHeaders H coin st cp, .ok ()) := by
  have hf := mkHeader_fields (H := H) (cp.height : Int) hl
  have hwk : (mkHeader H cp.raw_header cp.height).work = .ok (workOf cp.raw_header) := by
    rw [mkHeader_work _ hl, hw]
  have hch : Chain.from_checkpoint H cp = .ok
      { parent := none, tip := mkHeader H cp.raw_header cp.height,
        work := cp.prev_work + workOf cp.raw_header, first_height := cp.height,
        header_indices := [cp.height] } := by
    unfold Chain.from_checkpoint
    rw [mkHeader_ok _ hl]
    simp only [ok_bind']
    rw [show (mkHeader H cp.raw_header cp.height).height.toNat = cp.height by rw [hf.2.1]; simp,
      Chain.new_ok none _ cp.height _ cp.prev_work hh hwk, hf.2.1]
  refine ⟨_, hch, ?_⟩
  unfold Headers.add_chain
  rw [add_chain_tip_ok _ _ _ cp.height hf.2.1 hh (by simp)]
  simp [baseHeaders, hf.2.2.1, Headers.cache_add, dictSet, Headers.max_cache_size]

theorem read_all {H : Hashes} {coin : Coin} {st : Storage} {cp : CheckPoint} {S : Bytes → Prop}
    (hi : Inj H S) {T : Tree} {cs : List Chain} (hg : Good H cp S T cs)
    (hst : ∀ (i : Nat) (N : Node), T[i]? = some N → st.get ((i : Int) + cp.height) = .ok N.raw)
    (hlen : cp.height + T.length ≤ 2 ^ 32) (hcs : cs.length ≤ 65536) :
    ∃ s, (baseHeaders H coin st cp).read_headers (cp.height + 1) (T.length - 1) = (s, .ok ()) ∧
      Desc S s T ∧ s.chains = cs ∧ s.storage = st ∧ s.H = H ∧ s.coin = coin ∧ s.checkpoint = cp := by
  induction hg with
  | base hv =>
    refine ⟨_, rfl, base_desc hv ?_, rfl, rfl, rfl, rfl, rfl⟩
    have := hst 0 _ rfl
    simpa using this
  | @extend T cs p P ch raw hg hp hc hch hv hprev hnew ih =>
    simp only [List.length_append, List.length_singleton, List.length_set] at hlen hcs
    obtain ⟨s, h1, h2, h3, h4, h5, h6, h7⟩ := ih
      (fun i N hN => hst i N (getElem?_snoc.2 (.inl hN))) (by omega) (by omega)
    have hpos := hg.length_pos
    have hnewst := hst T.length _ (getElem?_snoc.2 (.inr ⟨rfl, rfl⟩))
    subst h3 h4 h5 h6 h7
    obtain ⟨s', c, r1, r2, r3, r4, r5, r6, r7⟩ := h2.read_header hi hp hv hprev hnew hnewst (by omega) hcs
      (fun hcc => absurd hcc hc)
    cases r7 with
    | forked hf _ _ => exact absurd hf hc
    | extended ch' _ hc1 hc2 hc3 =>
      subst hc1
      rw [hch] at hc2; cases hc2
      refine ⟨s', ?_, r2, hc3, r3, r4, r5, r6⟩
      rw [List.length_append, List.length_singleton,
        show T.length + 1 - 1 = (T.length - 1) + 1 by omega, read_headers_snoc, h1]
      simp only
      rw [show s.checkpoint.height + 1 + (T.length - 1) = T.length + s.checkpoint.height by omega, r1]
  | @fork T cs p P raw hg hp hc hv hprev hnew ih =>
    simp only [List.length_append, List.length_singleton] at hlen hcs
    obtain ⟨s, h1, h2, h3, h4, h5, h6, h7⟩ := ih
      (fun i N hN => hst i N (getElem?_snoc.2 (.inl hN))) (by omega) (by omega)
    have hpos := hg.length_pos
    have hnewst := hst T.length _ (getElem?_snoc.2 (.inr ⟨rfl, rfl⟩))
    subst h3 h4 h5 h6 h7
    obtain ⟨s', c, r1, r2, r3, r4, r5, r6, r7⟩ := h2.read_header hi hp hv hprev hnew hnewst (by omega)
      (by omega) (fun _ => by omega)
    cases r7 with
    | extended _ hf _ _ => exact absurd hc hf
    | forked _ hc1 hc3 =>
      subst hc1
      refine ⟨s', ?_, r2, hc3, r3, r4, r5, r6⟩
      rw [List.length_append, List.length_singleton,
        show T.length + 1 - 1 = (T.length - 1) + 1 by omega, read_headers_snoc, h1]
      simp only
      rw [show s.checkpoint.height + 1 + (T.length - 1) = T.length + s.checkpoint.height by omega, r1]

/-- Constructing an object from a storage that holds a tree. -/
theorem init_spec {H : Hashes} {coin : Coin} {st : Storage} {cp : CheckPoint} {S : Bytes → Prop}
    (hi : Inj H S) {T : Tree} {cs : List Chain} (hg : Good H cp S T cs)
    (hst : ∀ (i : Nat) (N : Node), T[i]? = some N → st.get ((i : Int) + cp.height) = .ok N.raw)
    (hn : st.len = .ok ((cp.height + T.length : Nat) : Int))
    (hlen : cp.height + T.length < 2 ^ 32) (hcs : cs.length ≤ 65536) :
    ∃ s, Headers.init H coin st cp = .ok s ∧
      Desc S s T ∧ s.chains = cs ∧ s.storage = st ∧ s.H = H ∧ s.coin = coin ∧ s.checkpoint = cp := by
  have hv := (hg.node 0 _ hg.root_node).valid
  simp only at hv
  obtain ⟨ch, h1, h2⟩ := base_add (H := H) (coin := coin) (st := st) hv.length hv.work (by omega)
  obtain ⟨s, h3, h4⟩ := read_all (coin := coin) hi hg hst (by omega) hcs
  refine ⟨s, ?_, h4⟩
  have hpos := hg.length_pos
  have e1 : (baseHeaders H coin st cp).storage.len = .ok ((cp.height + T.length : Nat) : Int) := hn
  have e2 : (((cp.height + T.length : Nat) : Int) - ((cp.height : Int) + 1)).toNat = T.length - 1 := by
    omega
  simp only [Headers.init, h1, ok_bind', h2, e1, e2, h3, pure_ok']

/-- If construction succeeds the bits of the checkpoint are valid. -/
theorem init_work {H : Hashes} {coin : Coin} {st : Storage} {cp : CheckPoint} {s : Headers}
    (hl : cp.raw_header.length = 80)
    (h : Headers.init H coin st cp = .ok s) : header_work cp.raw_header = .ok (workOf cp.raw_header) := by
  unfold Headers.init Chain.from_checkpoint Chain.new at h
  rw [mkHeader_ok _ hl] at h
  simp only [ok_bind'] at h
  rw [mkHeader_work _ hl] at h
  cases hw : header_work cp.raw_header with
  | ok w => simp [workOf, hw]
  | error e => rw [hw] at h; simp at h

/-! ## `connect` -/

namespace Inv
variable {S : Bytes → Prop} {s : Headers} {T : Tree}

theorem connect_malformed (raw : Bytes) (hl : raw.length ≠ 80) :
    s.connect raw = (s, .error .structError) := by
  have : s.connect_check raw = .error .structError := by
    simp [Headers.connect_check, deserialized_header_err s.H raw _ hl]
  simp [Headers.connect, this]

theorem connect_check_missing (h : Inv S s T) (raw : Bytes) (hl : raw.length = 80)
    (hno : ∀ (i : Nat) (N : Node), T[i]? = some N → header_hash s.H N.raw ≠ header_prev_hash raw) :
    s.connect_check raw = .error .missingHeader := by
  have hf := mkHeader_fields (H := s.H) (-1) hl
  have hne : header_prev_hash raw ≠ [] := by
    intro hc
    have := header_prev_hash_length hl
    rw [hc] at this; simp at this
  simp only [Headers.connect_check, mkHeader_ok _ hl, ok_bind', hf.2.2.2.1,
    h.toDesc.lookup_missing hne hno, error_bind']

theorem connect_missing (h : Inv S s T) (raw : Bytes) (hl : raw.length = 80)
    (hno : ∀ (i : Nat) (N : Node), T[i]? = some N → header_hash s.H N.raw ≠ header_prev_hash raw) :
    s.connect raw = (s, .error .missingHeader) := by
  simp only [Headers.connect, h.connect_check_missing raw hl hno]

/-- A stored header other than the checkpoint has its parent as unique predecessor. -/
theorem parent_of (h : Inv S s T) {i : Nat} {M : Node} (hM : T[i]? = some M) {p : Nat} {P : Node}
    (hp : T[p]? = some P) (hprev : header_prev_hash M.raw = header_hash s.H P.raw) :
    HasChild T P ∧ M.path = P.path ++ [i] := by
  have hi : i ≠ 0 := by
    rintro rfl
    rw [h.good.root_node] at hM; cases hM
    exact h.env.noroot _ (h.toDesc.valid hp).mem hprev.symm
  obtain ⟨p', P', h1, h2, h3⟩ := h.good.parent i M hM hi
  rw [hprev] at h3
  have hraw := h.env.inj _ _ (h.toDesc.valid hp).mem (h.toDesc.valid h1).mem h3
  have := h.good.raw_inj _ _ P P' hp h1 hraw
  subst this
  rw [hp] at h1; cases h1
  exact ⟨⟨i, M, hM, h2⟩, h2⟩

theorem connect_check_existing (h : Inv S s T) {i : Nat} {M : Node} (hM : T[i]? = some M) (hi : i ≠ 0) :
    s.connect_check M.raw = .ok (.inl (mkHeader s.H M.raw (nodeHeight s.checkpoint M), M.chain)) := by
  obtain ⟨p, P, hp, _, hprev⟩ := h.good.parent i M hM hi
  have hchild := (h.parent_of hM hp hprev).1
  obtain ⟨ch, hch⟩ := h.toDesc.chain_exists hp
  have hl := (h.toDesc.valid hM).length
  have hf := mkHeader_fields (H := s.H) (-1) hl
  have hPf := mkHeader_fields (H := s.H) (nodeHeight s.checkpoint P) (h.toDesc.valid hp).length
  have htest : ch.tip.hash ≠ header_hash s.H P.raw := by
    intro hc; exact (h.toDesc.tip_iff h.env.inj hp hch).1 hc hchild
  have hlk := h.toDesc.lookup_found h.env.inj hM
  simp only [Headers.connect_check, mkHeader_ok (H := s.H) (-1) hl, ok_bind', hf.2.2.2.1, hprev,
    h.toDesc.lookup_found h.env.inj hp, hch, hPf.2.2.1, ne_eq, htest, not_false_iff, if_true,
    hf.2.2.1, hlk, pure_ok']

theorem connect_existing (h : Inv S s T) {i : Nat} {M : Node} (hM : T[i]? = some M) (hi : i ≠ 0) :
    s.connect M.raw = (s, .ok (mkHeader s.H M.raw (nodeHeight s.checkpoint M), M.chain)) := by
  simp only [Headers.connect, h.connect_check_existing hM hi]

/-- The checks of a header that is new and has its predecessor in the tree. -/
theorem connect_check_new (h : Inv S s T) {raw : Bytes} (hS : S raw) (hl : raw.length = 80) {p : Nat}
    {P : Node} (hp : T[p]? = some P) (hprev : header_prev_hash raw = header_hash s.H P.raw)
    (hnew : ∀ M ∈ T, M.raw ≠ raw) :
    s.connect_check raw = (do
      let hd := mkHeader s.H raw (nodeHeight s.checkpoint P + 1 : Nat)
      let rb ← s.required_bits P.chain (nodeHeight s.checkpoint P + 1 : Nat) hd.timestamp
      if hd.bits ≠ rb then .error .incorrectBits
      else do
        let target ← hd.target
        if hd.hash_value > target then .error .insufficientPoW else return .inr hd) := by
  obtain ⟨ch, hch⟩ := h.toDesc.chain_exists hp
  have hPf := mkHeader_fields (H := s.H) (nodeHeight s.checkpoint P) (h.toDesc.valid hp).length
  have e1 : s.lookup (mkHeader s.H raw (-1)).prev_hash =
      .ok (mkHeader s.H P.raw (nodeHeight s.checkpoint P), P.chain) := by
    rw [(mkHeader_fields (H := s.H) (-1) hl).2.2.2.1, hprev, h.toDesc.lookup_found h.env.inj hp]
  have hmiss : s.lookup (header_hash s.H raw) = .error .missingHeader := by
    apply h.toDesc.lookup_missing
    · intro hc
      have := header_hash_length s.H raw
      rw [hc] at this; simp at this
    · intro i N hN he
      exact hnew N (List.mem_of_getElem? hN) (h.env.inj _ _ (h.toDesc.valid hN).mem hS he)
  have e2 : (mkHeader s.H raw ((nodeHeight s.checkpoint P : Int) + 1)).hash = header_hash s.H raw :=
    (mkHeader_fields _ hl).2.2.1
  have e3 : (mkHeader s.H raw ((nodeHeight s.checkpoint P : Int) + 1)).height =
      (nodeHeight s.checkpoint P : Int) + 1 := (mkHeader_fields _ hl).2.1
  have e4 : ((nodeHeight s.checkpoint P + 1 : Nat) : Int) = (nodeHeight s.checkpoint P : Int) + 1 := by
    omega
  unfold Headers.connect_check
  rw [mkHeader_ok (H := s.H) (-1) hl]
  have e5 : (mkHeader s.H raw (-1)).hash = header_hash s.H raw := (mkHeader_fields _ hl).2.2.1
  simp only [ok_bind', e1, hPf.2.1, hPf.2.2.1, mkHeader_with (H := s.H) _ _ hl, hch, e2, e3, e4]
  rw [mkHeader_timestamp (H := s.H) (-1) ((nodeHeight s.checkpoint P : Int) + 1) hl,
    mkHeader_bits (H := s.H) (-1) ((nodeHeight s.checkpoint P : Int) + 1) hl]
  by_cases htest : ch.tip.hash = header_hash s.H P.raw
  · simp only [htest, ne_eq, not_true_eq_false, if_false]
  · simp only [htest, ne_eq, not_false_iff, if_true, e5, hmiss]

theorem storage_append (h : Inv S s T) {raw : Bytes} (hl : raw.length = 80) (hne : raw ≠ zeros 80)
    (hb : s.checkpoint.height + T.length + 1 < 2 ^ 32) :
    ∃ st cap, s.storage.append raw = (st, .ok (T.length + s.checkpoint.height)) ∧
      st.WF (s.checkpoint.height + (T.length + 1)) cap ∧
      st.get ((T.length : Int) + s.checkpoint.height) = .ok raw ∧
      (∀ i : Nat, i ≠ T.length + s.checkpoint.height → st.get i = s.storage.get i) := by
  obtain ⟨cap, hw⟩ := h.wf
  obtain ⟨st, cap', h1, h2, h3, _, h5⟩ := hw.get_set (s.checkpoint.height + T.length) raw hl hb
  refine ⟨st, cap', ?_, ?_, ?_, ?_⟩
  · simp only [Storage.append, hw.len, Int.toNat_natCast, h1]
    rw [Nat.add_comm]
  · rw [max_eq_right (by omega)] at h2; exact h2
  · have := h3 hne
    rwa [show ((s.checkpoint.height + T.length : Nat) : Int) =
      (T.length : Int) + s.checkpoint.height by omega] at this
  · intro i hi; exact h5 i (by omega)

/-- The storage part of the invariant does not matter for `Desc`. -/
theorem with_storage (h : Desc S s T) {st : Storage}
    (hst : ∀ i : Nat, s.checkpoint.height ≤ i → i < s.checkpoint.height + T.length →
      st.get i = s.storage.get i) : Desc S { s with storage := st } T := by
  refine ⟨h.good, h.heights, h.chain_indices, h.short, h.cache, ?_⟩
  intro i N hN
  have hlt := getElem?_lt hN
  have e : (i : Int) + s.checkpoint.height = ((i + s.checkpoint.height : Nat) : Int) := by omega
  simp only
  rw [e, hst _ (by omega) (by omega), ← e, h.stored i N hN]

/-- A header that passes the checks is stored. -/
theorem connect_accept (h : Inv S s T) {raw : Bytes} (hv : Valid S raw) {p : Nat}
    {P : Node} (hp : T[p]? = some P) (hprev : header_prev_hash raw = header_hash s.H P.raw)
    (hnew : ∀ M ∈ T, M.raw ≠ raw) {hd : Header} (hck : s.connect_check raw = .ok (.inr hd))
    (hb : s.checkpoint.height + T.length + 1 < 2 ^ 32)
    (hcl : HasChild T P → s.chains.length < 65536) :
    ∃ s' c, s.connect raw = (s', .ok (hd, c)) ∧ Inv S s' (T ++ [⟨raw, P.path ++ [T.length], c⟩]) ∧
      s'.H = s.H ∧ s'.coin = s.coin ∧ s'.checkpoint = s.checkpoint ∧ Added s T P raw s' c ∧
      s'.storage = (s.storage.append raw).1 ∧
      (∀ i : Nat, i ≠ T.length + s.checkpoint.height → s'.storage.get i = s.storage.get i) := by
  obtain ⟨st, cap, h1, h2, h3, h4⟩ := h.storage_append hv.length hv.nonzero hb
  have hd' : Desc S { s with storage := st } T :=
    with_storage h.toDesc (fun i _ hi => h4 i (by omega))
  obtain ⟨s', c, r1, r2, r3, r4, r5, r6, r7⟩ := hd'.read_header h.env.inj hp hv hprev hnew h3
    (by simp only; omega) h.room hcl
  have r7' : Added s T P raw s' c := by
    cases r7 with
    | extended ch a b d e => exact .extended ch a b d e
    | forked a b d => exact .forked a b d
  simp only at r1 r3 r4 r5 r6
  refine ⟨s', c, ?_, ⟨r2, ?_, ?_, ?_, ?_⟩, r4, r5, r6, r7', by rw [r3, h1], ?_⟩
  · simp only [Headers.connect, hck, h1, r1]
  · rw [r4, r6]; exact h.env
  · rw [r3, r6, List.length_append, List.length_singleton]; exact ⟨cap, h2⟩
  · intro i hi
    rw [r6, List.length_append, List.length_singleton] at hi
    rw [r3, h4 i (by omega)]
    exact h.rest i (by omega)
  · cases r7' with
    | extended ch a b d e => rw [e, List.length_set]; exact h.room
    | forked a b d => rw [d, List.length_append, List.length_singleton]; have := hcl a; omega
  · rw [r3]; exact h4

/-- `set_one`, unless it changes the checkpoint's header. -/
theorem set_one (h : Inv S s T) (height : Int) (raw : Bytes)
    (hh : height = s.checkpoint.height → raw = s.checkpoint.raw_header) :
    Inv S (s.set_one height raw).1 T ∧ (s.set_one height raw).1.chains = s.chains ∧
      (s.set_one height raw).1.H = s.H ∧ (s.set_one height raw).1.coin = s.coin ∧
      (s.set_one height raw).1.checkpoint = s.checkpoint := by
  unfold Headers.set_one
  split
  · exact ⟨h, rfl, rfl, rfl, rfl⟩
  · next hc =>
    have hpos := h.good.length_pos
    by_cases hl : raw.length = 80
    · obtain ⟨cap, hw⟩ := h.wf
      have hcpb := hw.count_lt
      obtain ⟨st, cap', h1, h2, h3, _, h5⟩ := hw.get_set height.toNat raw hl (by omega)
      rw [max_eq_left (by omega)] at h2
      have hsame : ∀ i : Nat, s.checkpoint.height ≤ i → st.get i = s.storage.get i := by
        intro i hi
        by_cases he : i = height.toNat
        · have hcp := hh (by omega)
          have hi' : i = s.checkpoint.height := by omega
          have e1 := h3 (by rw [hcp]; exact h.env.cp_ne)
          have e2 := h.stored 0 _ h.good.root_node
          simp only [Nat.cast_zero, zero_add] at e2
          rw [← he] at e1
          rw [e1, hcp, hi', e2]
        · exact h5 i he
      rw [h1]
      refine ⟨⟨with_storage h.toDesc (fun i hi _ => hsame i hi), h.env, ⟨cap', h2⟩, ?_, h.room⟩,
        rfl, rfl, rfl, rfl⟩
      intro i hi
      simp only at hi ⊢
      rw [hsame i (by omega)]
      exact h.rest i hi
    · have : s.storage.set_raw_header height.toNat raw = (s.storage, .error .typeError) :=
        C21_type_error _ _ _ hl
      rw [this]
      exact ⟨h, rfl, rfl, rfl, rfl⟩

/-- The storage of a tree reopened. -/
theorem reopen (h : Inv S s T) (coin : Coin) :
    ∃ s', Headers.from_file s.H coin (some s.storage.file) s.checkpoint = (some s.storage.file, .ok s') ∧
      Inv S s' T ∧ s'.chains = s.chains ∧ s'.storage = s.storage ∧ s'.H = s.H ∧ s'.coin = coin ∧
      s'.checkpoint = s.checkpoint := by
  obtain ⟨cap, hw⟩ := h.wf
  have hcp := h.stored 0 _ h.good.root_node
  simp only [Nat.cast_zero, zero_add] at hcp
  have ho := (hw.open s.checkpoint hcp).2
  obtain ⟨s', h1, h2, h3, h4, h5, h6, h7⟩ := init_spec (coin := coin) h.env.inj h.good h.stored hw.len
    hw.count_lt h.room
  refine ⟨s', by simp only [Headers.from_file, ho, h1], ⟨h2, ?_, ?_, ?_, ?_⟩, h3, h4, h5, h6, h7⟩
  · rw [h5, h7]; exact h.env
  · rw [h4, h7]; exact ⟨cap, hw⟩
  · rw [h4, h7]; exact h.rest
  · rw [h3]; exact h.room

end Inv

/-- A newly made file. -/
theorem fresh_ok {H : Hashes} {coin : Coin} {cp : CheckPoint} {S : Bytes → Prop} (he : Env H cp S)
    (hwk : header_work cp.raw_header = .ok (workOf cp.raw_header))
    {file : Option Bytes} (hf : file ≠ some [])
    (hm : ∀ f, file = some f → ¬ Matches f cp.raw_header cp.height) :
    ∃ s, Headers.from_file H coin file cp = (some s.storage.file, .ok s) ∧
      Inv S s [⟨cp.raw_header, [0], 0⟩] ∧ s.H = H ∧ s.coin = coin ∧ s.checkpoint = cp ∧
      s.chains = (baseHeaders H coin s.storage cp).chains := by
  obtain ⟨f0, h1, h2, h3⟩ := created_open cp he.cp_length he.cp_ne he.cp_height
  obtain ⟨hwf, hget⟩ := created_wf cp he.cp_length he.cp_ne he.cp_height
  have hopen : Storage.open_or_create file cp =
      (some (Storage.created cp).file, .ok (Storage.created cp)) := by
    rw [h2]
    refine open_or_create_again file cp f0 _ ?_ h1 h3
    cases file with
    | none => right; right; rfl
    | some f =>
      rcases open_not_matches f cp he.cp_length (fun hc => hf (by rw [hc])) (hm f rfl) with hk | hk
      · exact .inl hk
      · exact .inr (.inl hk)
  have hv : Valid S cp.raw_header := ⟨he.cp_length, he.cp_ne, hwk, he.cp_mem⟩
  have hst : ∀ (i : Nat) (N : Node), ([⟨cp.raw_header, [0], 0⟩] : Tree)[i]? = some N →
      (Storage.created cp).get ((i : Int) + cp.height) = .ok N.raw := by
    intro i N hN
    match i with
    | 0 =>
      simp at hN; subst hN
      have := hget cp.height
      simpa [expected, latest] using this
    | i + 1 => simp at hN
  obtain ⟨s, r1, r2, r3, r4, r5, r6, r7⟩ := init_spec (coin := coin) he.inj (Good.base hv) hst hwf.len
    he.cp_height (by simp)
  subst r5 r6 r7
  refine ⟨s, ?_, ⟨r2, he, ⟨_, by rw [r4]; exact hwf⟩, ?_, ?_⟩, rfl, rfl, rfl, r3⟩
  · simp only [Headers.from_file, hopen, r1, r4]
  · intro i hi
    simp only [List.length_singleton] at hi
    rw [r4, hget i]
    have : i ≠ s.checkpoint.height := by omega
    simp [expected, latest, this]
  · rw [r3]; simp

theorem fresh_inv {H : Hashes} {coin : Coin} {cp : CheckPoint} {S : Bytes → Prop} (he : Env H cp S)
    {file : Option Bytes} (hf : file ≠ some [])
    (hm : ∀ f, file = some f → ¬ Matches f cp.raw_header cp.height) {f' : Option Bytes} {s : Headers}
    (h : Headers.from_file H coin file cp = (f', .ok s)) :
    Inv S s [⟨cp.raw_header, [0], 0⟩] ∧ s.H = H ∧ s.coin = coin ∧ s.checkpoint = cp ∧
      s.chains = (baseHeaders H coin s.storage cp).chains ∧ f' = some s.storage.file := by
  have hwk : header_work cp.raw_header = .ok (workOf cp.raw_header) := by
    unfold Headers.from_file at h
    split at h
    · simp at h
    · simp only [Prod.mk.injEq] at h
      exact init_work he.cp_length h.2
  obtain ⟨s', h1, h2, h3, h4, h5, h6⟩ := fresh_ok (coin := coin) he hwk hf hm
  rw [h] at h1
  simp only [Prod.mk.injEq, Except.ok.injEq] at h1
  obtain ⟨hf', rfl⟩ := h1
  exact ⟨h2, h3, h4, h5, h6, hf'⟩

namespace Inv
variable {S : Bytes → Prop} {s : Headers} {T : Tree}

/-- The empty string is no hash. -/
theorem lookup_nil (h : Inv S s T) : s.lookup [] = .error .missingHeader := by
  have hslow : ∀ fuel start, start ≤ 4 * T.length → start + fuel = 4 * T.length + 2 →
      s.header_index_slow_loop [] fuel start = .error .missingHeader := by
    intro fuel
    induction fuel with
    | zero => intro start h1 h2; omega
    | succ fuel ih =>
      intro start h1 h2
      have hfind : bytesFind s.short_hashes (List.take 4 []) start = some start := by
        unfold bytesFind
        rw [h.toDesc.short_length, show 4 * T.length + 1 - start = (4 * T.length - start) + 1 by omega,
          bytesFindLoop]
        simp [slice]
      simp only [Headers.header_index_slow_loop, hfind]
      by_cases hm : start % 4 = 0
      · simp only [hm, if_true]
        rcases Nat.lt_or_ge (start / 4) T.length with hlt | hge
        · have hst := h.stored (start / 4) T[start / 4] (List.getElem?_eq_getElem hlt)
          rw [hst]
          have hne : header_hash s.H T[start / 4].raw ≠ [] := by
            intro hc
            have := header_hash_length s.H T[start / 4].raw
            rw [hc] at this; simp at this
          simp only [hne, if_false]
          exact ih _ (by omega) (by omega)
        · have := h.rest (start / 4 + s.checkpoint.height) (by omega)
          push_cast at this ⊢
          rw [this]
      · simp only [hm, if_false]
        exact ih _ (by omega) (by omega)
  have hc : dictGet s.cache [] = none := by
    cases hd : dictGet s.cache [] with
    | none => rfl
    | some v =>
      exfalso
      obtain ⟨i, N, _, he⟩ := h.cache _ (dictGet_mem hd)
      have := header_hash_length s.H N.raw
      rw [← (Prod.mk.inj he).1] at this; simp at this
  unfold Headers.lookup
  simp only [hc, Headers.header_index_slow]
  rw [hslow _ 0 (by omega) (by rw [h.toDesc.short_length]; omega)]
  rfl

end Inv

end Bitcoinx
