import Verif.Props.Chain
import Verif.Spec.Order

/-! # C87: the order in which headers arrive does not matter -/

namespace Bitcoinx
open Spec

variable {H : Hashes} {coin : Coin} {cp : CheckPoint} {S : Bytes → Prop} {s s' : Headers} {A A' : List Bytes}

/-! ## Lemmas on trees -/

/-- The header at a position. -/
def rawAt (T : Tree) (j : Nat) : Option Bytes := (T[j]?).map Node.raw

/-- A header has the same ancestors in any two trees that hold it. -/
theorem paths_eq {T T' : Tree} (hI : Inv S s T) (hI' : Inv S s' T') (hH : s'.H = s.H)
    (hcp : s'.checkpoint = s.checkpoint) (n : Nat) :
    ∀ (i j : Nat) (N N' : Node), T[i]? = some N → T'[j]? = some N' → N.raw = N'.raw →
      N.path.length ≤ n → N.path.map (rawAt T) = N'.path.map (rawAt T') := by
  induction n with
  | zero =>
    intro i j N N' hN hN' _ hl
    have := (hI.good.node i N hN).pos
    omega
  | succ n ih =>
    intro i j N N' hN hN' hraw hl
    by_cases hi : i = 0
    · subst hi
      have hr := hI.good.root_node
      rw [hN] at hr; cases hr
      have hr' := hI'.good.root_node
      have : j = 0 := hI'.good.raw_inj _ _ _ _ hN' hr' (by simp only [hcp]; exact hraw.symm)
      subst this
      rw [hN'] at hr'; cases hr'
      simp [rawAt, hN, hN', hcp]
    · have hj : j ≠ 0 := by
        rintro rfl
        have hr' := hI'.good.root_node
        rw [hN'] at hr'; cases hr'
        exact hi (hI.good.raw_inj _ _ _ _ hN hI.good.root_node (by rw [hraw]; simp only [hcp]))
      obtain ⟨p, P, hp, h1, h2⟩ := hI.good.parent i N hN hi
      obtain ⟨p', P', hp', h1', h2'⟩ := hI'.good.parent j N' hN' hj
      have hP : P.raw = P'.raw := by
        apply hI.env.inj _ _ (hI.toDesc.valid hp).mem (hI'.toDesc.valid hp').mem
        rw [← h2, hraw, h2', hH]
      have hlen : P.path.length ≤ n := by
        rw [h1, List.length_append, List.length_singleton] at hl; omega
      have := ih p p' P P' hp hp' hP hlen
      rw [h1, h1', List.map_append, List.map_append, this]
      simp [rawAt, hN, hN', hraw]

theorem path_length_eq {T T' : Tree} (hI : Inv S s T) (hI' : Inv S s' T') (hH : s'.H = s.H)
    (hcp : s'.checkpoint = s.checkpoint) {i j : Nat} {N N' : Node} (hN : T[i]? = some N)
    (hN' : T'[j]? = some N') (hraw : N.raw = N'.raw) : N.path.length = N'.path.length := by
  have := congrArg List.length (paths_eq hI hI' hH hcp _ i j N N' hN hN' hraw (le_refl _))
  simpa using this

theorem height_same {T T' : Tree} (hI : Inv S s T) (hI' : Inv S s' T') (hH : s'.H = s.H)
    (hcp : s'.checkpoint = s.checkpoint) {i j : Nat} {N N' : Node} (hN : T[i]? = some N)
    (hN' : T'[j]? = some N') (hraw : N.raw = N'.raw) :
    nodeHeight s'.checkpoint N' = nodeHeight s.checkpoint N := by
  rw [nodeHeight, nodeHeight, hcp, path_length_eq hI hI' hH hcp hN hN' hraw]

theorem nodeWork_rawAt (T : Tree) (j : Nat) : nodeWork T j = match rawAt T j with
    | some r => workOf r
    | none => 0 := by
  unfold nodeWork rawAt
  cases T[j]? <;> rfl

theorem totalWork_same {T T' : Tree} {p p' : List Nat} (h : p.map (rawAt T) = p'.map (rawAt T')) :
    totalWork T p = totalWork T' p' := by
  have : ∀ (T : Tree) (p : List Nat), totalWork T p = ((p.map (rawAt T)).map (fun o => match o with
      | some r => workOf r
      | none => 0)).sum := by
    intro T p
    rw [totalWork, List.map_map]
    congr 2
    funext j
    exact nodeWork_rawAt T j
  rw [this, this, h]

/-- The chains of a header in two states agree on its ancestors. -/
theorem raw_same {T T' : Tree} (hI : Inv S s T) (hI' : Inv S s' T') (hH : s'.H = s.H)
    (hcp : s'.checkpoint = s.checkpoint) {i j : Nat} {N N' : Node} (hN : T[i]? = some N)
    (hN' : T'[j]? = some N') (hraw : N.raw = N'.raw) (k : Nat) (hk : k < N.path.length) :
    s.raw_header_at_height N.chain ((s.checkpoint.height + k : Nat) : Int) =
      s'.raw_header_at_height N'.chain ((s.checkpoint.height + k : Nat) : Int) := by
  have aux : ∀ {s : Headers} {T : Tree} {i : Nat} {N : Node}, Inv S s T → T[i]? = some N →
      ∀ k, k < N.path.length → ∃ M : Node, (N.path.map (rawAt T))[k]? = some (some M.raw) ∧
        s.raw_header_at_height N.chain ((s.checkpoint.height + k : Nat) : Int) = .ok M.raw := by
    intro s T i N hI hN k hk
    obtain ⟨ch, hch⟩ := hI.toDesc.chain_exists hN
    obtain ⟨t, M, base, own, hci⟩ := hI.toDesc.chain_at hch
    obtain ⟨hpre, _⟩ := hI.good.prefix_tip hci hN rfl
    have hj := List.getElem?_eq_getElem hk
    obtain ⟨Q, hQ, _⟩ := hI.good.path i N k _ hN hj
    refine ⟨Q, ?_, ?_⟩
    · rw [List.getElem?_map, hj]; simp [rawAt, hQ]
    · refine hI.toDesc.raw_at hch hci (i := N.path[k]) ?_ hQ
      have := congrArg (·[k]?) hpre
      simp only [List.getElem?_take, hk, if_true] at this
      rw [← this, hj]
  have hl := path_length_eq hI hI' hH hcp hN hN' hraw
  have hp := paths_eq hI hI' hH hcp _ i j N N' hN hN' hraw (le_refl _)
  obtain ⟨M, h1, h2⟩ := aux hI hN k hk
  obtain ⟨M', h1', h2'⟩ := aux hI' hN' k (by omega)
  rw [hp, h1'] at h1
  simp only [Option.some.injEq] at h1
  rw [h2, ← hcp, h2', h1]

theorem hasChild_iff {T : Tree} (hI : Inv S s T) {i : Nat} {N : Node} (hN : T[i]? = some N) :
    HasChild T N ↔ ∃ (q : Nat) (Q : Node), T[q]? = some Q ∧ header_prev_hash Q.raw = header_hash s.H N.raw := by
  constructor
  · rintro ⟨q, Q, hQ, hpath⟩
    have hq : q ≠ 0 := by
      rintro rfl
      have hr := hI.good.root_node
      rw [hQ] at hr; cases hr
      have := congrArg List.length hpath
      have hp := (hI.good.node i N hN).pos
      simp at this; simp [this] at hp
    obtain ⟨p, P, hp, h1, h2⟩ := hI.good.parent q Q hQ hq
    have hPN : P.path = N.path := by
      rw [h1] at hpath
      exact List.append_cancel_right hpath
    have e1 := (hI.good.node p P hp).last
    have e2 := (hI.good.node i N hN).last
    rw [hPN, e2] at e1
    cases e1
    rw [hN] at hp; cases hp
    exact ⟨q, Q, hQ, h2⟩
  · rintro ⟨q, Q, hQ, hprev⟩
    have hq := hI.not_root hQ hN hprev
    obtain ⟨p, P, hp, h1, h2⟩ := hI.good.parent q Q hQ hq
    have hraw := hI.env.inj _ _ (hI.toDesc.valid hp).mem (hI.toDesc.valid hN).mem (by rw [← h2, hprev])
    have := hI.good.raw_inj _ _ _ _ hp hN hraw
    subst this
    rw [hN] at hp; cases hp
    exact ⟨q, Q, hQ, h1⟩

/-! ## C87 -/

/-- Any two collections that have accepted a header report it at the same height, with the same
ancestors down to the checkpoint, whatever else they have accepted and in which order. -/
theorem C87_headers (he : Env H cp S) (hr : Reachable H coin cp S s A)
    (hr' : Reachable H coin cp S s' A') (raw : Bytes) (hx : raw ∈ A) (hx' : raw ∈ A') :
    ∃ hd c c', s.lookup (header_hash H raw) = .ok (hd, c) ∧ s'.lookup (header_hash H raw) = .ok (hd, c') ∧
      hd.raw = raw ∧
      ∀ k : Int, cp.height ≤ k → k ≤ hd.height →
        s.raw_header_at_height c k = s'.raw_header_at_height c' k := by
  obtain ⟨T, hI, rfl, rfl, rfl, hA⟩ := reachable_inv he hr
  obtain ⟨T', hI', hH, _, hcp, hA'⟩ := reachable_inv he hr'
  obtain ⟨i, N, hN, rfl⟩ := (hA raw).1 hx
  obtain ⟨j, N', hN', hraw⟩ := (hA' N.raw).1 hx'
  have hf := mkHeader_fields (H := s.H) (nodeHeight s.checkpoint N) (hI.toDesc.valid hN).length
  have hpos := (hI.good.node i N hN).pos
  refine ⟨_, N.chain, N'.chain, hI.toDesc.lookup_found hI.env.inj hN, ?_, hf.1, ?_⟩
  · have := hI'.toDesc.lookup_found hI'.env.inj hN'
    rwa [hH, hraw, height_same hI hI' hH hcp hN hN' hraw.symm] at this
  · intro k h1 h2
    rw [hf.2.1, nodeHeight] at h2
    obtain ⟨m, rfl⟩ : ∃ m : Nat, k = ((s.checkpoint.height + m : Nat) : Int) :=
      ⟨(k - s.checkpoint.height).toNat, by omega⟩
    exact raw_same hI hI' hH hcp hN hN' hraw.symm m (by omega)

theorem chain_matched (he : Env H cp S) (hr : Reachable H coin cp S s A)
    (hr' : Reachable H coin cp S s' A') (hsame : ∀ x, x ∈ A ↔ x ∈ A') :
    ∀ ch ∈ s.chains, ∃ ch' ∈ s'.chains, (ch'.tip, ch'.work, ch'.height) = (ch.tip, ch.work, ch.height) := by
  obtain ⟨T, hI, rfl, rfl, rfl, hA⟩ := reachable_inv he hr
  obtain ⟨T', hI', hH, _, hcp, hA'⟩ := reachable_inv he hr'
  intro ch hmem
  obtain ⟨c, hc⟩ := List.mem_iff_getElem?.1 hmem
  obtain ⟨t, N, base, own, hci⟩ := hI.toDesc.chain_at hc
  obtain ⟨j, N', hN', hraw⟩ := (hA' N.raw).1 ((hsame _).1 ((hA _).2 ⟨t, N, hci.node, rfl⟩))
  have hleaf : ¬ HasChild T' N' := by
    rw [hasChild_iff hI' hN']
    rintro ⟨q, Q, hQ, hprev⟩
    apply hci.leaf
    rw [hasChild_iff hI hci.node]
    obtain ⟨q', Q', hQ', hraw'⟩ := (hA Q.raw).1 ((hsame _).2 ((hA' _).2 ⟨q, Q, hQ, rfl⟩))
    exact ⟨q', Q', hQ', by rw [hraw', hprev, hH, hraw]⟩
  obtain ⟨ch', hch'⟩ := hI'.toDesc.chain_exists hN'
  obtain ⟨t', M, base', own', hci'⟩ := hI'.toDesc.chain_at hch'
  have := hI'.good.leaf_is_tip hci' hN' rfl hleaf
  subst this
  have hM := hci'.node
  rw [hN'] at hM; cases hM
  refine ⟨ch', List.mem_of_getElem? hch', ?_⟩
  have hh := height_same hI hI' hH hcp hci.node hN' hraw.symm
  rw [hci'.tip, hci.tip, hci'.work, hci.work, (hI'.toDesc.height_eq hci').1, (hI.toDesc.height_eq hci).1,
    hh, hraw, hH, hcp, totalWork_same (paths_eq hI hI' hH hcp _ t j N N' hci.node hN' hraw.symm (le_refl _))]

theorem chain_nodup (he : Env H cp S) (hr : Reachable H coin cp S s A) :
    (s.chains.map (fun ch => (ch.tip, ch.work, ch.height))).Nodup := by
  obtain ⟨T, hI, rfl, rfl, rfl, hA⟩ := reachable_inv he hr
  rw [List.Nodup, List.pairwise_iff_getElem]
  intro a b ha hb hab heq
  rw [List.length_map] at ha hb
  rw [List.getElem_map, List.getElem_map] at heq
  obtain ⟨t, N, base, own, hci⟩ := hI.toDesc.chain_at (List.getElem?_eq_getElem ha)
  obtain ⟨t', N', base', own', hci'⟩ := hI.toDesc.chain_at (List.getElem?_eq_getElem hb)
  simp only [Prod.mk.injEq] at heq
  have htip := heq.1
  rw [hci.tip, hci'.tip] at htip
  have hraw : N.raw = N'.raw := by
    have := congrArg Header.raw htip
    rwa [(mkHeader_fields _ (hI.toDesc.valid hci.node).length).1,
      (mkHeader_fields _ (hI.toDesc.valid hci'.node).length).1] at this
  have := hI.good.raw_inj _ _ _ _ hci.node hci'.node hraw
  subst this
  have hn := hci.node
  rw [hci'.node] at hn; cases hn
  have := hci.chain.symm.trans hci'.chain
  omega

/-- Two collections that have accepted the same headers have the same chains up to their order: the
same tips, with the same work and height; so the same number of chains and the same number of headers,
and their longest chains have the same work. -/
theorem C87_chains (he : Env H cp S) (hr : Reachable H coin cp S s A)
    (hr' : Reachable H coin cp S s' A') (hsame : ∀ x, x ∈ A ↔ x ∈ A') :
    (s.chains.map (fun ch => (ch.tip, ch.work, ch.height))).Perm
      (s'.chains.map (fun ch => (ch.tip, ch.work, ch.height))) ∧
    s.len = s'.len ∧
    ∃ m m' x x', s.longest_chain = .ok m ∧ s'.longest_chain = .ok m' ∧ s.chains[m]? = some x ∧
      s'.chains[m']? = some x' ∧ x.work = x'.work := by
  have hperm : (s.chains.map (fun ch => (ch.tip, ch.work, ch.height))).Perm
      (s'.chains.map (fun ch => (ch.tip, ch.work, ch.height))) := by
    rw [List.perm_ext_iff_of_nodup (chain_nodup he hr) (chain_nodup he hr')]
    intro x
    simp only [List.mem_map]
    constructor
    · rintro ⟨ch, hm, rfl⟩
      exact chain_matched he hr hr' hsame ch hm
    · rintro ⟨ch, hm, rfl⟩
      exact chain_matched he hr' hr (fun x => (hsame x).symm) ch hm
  refine ⟨hperm, ?_, ?_⟩
  · obtain ⟨T, hI, rfl, rfl, rfl, hA⟩ := reachable_inv he hr
    obtain ⟨T', hI', hH, _, hcp, hA'⟩ := reachable_inv he hr'
    have nd : ∀ {s : Headers} {T : Tree}, Inv S s T → (T.map Node.raw).Nodup := by
      intro s T hI
      rw [List.Nodup, List.pairwise_iff_getElem]
      intro a b ha hb hab heq
      rw [List.length_map] at ha hb
      rw [List.getElem_map, List.getElem_map] at heq
      have := hI.good.raw_inj _ _ _ _ (List.getElem?_eq_getElem ha) (List.getElem?_eq_getElem hb) heq
      omega
    have hp : (T.map Node.raw).Perm (T'.map Node.raw) := by
      rw [List.perm_ext_iff_of_nodup (nd hI) (nd hI')]
      intro x
      have e : ∀ {T : Tree}, x ∈ T.map Node.raw ↔ ∃ (i : Nat) (N : Node), T[i]? = some N ∧ N.raw = x := by
        intro T
        rw [List.mem_map]
        simp only [List.mem_iff_getElem? (l := T)]
        constructor
        · rintro ⟨N, ⟨i, hi⟩, h⟩; exact ⟨i, N, hi, h⟩
        · rintro ⟨i, N, hi, h⟩; exact ⟨N, ⟨i, hi⟩, h⟩
      rw [e, e, ← hA, ← hA', hsame]
    have := hp.length_eq
    rw [List.length_map, List.length_map] at this
    rw [hI.len, hI'.len, hcp, this]
  · obtain ⟨m, x, a1, a2, a3, _⟩ := C32_longest s (C32_reachable he hr)
    obtain ⟨m', x', b1, b2, b3, _⟩ := C32_longest s' (C32_reachable he hr')
    refine ⟨m, m', x, x', a1, b1, a2, b2, ?_⟩
    obtain ⟨y, hy, hxy⟩ := chain_matched he hr hr' hsame x (List.mem_of_getElem? a2)
    obtain ⟨y', hy', hxy'⟩ := chain_matched he hr' hr (fun x => (hsame x).symm) x' (List.mem_of_getElem? b2)
    obtain ⟨k, hk⟩ := List.mem_iff_getElem?.1 hy
    obtain ⟨k', hk'⟩ := List.mem_iff_getElem?.1 hy'
    have h1 := b3 k y hk
    have h2 := a3 k' y' hk'
    simp only [Prod.mk.injEq] at hxy hxy'
    rw [hxy.2.1] at h1
    rw [hxy'.2.1] at h2
    omega

/-- Two collections in which a header is known to the same extent (it or its predecessor is accepted
in both or in neither) and which agree below the checkpoint give the same answer when it is connected:
the same exception, or the same header. -/
theorem C87_connect (he : Env H cp S) (hr : Reachable H coin cp S s A)
    (hr' : Reachable H coin cp S s' A') (hroom : Room s) (hroom' : Room s')
    (hbelow : ∀ i : Nat, i < cp.height → s.storage.get i = s'.storage.get i)
    (raw : Bytes) (hS : S raw) (hknown : raw ∈ A ↔ raw ∈ A')
    (hprev : (∃ y ∈ A, header_hash H y = header_prev_hash raw) ↔
      ∃ y ∈ A', header_hash H y = header_prev_hash raw) :
    (s.connect raw).2.map Prod.fst = (s'.connect raw).2.map Prod.fst := by
  by_cases hl : raw.length = 80
  swap
  · rw [C26_malformed s raw hl, C26_malformed s' raw hl]
  by_cases hpar : ∃ y ∈ A, header_hash H y = header_prev_hash raw
  swap
  · rw [C26_missing he hr raw hl (fun x hx h => hpar ⟨x, hx, h⟩),
      C26_missing he hr' raw hl (fun x hx h => hpar (hprev.2 ⟨x, hx, h⟩))]
  by_cases hcpr : raw = cp.raw_header
  · rw [hcpr, (C28_checkpoint he hr).1, (C28_checkpoint he hr').1]
  by_cases hin : raw ∈ A
  · obtain ⟨r, h1, h2⟩ := C28_idempotent he hr raw hin hcpr
    obtain ⟨r', h1', h2'⟩ := C28_idempotent he hr' raw (hknown.1 hin) hcpr
    obtain ⟨hd, c, c', e1, e2, _⟩ := C87_headers he hr hr' raw hin (hknown.1 hin)
    rw [h2] at e1; cases e1
    rw [h2'] at e2; cases e2
    rw [h1, h1']; rfl
  have hin' : raw ∉ A' := fun h => hin (hknown.2 h)
  obtain ⟨y, hy, hyp⟩ := hpar
  obtain ⟨y', hy', hyp'⟩ := hprev.1 ⟨y, hy, hyp⟩
  have hmem : S y ∧ S y' := by
    obtain ⟨T, hI, rfl, rfl, rfl, hA⟩ := reachable_inv he hr
    obtain ⟨T', hI', hH, _, hcp, hA'⟩ := reachable_inv he hr'
    obtain ⟨i, N, hN, rfl⟩ := (hA y).1 hy
    obtain ⟨j, N', hN', rfl⟩ := (hA' y').1 hy'
    exact ⟨(hI.toDesc.valid hN).mem, (hI'.toDesc.valid hN').mem⟩
  have : y = y' := he.inj _ _ hmem.1 hmem.2 (by rw [hyp, hyp'])
  subst this
  obtain ⟨prev, pc, pc', l1, l2, _, hpath⟩ := C87_headers he hr hr' y hy hy'
  rw [hyp] at l1 l2
  obtain ⟨hd, v, d1, hv, t, r, c1, c2⟩ := C26_rules he hr hroom raw hS hl hin prev pc l1
  obtain ⟨hd', v', d1', hv', t', r', c1', c2'⟩ := C26_rules he hr' hroom' raw hS hl hin' prev pc' l2
  rw [d1] at d1'; cases d1'
  have hheight := (deserialized_header_fields d1).2.2.1
  have hbits : s.required_bits pc hd.height hd.timestamp = s'.required_bits pc' hd.height hd.timestamp := by
    obtain ⟨hd1, ch1, chn1, f1, _, f3, f4, f5, _⟩ := C23_lookup he hr y hy
    obtain ⟨hd2, ch2, chn2, g1, _, g3, g4, g5, _⟩ := C23_lookup he hr' y hy'
    rw [hyp, l1] at f1; cases f1
    rw [hyp, l2] at g1; cases g1
    have hbel1 := C24_below he hr pc chn1 f3
    have hbel2 := C24_below he hr' pc' chn2 g3
    have hneg1 := fun h hh => (C24_outside he hr pc chn1 f3 h (.inl hh)).2
    have hneg2 := fun h hh => (C24_outside he hr' pc' chn2 g3 h (.inl hh)).2
    obtain ⟨T, hI, rfl, rfl, rfl, hA⟩ := reachable_inv he hr
    obtain ⟨T', hI', hH, hcoin, hcp, hA'⟩ := reachable_inv he hr'
    refine C19_collections s s' pc pc' _ _ hcoin.symm hH.symm ?_
    intro k hk
    by_cases hk0 : k < 0
    · rw [hneg1 k hk0, hneg2 k hk0]
    · by_cases hk1 : k < s.checkpoint.height
      · obtain ⟨m, rfl⟩ : ∃ m : Nat, k = m := ⟨k.toNat, by omega⟩
        rw [hbel1 m (by omega), hbel2 m (by omega), hbelow m (by omega)]
      · exact hpath k (by omega) (by omega)
  rw [c1, c1']
  cases hv with
  | noBits e a =>
    cases hv' with
    | noBits e' b => rw [hbits, b] at a; cases a; simp only at c2 c2' ⊢; rw [c2.1, c2'.1]
    | wrongBits b' b _ => rw [hbits, b] at a; cases a
    | badTarget e' b _ => rw [hbits, b] at a; cases a
    | noPoW t b _ _ => rw [hbits, b] at a; cases a
    | accept t b _ _ => rw [hbits, b] at a; cases a
  | wrongBits b0 a n =>
    cases hv' with
    | noBits e' b => rw [hbits, b] at a; cases a
    | wrongBits b' b _ => simp only at c2 c2' ⊢; rw [c2.1, c2'.1]
    | badTarget e' b _ => rw [hbits, b] at a; cases a; exact absurd rfl n
    | noPoW t b _ _ => rw [hbits, b] at a; cases a; exact absurd rfl n
    | accept t b _ _ => rw [hbits, b] at a; cases a; exact absurd rfl n
  | badTarget e a n =>
    cases hv' with
    | noBits e' b => rw [hbits, b] at a; cases a
    | wrongBits b' b m => rw [hbits, b] at a; cases a; exact absurd rfl m
    | badTarget e' b m => rw [n] at m; cases m; simp only at c2 c2' ⊢; rw [c2.1, c2'.1]
    | noPoW t b m _ => rw [n] at m; cases m
    | accept t b m _ => rw [n] at m; cases m
  | noPoW t0 a n o =>
    cases hv' with
    | noBits e' b => rw [hbits, b] at a; cases a
    | wrongBits b' b m => rw [hbits, b] at a; cases a; exact absurd rfl m
    | badTarget e' b m => rw [n] at m; cases m
    | noPoW t b m _ => simp only at c2 c2' ⊢; rw [c2.1, c2'.1]
    | accept t b m q => rw [n] at m; cases m; omega
  | accept t0 a n o =>
    cases hv' with
    | noBits e' b => rw [hbits, b] at a; cases a
    | wrongBits b' b m => rw [hbits, b] at a; cases a; exact absurd rfl m
    | badTarget e' b m => rw [n] at m; cases m
    | noPoW t b m q => rw [n] at m; cases m; omega
    | accept t b m q =>
      simp only at c2 c2' ⊢
      obtain ⟨c, rfl⟩ := c2
      obtain ⟨c', rfl⟩ := c2'
      rfl

theorem roomFor_succ {n : Nat} (h : RoomFor s (n + 1)) : Room s :=
  ⟨by have := h.1; omega, fun k hk => by have := h.2 k hk; push_cast at this; omega⟩

/-- One accepted header takes at most one place, and does not change the headers below the checkpoint. -/
theorem connect_step (he : Env H cp S) (hr : Reachable H coin cp S s A) {raw : Bytes} (hS : S raw) {n : Nat}
    (hroom : RoomFor s (n + 1)) {r : Header × Nat} (hc : s.connect raw = (s', .ok r)) :
    Reachable H coin cp S s' (A ++ [raw]) ∧ RoomFor s' n ∧
      ∀ i : Nat, i < cp.height → s'.storage.get i = s.storage.get i := by
  have hrm := roomFor_succ hroom
  refine ⟨.accept hr hS hrm hc, ?_⟩
  obtain ⟨T, hI, rfl, rfl, rfl, hA⟩ := reachable_inv he hr
  obtain ⟨T', hcon, hI'⟩ := hI.connected hS hrm hc
  cases hcon with
  | existing i M hM hi hraw e1 _ =>
    subst e1
    exact ⟨⟨by have := hroom.1; omega, fun k hk => by have := hroom.2 k hk; push_cast at this; omega⟩, fun _ _ => rfl⟩
  | accepted p P c hl hp hprev hnew' hck e1 e2 e3 hadd _ hget hT =>
    subst hT
    refine ⟨⟨?_, ?_⟩, fun i hi => hget i (by omega)⟩
    · have := hroom.1
      cases hadd with
      | extended ch' hnc hcc hch' hs' => rw [hs', List.length_set]; omega
      | forked hhc hcc hs' => rw [hs', List.length_append, List.length_singleton]; omega
    · intro k hk
      rw [hI'.len, e3] at hk
      have := hroom.2 _ hI.len
      cases hk
      rw [List.length_append, List.length_singleton]
      push_cast at this ⊢
      omega

theorem accepts_reachable (he : Env H cp S) {L : List Bytes} (hacc : Accepts s L s') :
    ∀ {A : List Bytes}, Reachable H coin cp S s A → (∀ x ∈ L, S x) → RoomFor s L.length →
      Reachable H coin cp S s' (A ++ L) := by
  induction hacc with
  | nil => intro A hr _ _; simpa using hr
  | cons hc _ ih =>
    intro A hr hS hroom
    rw [List.length_cons] at hroom
    obtain ⟨h1, h2, _⟩ := connect_step he hr (hS _ (by simp)) hroom hc
    have := ih h1 (fun x hx => hS x (by simp [hx])) h2
    simpa using this

/-- The moment at which a header of an accepted sequence was accepted for the first time. -/
theorem accepts_witness (he : Env H cp S) {L : List Bytes} (hacc : Accepts s L s') :
    ∀ {A : List Bytes}, Reachable H coin cp S s A → (∀ x ∈ L, S x) → RoomFor s L.length → ∀ x ∈ L,
      (x ≠ cp.raw_header) ∧ (x ∈ A ∨ ∃ t At r, Reachable H coin cp S t At ∧ Room t ∧ x ∉ At ∧
        (t.connect x).2 = .ok r ∧ ∀ i : Nat, i < cp.height → t.storage.get i = s.storage.get i) := by
  induction hacc with
  | nil => intro A _ _ _ x hx; simp at hx
  | @cons s0 s1 s2 raw r rest hc _ ih =>
    intro A hr hS hroom x hx
    rw [List.length_cons] at hroom
    obtain ⟨h1, h2, h3⟩ := connect_step he hr (hS _ (by simp)) hroom hc
    have hraw : raw ≠ cp.raw_header ∧ (raw ∈ A ∨ ∃ t At r, Reachable H coin cp S t At ∧ Room t ∧ raw ∉ At ∧
        (t.connect raw).2 = .ok r ∧ ∀ i : Nat, i < cp.height → t.storage.get i = s0.storage.get i) := by
      refine ⟨?_, ?_⟩
      · rintro rfl
        rw [(C28_checkpoint he hr).1] at hc; cases hc
      · by_cases hin : raw ∈ A
        · exact .inl hin
        · exact .inr ⟨s0, A, r, hr, roomFor_succ hroom, hin, by rw [hc], fun _ _ => rfl⟩
    rcases List.mem_cons.1 hx with rfl | hx
    · exact hraw
    · obtain ⟨g1, g2⟩ := ih h1 (fun x hx => hS x (by simp [hx])) h2 x hx
      refine ⟨g1, ?_⟩
      rcases g2 with g2 | ⟨t, At, r', a1, a2, a3, a4, a5⟩
      · rcases List.mem_append.1 g2 with g2 | g2
        · exact .inl g2
        · simp only [List.mem_singleton] at g2
          subst g2
          exact hraw.2
      · exact .inr ⟨t, At, r', a1, a2, a3, a4, fun i hi => by rw [a5 i hi, h3 i hi]⟩

theorem accepts_from (he : Env H cp S) {s0 : Headers} {A0 : List Bytes} {L : List Bytes}
    (hw : ∀ x ∈ L, x ≠ cp.raw_header ∧ (x ∈ A0 ∨ ∃ t At r, Reachable H coin cp S t At ∧ Room t ∧ x ∉ At ∧
        (t.connect x).2 = .ok r ∧ ∀ i : Nat, i < cp.height → t.storage.get i = s0.storage.get i)) :
    ∀ (L2 : List Bytes) {s : Headers} {A : List Bytes}, Reachable H coin cp S s A → (∀ x ∈ L2, S x ∧ x ∈ L) →
      RoomFor s L2.length → (∀ x ∈ A0, x ∈ A) →
      (∀ i : Nat, i < cp.height → s.storage.get i = s0.storage.get i) → ParentsFirst H A L2 →
      ∃ s', Accepts s L2 s' := by
  intro L2
  induction L2 with
  | nil => intro s A _ _ _ _ _ _; exact ⟨s, .nil⟩
  | cons x rest ih =>
    intro s A hr hS hroom hA0 hbelow hpf
    rw [List.length_cons] at hroom
    have hrm := roomFor_succ hroom
    obtain ⟨hSx, hxL⟩ := hS x (by simp)
    obtain ⟨hne, hx⟩ := hw x hxL
    have hok : ∃ s1 r, s.connect x = (s1, .ok r) := by
      by_cases hin : x ∈ A
      · obtain ⟨r, h1, _⟩ := C28_idempotent he hr x hin hne
        exact ⟨s, r, h1⟩
      · rcases hx with hx | ⟨t, At, r, a1, a2, a3, a4, a5⟩
        · exact absurd (hA0 x hx) hin
        · have hl : x.length = 80 := by
            by_contra hl
            rw [C26_malformed t x hl] at a4; cases a4
          have hp : ∃ y ∈ A, header_hash H y = header_prev_hash x := by
            obtain ⟨y, hy, h⟩ := hpf [] x rest rfl
            exact ⟨y, by simpa using hy, h⟩
          have hp' : ∃ y ∈ At, header_hash H y = header_prev_hash x := by
            by_contra hcon
            rw [C26_missing he a1 x hl (fun y hy h => hcon ⟨y, hy, h⟩)] at a4; cases a4
          have := C87_connect he hr a1 hrm a2 (fun i hi => by rw [hbelow i hi, a5 i hi]) x hSx
            ⟨fun h => absurd h hin, fun h => absurd h a3⟩ ⟨fun _ => hp', fun _ => hp⟩
          rw [a4] at this
          rcases hcx : s.connect x with ⟨s1, rr⟩
          rw [hcx] at this
          cases rr with
          | error e => cases this
          | ok r => exact ⟨s1, r, rfl⟩
    obtain ⟨s1, r, hc⟩ := hok
    obtain ⟨h1, h2, h3⟩ := connect_step he hr hSx hroom hc
    obtain ⟨s', hs'⟩ := ih h1 (fun y hy => hS y (by simp [hy])) h2 (fun y hy => by simp [hA0 y hy])
      (fun i hi => by rw [h3 i hi, hbelow i hi]) (by
        intro u y v he
        obtain ⟨z, hz, h⟩ := hpf (x :: u) y v (by rw [he]; rfl)
        exact ⟨z, by simpa using hz, h⟩)
    exact ⟨s', .cons hc hs'⟩

/-- If a sequence of headers is accepted, then so is every other sequence of the same headers in which
predecessors come first, and the outcome is the same: the chains up to their order, the number of
headers and the work of the longest chain. -/
theorem C87_any_order (he : Env H cp S) (hr : Reachable H coin cp S s A) (L L2 : List Bytes) {s1 : Headers}
    (hacc : Accepts s L s1) (hS : ∀ x ∈ L, S x) (hroom : RoomFor s L.length) (hperm : L2.Perm L)
    (hpf : ParentsFirst H A L2) :
    ∃ s2, Accepts s L2 s2 ∧
      (s1.chains.map (fun ch => (ch.tip, ch.work, ch.height))).Perm
        (s2.chains.map (fun ch => (ch.tip, ch.work, ch.height))) ∧
      s1.len = s2.len ∧
      ∃ m m' x x', s1.longest_chain = .ok m ∧ s2.longest_chain = .ok m' ∧ s1.chains[m]? = some x ∧
        s2.chains[m']? = some x' ∧ x.work = x'.work := by
  have hS2 : ∀ x ∈ L2, S x ∧ x ∈ L := fun x hx => ⟨hS x (hperm.mem_iff.1 hx), hperm.mem_iff.1 hx⟩
  have hroom2 : RoomFor s L2.length := by rw [hperm.length_eq]; exact hroom
  obtain ⟨s2, hacc2⟩ := accepts_from he (accepts_witness he hacc hr hS hroom) L2 hr hS2 hroom2
    (fun _ h => h) (fun _ _ => rfl) hpf
  have r1 := accepts_reachable he hacc hr hS hroom
  have r2 := accepts_reachable he hacc2 hr (fun x hx => (hS2 x hx).1) hroom2
  exact ⟨s2, hacc2, C87_chains he r1 r2 (fun x => by simp [hperm.mem_iff])⟩

end Bitcoinx
