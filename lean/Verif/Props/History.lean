import Verif.Props.Order
import Verif.Spec.History

/-! # C97-C99: what happens to a collection of headers over time -/

namespace Bitcoinx
open Spec

variable {H : Hashes} {coin : Coin} {cp : CheckPoint} {S : Bytes → Prop} {s s' : Headers} {A : List Bytes}

/-- The chains of the first state are chains of the second, with the same beginning. -/
def SameStarts (s s' : Headers) : Prop :=
  ∀ (c : Nat) (ch : Chain), s.chains[c]? = some ch →
    ∃ ch' : Chain, s'.chains[c]? = some ch' ∧ ch'.parent = ch.parent ∧ ch'.first_height = ch.first_height

theorem SameStarts.refl (s : Headers) : SameStarts s s := fun _ ch h => ⟨ch, h, rfl, rfl⟩

theorem SameStarts.trans {s1 s2 s3 : Headers} (h1 : SameStarts s1 s2) (h2 : SameStarts s2 s3) :
    SameStarts s1 s3 := by
  intro c ch h
  obtain ⟨ch2, a1, a2, a3⟩ := h1 c ch h
  obtain ⟨ch3, b1, b2, b3⟩ := h2 c ch2 a1
  exact ⟨ch3, b1, b2.trans a2, b3.trans a3⟩

theorem SameStarts.of_eq {s s' : Headers} (h : s'.chains = s.chains) : SameStarts s s' :=
  fun _ ch hc => ⟨ch, by rw [h]; exact hc, rfl, rfl⟩

theorem Added.sameStarts {T : Tree} {P : Node} {raw : Bytes} {c : Nat} (h : Added s T P raw s' c) :
    SameStarts s s' := by
  cases h with
  | extended ch hnc hcc hch hs' =>
    intro c' ch' hc'
    rw [hs']
    by_cases he : P.chain = c'
    · subst he
      rw [hch] at hc'; cases hc'
      exact ⟨_, List.getElem?_set_self (getElem?_lt hch), rfl, rfl⟩
    · exact ⟨ch', by rw [List.getElem?_set_ne he]; exact hc', rfl, rfl⟩
  | forked hhc hcc hs' =>
    intro c' ch' hc'
    exact ⟨ch', by rw [hs', List.getElem?_append_left (getElem?_lt hc')]; exact hc', rfl, rfl⟩

/-- The tree only grows. -/
theorem later_tree {T : Tree} (hI : Inv S s T) (h : Later s.H s.coin s.checkpoint S s s') :
    ∃ T', Inv S s' (T ++ T') ∧ s'.H = s.H ∧ s'.coin = s.coin ∧ s'.checkpoint = s.checkpoint ∧
      SameStarts s s' := by
  induction h with
  | now => exact ⟨[], by simpa using hI, rfl, rfl, rfl, .refl _⟩
  | @connect s1 s2 raw r _ hS hr hc ih =>
    obtain ⟨T', h1, h2, h3, h4, h5⟩ := ih
    obtain ⟨T2, hcon, hI2⟩ := h1.connected hS hr hc
    cases hcon with
    | accepted p P c hl hp hprev hnew hck e1 e2 e3 hadd _ _ hT =>
      subst hT
      rw [List.append_assoc] at hI2
      exact ⟨_, hI2, by rw [e1, h2], by rw [e2, h3], by rw [e3, h4], h5.trans hadd.sameStarts⟩
    | malformed _ e _ => subst e; exact ⟨T', h1, h2, h3, h4, h5⟩
    | missing _ _ e _ => subst e; exact ⟨T', h1, h2, h3, h4, h5⟩
    | existing _ _ _ _ _ e _ => subst e; exact ⟨T', h1, h2, h3, h4, h5⟩
    | rejected _ _ _ _ _ _ _ _ e _ => subst e; exact ⟨T', h1, h2, h3, h4, h5⟩
  | @set_one s1 s2 height raw r _ hh hs ih =>
    obtain ⟨T', h1, h2, h3, h4, h5⟩ := ih
    have := h1.set_one height raw (by rw [h4]; exact hh)
    rw [hs] at this
    obtain ⟨a1, a2, a3, a4, a5⟩ := this
    exact ⟨T', a1, by rw [a3, h2], by rw [a4, h3], by rw [a5, h4], h5.trans (.of_eq a2)⟩
  | @reopen s1 s2 f _ hf ih =>
    obtain ⟨T', h1, h2, h3, h4, h5⟩ := ih
    obtain ⟨s3, a1, a2, a3, a4, a5, a6, a7⟩ := h1.reopen s.coin
    rw [h2, h4] at a1
    rw [a1] at hf
    cases hf
    exact ⟨T', a2, by rw [a5, h2], a6, by rw [a7, h4], h5.trans (.of_eq a3)⟩

theorem later_reachable (hr : Reachable H coin cp S s A) (h : Later H coin cp S s s') :
    ∃ L, Reachable H coin cp S s' (A ++ L) := by
  induction h with
  | now => exact ⟨[], by simpa using hr⟩
  | @connect s1 s2 raw r _ hS hroom hc ih =>
    obtain ⟨L, hL⟩ := ih
    cases r with
    | error e => exact ⟨L, .reject hL hS hroom hc⟩
    | ok x => exact ⟨L ++ [raw], by rw [← List.append_assoc]; exact .accept hL hS hroom hc⟩
  | set_one _ hh hs ih => obtain ⟨L, hL⟩ := ih; exact ⟨L, .set_one hL hh hs⟩
  | reopen _ hf ih => obtain ⟨L, hL⟩ := ih; exact ⟨L, .reopen hL hf⟩

theorem getElem?_append_some {α : Type} {T T' : List α} {i : Nat} {N : α} (h : T[i]? = some N) :
    (T ++ T')[i]? = some N := by
  rw [List.getElem?_append_left (getElem?_lt h)]; exact h

theorem totalWork_extend {T T' : Tree} {path : List Nat} (h : ∀ j ∈ path, j < T.length) :
    totalWork (T ++ T') path = totalWork T path := by
  unfold totalWork
  congr 1
  apply List.map_congr_left
  intro j hj
  unfold nodeWork
  rw [List.getElem?_append_left (h j hj)]

/-! ## C97 -/

/-- What is found by its hash is found for ever, as the same header at the same height on the same
chain. -/
theorem C97_lookup (he : Env H cp S) (hr : Reachable H coin cp S s A) (hl : Later H coin cp S s s')
    (hash : Bytes) (r : Header × Nat) (h : s.lookup hash = .ok r) : s'.lookup hash = .ok r := by
  have hmem : ∃ raw ∈ A, header_hash H raw = hash := by
    by_contra hc
    push_neg at hc
    rw [C23_missing he hr hash hc] at h
    cases h
  obtain ⟨raw, hin, rfl⟩ := hmem
  obtain ⟨T, hI, rfl, rfl, rfl, hA⟩ := reachable_inv he hr
  obtain ⟨T', hI', hH, _, hcp, _⟩ := later_tree hI hl
  obtain ⟨i, N, hN, rfl⟩ := (hA raw).1 hin
  rw [hI.toDesc.lookup_found hI.env.inj hN] at h
  cases h
  have := hI'.toDesc.lookup_found hI'.env.inj (getElem?_append_some (T' := T') hN)
  rwa [hH, hcp] at this

/-- A chain never loses or changes a header: it keeps its index, parent, first height and all its
headers from the checkpoint to its tip, and it grows in height and work only. -/
theorem C97_chain (he : Env H cp S) (hr : Reachable H coin cp S s A) (hl : Later H coin cp S s s')
    (c : Nat) (ch : Chain) (hch : s.chains[c]? = some ch) :
    ∃ ch', s'.chains[c]? = some ch' ∧ ch'.parent = ch.parent ∧ ch'.first_height = ch.first_height ∧
      ch.height ≤ ch'.height ∧ ch.work ≤ ch'.work ∧
      (ch'.height = ch.height → ch'.tip = ch.tip ∧ ch'.work = ch.work) ∧
      ∀ k : Int, cp.height ≤ k → k ≤ ch.height →
        s'.header_at_height c k = s.header_at_height c k ∧
        s'.chainwork_to_height c k = s.chainwork_to_height c k := by
  obtain ⟨T, hI, rfl, rfl, rfl, hA⟩ := reachable_inv he hr
  obtain ⟨T', hI', hH, _, hcp, hst⟩ := later_tree hI hl
  obtain ⟨ch', b1, b2, b3⟩ := hst c ch hch
  obtain ⟨t, N, base, own, hci⟩ := hI.toDesc.chain_at hch
  obtain ⟨t', N', base', own', hci'⟩ := hI'.toDesc.chain_at b1
  have hN := getElem?_append_some (T' := T') hci.node
  obtain ⟨hpre, _⟩ := hI'.good.prefix_tip hci' hN hci.chain
  have hh := (hI.toDesc.height_eq hci).1
  have hh' := (hI'.toDesc.height_eq hci').1
  have hpos := (hI.good.node _ _ hci.node).pos
  have hle : N.path.length ≤ N'.path.length := by
    have := congrArg List.length hpre
    rw [List.length_take] at this
    omega
  have hlt := hI.good.path_lt hci.node
  rw [nodeHeight] at hh hh'
  rw [hcp] at hh'
  have hw := hci.work
  have hw' := hci'.work
  rw [hcp] at hw'
  have hsplit : totalWork (T ++ T') N'.path =
      totalWork T N.path + totalWork (T ++ T') (N'.path.drop N.path.length) := by
    conv_lhs => rw [← List.take_append_drop N.path.length N'.path]
    rw [Good.totalWork_append, ← hpre, totalWork_extend hlt]
  refine ⟨ch', b1, b2, b3, by omega, by omega, ?_, ?_⟩
  · intro heq
    have hlen : N'.path.length = N.path.length := by omega
    have hpath : N'.path = N.path := by rw [hpre, ← hlen, List.take_length]
    have e1 := (hI'.good.node _ _ hci'.node).last
    have e2 := (hI'.good.node _ _ hN).last
    rw [hpath, e2] at e1
    cases e1
    have := hci'.node
    rw [hN] at this
    cases this
    refine ⟨by rw [hci.tip, hci'.tip, hH, hcp], ?_⟩
    rw [hlen.symm, List.drop_length] at hsplit
    simp only [totalWork, List.map_nil, List.sum_nil] at hsplit hw hw'
    omega
  · intro k h1 h2
    obtain ⟨m, rfl⟩ : ∃ m : Nat, k = ((s.checkpoint.height + m : Nat) : Int) :=
      ⟨(k - s.checkpoint.height).toNat, by omega⟩
    have hm : m < N.path.length := by omega
    have hj := List.getElem?_eq_getElem hm
    obtain ⟨Q, hQ, _⟩ := hI.good.path _ N m _ hci.node hj
    have e1 := hI.toDesc.raw_at hch hci hj hQ
    have hj' : N'.path[m]? = some N.path[m] := by
      have := congrArg (·[m]?) hpre
      simp only [List.getElem?_take, hm, if_true] at this
      rw [← this, hj]
    have e2 := hI'.toDesc.raw_at b1 hci' hj' (getElem?_append_some hQ)
    rw [hcp] at e2
    refine ⟨by simp only [Headers.header_at_height, ChainView.header_at_height, Headers.view, e1, e2, hH], ?_⟩
    have w1 := hI.toDesc.chainwork_to hch hci (m + 1) (by omega) ((s.checkpoint.height + m : Nat) : Int)
      (by push_cast; omega)
    have w2 := hI'.toDesc.chainwork_to b1 hci' (m + 1) (by omega) ((s.checkpoint.height + m : Nat) : Int)
      (by rw [hcp]; push_cast; omega)
    rw [w1, w2, hcp]
    have : N'.path.take (m + 1) = N.path.take (m + 1) := by
      conv_rhs => rw [hpre]
      rw [List.take_take, min_eq_left (by omega)]
    rw [this, totalWork_extend (fun j hj => hlt j (List.mem_of_mem_take hj))]

/-- The number of headers and of chains and the work of the longest chain never fall. -/
theorem C97_longest (he : Env H cp S) (hr : Reachable H coin cp S s A) (hl : Later H coin cp S s s') :
    (∃ n n' : Nat, s.len = .ok (n : Int) ∧ s'.len = .ok (n' : Int) ∧ n ≤ n') ∧
    s.chains.length ≤ s'.chains.length ∧
    ∃ m m' x x', s.longest_chain = .ok m ∧ s'.longest_chain = .ok m' ∧ s.chains[m]? = some x ∧
      s'.chains[m']? = some x' ∧ x.work ≤ x'.work := by
  have hch := C97_chain he hr hl
  obtain ⟨L, hr'⟩ := later_reachable hr hl
  obtain ⟨m, x, a1, a2, a3, _⟩ := C32_longest s (C32_reachable he hr)
  obtain ⟨m', x', b1, b2, b3, _⟩ := C32_longest s' (C32_reachable he hr')
  refine ⟨?_, ?_, m, m', x, x', a1, b1, a2, b2, ?_⟩
  · obtain ⟨T, hI, rfl, rfl, rfl, hA⟩ := reachable_inv he hr
    obtain ⟨T', hI', hH, _, hcp, _⟩ := later_tree hI hl
    refine ⟨_, _, hI.len, hI'.len, ?_⟩
    rw [hcp, List.length_append]; omega
  · by_contra hc
    obtain ⟨ch', h1, _⟩ := hch s'.chains.length _ (List.getElem?_eq_getElem (by omega))
    have := getElem?_lt h1
    omega
  · obtain ⟨y, hy, _, _, _, hw, _⟩ := hch m x a2
    exact le_trans hw (b3 m y hy)

/-! ## C98 -/

/-- The ancestors of a node on its chain. -/
theorem raw_on_path {T : Tree} (hI : Inv S s T) {i k j : Nat} {N M : Node} (hN : T[i]? = some N)
    (hk : N.path[k]? = some j) (hM : T[j]? = some M) :
    s.raw_header_at_height N.chain ((s.checkpoint.height + k : Nat) : Int) = .ok M.raw := by
  obtain ⟨ch, hch⟩ := hI.toDesc.chain_exists hN
  obtain ⟨t, Q, base, own, hci⟩ := hI.toDesc.chain_at hch
  obtain ⟨hpre, _⟩ := hI.good.prefix_tip hci hN rfl
  refine hI.toDesc.raw_at hch hci ?_ hM
  have := congrArg (·[k]?) hpre
  simp only [List.getElem?_take, getElem?_lt hk, if_true] at this
  rw [← this, hk]

/-- What is required of the successors of a node, at any later time and on any of their chains. -/
theorem required_same {T T' : Tree} (hI : Inv S s T) (hI' : Inv S s' (T ++ T')) (hH : s'.H = s.H)
    (hcoin : s'.coin = s.coin) (hcp : s'.checkpoint = s.checkpoint)
    (hbelow : ∀ i : Nat, i < s.checkpoint.height → s'.storage.get i = s.storage.get i)
    {i j : Nat} {P N : Node} (hP : T[i]? = some P) (hN : (T ++ T')[j]? = some N) {rest : List Nat}
    (hpath : N.path = P.path ++ rest) (height ts : Int)
    (hh : height ≤ nodeHeight s.checkpoint P + 1) :
    s'.required_bits N.chain height ts = s.required_bits P.chain height ts := by
  obtain ⟨ch, hch⟩ := hI.toDesc.chain_exists hP
  obtain ⟨ch', hch'⟩ := hI'.toDesc.chain_exists hN
  have hpos := (hI.good.node i P hP).pos
  refine C19_collections s' s N.chain P.chain _ _ hcoin hH ?_
  intro k hk
  by_cases hk0 : k < 0
  · rw [hI.toDesc.raw_neg hch hk0, hI'.toDesc.raw_neg hch' hk0]
  · by_cases hk1 : k < s.checkpoint.height
    · obtain ⟨m, rfl⟩ : ∃ m : Nat, k = m := ⟨k.toNat, by omega⟩
      rw [hI.toDesc.raw_below hch (by omega), hI'.toDesc.raw_below hch' (by rw [hcp]; omega),
        hbelow m (by omega)]
    · obtain ⟨m, rfl⟩ : ∃ m : Nat, k = ((s.checkpoint.height + m : Nat) : Int) :=
        ⟨(k - s.checkpoint.height).toNat, by omega⟩
      rw [nodeHeight] at hh
      have hm : m < P.path.length := by omega
      have hj := List.getElem?_eq_getElem hm
      obtain ⟨Q, hQ, _⟩ := hI.good.path _ P m _ hP hj
      have hj' : N.path[m]? = some P.path[m] := by
        rw [hpath, List.getElem?_append_left hm, hj]
      have e := raw_on_path hI' hN hj' (getElem?_append_some hQ)
      rw [hcp] at e
      rw [e, raw_on_path hI hP hj hQ]

/-- All headers of the tree but the checkpoint's obey the rules. -/
def AllObey (s : Headers) (T : Tree) : Prop :=
  ∀ (i : Nat) (N : Node), T[i]? = some N → i ≠ 0 →
    Obeys s (mkHeader s.H N.raw (nodeHeight s.checkpoint N)) N.chain

theorem obeys_extend {T T' : Tree} (hI : Inv S s T) (hI' : Inv S s' (T ++ T')) (hH : s'.H = s.H)
    (hcoin : s'.coin = s.coin) (hcp : s'.checkpoint = s.checkpoint)
    (hbelow : ∀ i : Nat, i < s.checkpoint.height → s'.storage.get i = s.storage.get i)
    {i : Nat} {N : Node} (hN : T[i]? = some N)
    (h : Obeys s (mkHeader s.H N.raw (nodeHeight s.checkpoint N)) N.chain) :
    Obeys s' (mkHeader s.H N.raw (nodeHeight s.checkpoint N)) N.chain := by
  refine ⟨?_, h.2⟩
  have hf := mkHeader_fields (H := s.H) (nodeHeight s.checkpoint N) (hI.toDesc.valid hN).length
  rw [required_same hI hI' hH hcoin hcp hbelow hN (getElem?_append_some hN) (rest := []) (by simp) _ _
    (by rw [hf.2.1]; omega)]
  exact h.1

theorem check_obeys {x : Header} {c : Nat} {hd : Header}
    (h : (do
      let rb ← s.required_bits c hd.height hd.timestamp
      if hd.bits ≠ rb then .error .incorrectBits
      else do
        let target ← hd.target
        if hd.hash_value > target then .error .insufficientPoW else return .inr hd :
      Res ((Header × Nat) ⊕ Header)) = .ok (.inr x)) : Obeys s hd c := by
  simp only [bind_eq_ok] at h
  obtain ⟨rb, h1, h⟩ := h
  split at h
  · cases h
  · next hb =>
    simp only [bind_eq_ok] at h
    obtain ⟨t, ht, h⟩ := h
    split at h
    · cases h
    · next hle =>
      have : hd.bits = rb := by simpa using hb
      refine ⟨by rw [h1, this], t, ht, ?_⟩
      simp only [Header.hash_value, hash_to_value, le_bytes_to_int_eq] at hle
      omega

theorem allObey_connect {T : Tree} (hI : Inv S s T) (hall : AllObey s T) {raw : Bytes} (hS : S raw)
    (hr : Room s) {r : Res (Header × Nat)} (hc : s.connect raw = (s', r)) :
    ∃ T', Inv S s' T' ∧ AllObey s' T' ∧ s'.H = s.H ∧ s'.coin = s.coin ∧ s'.checkpoint = s.checkpoint := by
  obtain ⟨T2, hcon, hI2⟩ := hI.connected hS hr hc
  cases hcon with
  | accepted p P c hl hp hprev hnew hck e1 e2 e3 hadd _ hget hT =>
    subst hT
    refine ⟨_, hI2, ?_, e1, e2, e3⟩
    have hbelow : ∀ i : Nat, i < s.checkpoint.height → s'.storage.get i = s.storage.get i :=
      fun i hi => hget i (by omega)
    intro i N hN hi
    rcases getElem?_snoc.1 hN with hN' | ⟨rfl, rfl⟩
    · rw [e1, e3]
      exact obeys_extend hI hI2 e1 e2 e3 hbelow hN' (hall i N hN' hi)
    · have hck' := hI.connect_check_new hS hl hp hprev hnew
      rw [hck] at hck'
      have hf := mkHeader_fields (H := s.H) ((nodeHeight s.checkpoint P + 1 : Nat) : Int) hl
      have hob : Obeys s (mkHeader s.H raw (nodeHeight s.checkpoint P + 1 : Nat)) P.chain := by
        apply check_obeys (x := mkHeader s.H raw (nodeHeight s.checkpoint P + 1 : Nat))
        rw [hck', hf.2.1]
      have hpos := (hI.good.node p P hp).pos
      have hnh : nodeHeight s.checkpoint ⟨raw, P.path ++ [T.length], c⟩ = nodeHeight s.checkpoint P + 1 := by
        simp only [nodeHeight, List.length_append, List.length_singleton]; omega
      simp only
      rw [e1, e3, hnh]
      refine ⟨?_, hob.2⟩
      have := required_same hI hI2 e1 e2 e3 hbelow hp hN (rest := [T.length]) rfl
        (mkHeader s.H raw (nodeHeight s.checkpoint P + 1 : Nat)).height
        (mkHeader s.H raw (nodeHeight s.checkpoint P + 1 : Nat)).timestamp (by rw [hf.2.1]; push_cast; omega)
      simp only at this
      rw [this]
      exact hob.1
  | malformed _ e _ => subst e; exact ⟨T, hI, hall, rfl, rfl, rfl⟩
  | missing _ _ e _ => subst e; exact ⟨T, hI, hall, rfl, rfl, rfl⟩
  | existing _ _ _ _ _ e _ => subst e; exact ⟨T, hI, hall, rfl, rfl, rfl⟩
  | rejected _ _ _ _ _ _ _ _ e _ => subst e; exact ⟨T, hI, hall, rfl, rfl, rfl⟩

theorem unset_obey (he : Env H cp S) (h : Unset H coin cp S s A) :
    ∃ T, Inv S s T ∧ AllObey s T ∧ s.H = H ∧ s.coin = coin ∧ s.checkpoint = cp := by
  induction h with
  | start hf hm h =>
    obtain ⟨h1, h2, h3, h4, _⟩ := fresh_inv he hf hm h
    refine ⟨_, h1, ?_, h2, h3, h4⟩
    intro i N hN hi
    match i with
    | 0 => exact absurd rfl hi
    | i + 1 => simp at hN
  | accept _ hS hr hc ih =>
    obtain ⟨T, hI, hall, h1, h2, h3⟩ := ih
    obtain ⟨T', a1, a2, a3, a4, a5⟩ := allObey_connect hI hall hS hr hc
    exact ⟨T', a1, a2, by rw [a3, h1], by rw [a4, h2], by rw [a5, h3]⟩
  | reject _ hS hr hc ih =>
    obtain ⟨T, hI, hall, h1, h2, h3⟩ := ih
    obtain ⟨T', a1, a2, a3, a4, a5⟩ := allObey_connect hI hall hS hr hc
    exact ⟨T', a1, a2, by rw [a3, h1], by rw [a4, h2], by rw [a5, h3]⟩
  | @reopen s s' A f' _ hf ih =>
    obtain ⟨T, hI, hall, rfl, rfl, rfl⟩ := ih
    obtain ⟨s1, h1, h2, h3, h4, h5, h6, h7⟩ := hI.reopen s.coin
    rw [h1] at hf
    cases hf
    refine ⟨T, h2, ?_, h5, h6, h7⟩
    intro i N hN hi
    rw [h5, h7]
    exact obeys_extend (T' := []) hI (by simpa using h2) h5 h6 h7 (fun _ _ => by rw [h4]) hN (hall i N hN hi)

/-- At any time every accepted header but the checkpoint's obeys the rules as evaluated at that time on
its chain, whatever has been connected since, forks and reopening included. -/
theorem C98_all_obey (he : Env H cp S) (h : Unset H coin cp S s A) (raw : Bytes) (hx : raw ∈ A)
    (hne : raw ≠ cp.raw_header) :
    ∃ hd c, s.lookup (header_hash H raw) = .ok (hd, c) ∧ hd.raw = raw ∧ Obeys s hd c := by
  obtain ⟨T0, hI0, _, _, _, hA⟩ := reachable_inv he h.reachable
  obtain ⟨hd, c, ch, h1, h2, _⟩ := C23_lookup he h.reachable raw hx
  refine ⟨hd, c, h1, (deserialized_header_fields h2).2.1, ?_⟩
  obtain ⟨T, hI, hall, rfl, rfl, rfl⟩ := unset_obey he h
  have : ∃ (i : Nat) (N : Node), T[i]? = some N ∧ header_hash s.H N.raw = header_hash s.H raw := by
    by_contra hc
    push_neg at hc
    have hnil : header_hash s.H raw ≠ [] := by
      intro h0
      have := header_hash_length s.H raw
      rw [h0] at this
      simp at this
    rw [hI.toDesc.lookup_missing hnil hc] at h1
    cases h1
  obtain ⟨i, N, hN, heq⟩ := this
  obtain ⟨i0, N0, hN0, rfl⟩ := (hA raw).1 hx
  have hraw := hI.env.inj _ _ (hI.toDesc.valid hN).mem (hI0.toDesc.valid hN0).mem heq
  rw [← hraw, hI.toDesc.lookup_found hI.env.inj hN] at h1
  cases h1
  apply hall i N hN
  rintro rfl
  rw [hI.good.root_node] at hN
  cases hN
  exact hne hraw.symm

/-- In any history, what obeys the rules keeps obeying them as long as the headers before the checkpoint
are what they were. -/
theorem C98_later (he : Env H cp S) (hr : Reachable H coin cp S s A) (hl : Later H coin cp S s s')
    (hbelow : ∀ i : Nat, i < cp.height → s'.storage.get i = s.storage.get i)
    (hash : Bytes) (hd : Header) (c : Nat) (h : s.lookup hash = .ok (hd, c)) (ho : Obeys s hd c) :
    Obeys s' hd c := by
  have hmem : ∃ raw ∈ A, header_hash H raw = hash := by
    by_contra hc
    push_neg at hc
    rw [C23_missing he hr hash hc] at h
    cases h
  obtain ⟨raw, hin, rfl⟩ := hmem
  obtain ⟨T, hI, rfl, rfl, rfl, hA⟩ := reachable_inv he hr
  obtain ⟨T', hI', hH, hcoin, hcp, _⟩ := later_tree hI hl
  obtain ⟨i, N, hN, rfl⟩ := (hA raw).1 hin
  rw [hI.toDesc.lookup_found hI.env.inj hN] at h
  cases h
  exact obeys_extend hI hI' hH hcoin hcp hbelow hN ho

/-! ## C99 -/

/-- `set_one` refuses heights outside the range from 0 to the checkpoint, and what is not 80 bytes long. -/
theorem C99_refused (hcp : s.checkpoint = cp) (height : Int) (raw : Bytes) :
    ((height < 0 ∨ cp.height < height) → s.set_one height raw = (s, .error .valueError)) ∧
    (0 ≤ height → height ≤ cp.height → raw.length ≠ 80 → s.set_one height raw = (s, .error .typeError)) := by
  subst hcp
  constructor
  · intro h
    rw [Headers.set_one, if_pos (by omega)]
  · intro h1 h2 hl
    rw [Headers.set_one, if_neg (by omega), C21_type_error _ _ _ hl]

/-- Below the checkpoint `set_one` sets that header on all chains and changes nothing else, neither the
headers at other heights, nor what hashes are found, nor the chains, nor what is read back when the file
is opened again. -/
theorem C99_below (he : Env H cp S) (hr : Reachable H coin cp S s A) (height : Nat) (raw : Bytes)
    (hh : height < cp.height) (hl : raw.length = 80) :
    ∃ s', s.set_one height raw = (s', .ok ()) ∧ s'.chains = s.chains ∧ s'.len = s.len ∧
      (∀ hash, s'.lookup hash = s.lookup hash) ∧
      (∀ (c : Nat) (k : Int), c < s.chains.length → k ≠ height →
        s'.raw_header_at_height c k = s.raw_header_at_height c k) ∧
      (∀ c, c < s.chains.length → s'.raw_header_at_height c height =
        if raw = zeros 80 then .error .missingHeader else .ok raw) ∧
      ∃ s'', Headers.from_file H coin (some s'.storage.file) cp = (some s'.storage.file, .ok s'') ∧
        s''.chains = s'.chains ∧ (∀ hash, s''.lookup hash = s'.lookup hash) ∧
        ∀ c k, s''.raw_header_at_height c k = s'.raw_header_at_height c k := by
  have hset : ∃ s1, s.set_one height raw = (s1, .ok ()) := by
    obtain ⟨T, hI, rfl, rfl, rfl, hA⟩ := reachable_inv he hr
    obtain ⟨cap, hw⟩ := hI.wf
    have hcpb := hw.count_lt
    obtain ⟨st, cap', h1, _⟩ := hw.get_set height raw hl (by omega)
    exact ⟨{ s with storage := st }, by rw [Headers.set_one, if_neg (by omega), Int.toNat_natCast, h1]⟩
  obtain ⟨s1, hs1⟩ := hset
  have hr1 : Reachable H coin cp S s1 A := .set_one hr (fun h => by omega) hs1
  obtain ⟨s2, r1, r2, _, _, r5, r6⟩ := C30_reopen he hr1
  refine ⟨s1, hs1, ?_⟩
  obtain ⟨T, hI, rfl, rfl, rfl, hA⟩ := reachable_inv he hr
  have hinv := hI.set_one height raw (fun h => by omega)
  rw [hs1] at hinv
  obtain ⟨a1, a2, a3, a4, a5⟩ := hinv
  obtain ⟨cap, hw⟩ := hI.wf
  have hcpb := hw.count_lt
  obtain ⟨st, cap', b1, _, b3, b4, b5⟩ := hw.get_set height raw hl (by omega)
  have hst : s1.storage = st := by
    rw [Headers.set_one, if_neg (by omega), Int.toNat_natCast, b1] at hs1
    cases hs1; rfl
  have hfind : ∀ hash, s1.lookup hash = s.lookup hash := by
    intro hash
    by_cases hn : hash = []
    · subst hn; rw [hI.lookup_nil, a1.lookup_nil]
    · by_cases hex : ∃ (i : Nat) (N : Node), T[i]? = some N ∧ header_hash s.H N.raw = hash
      · obtain ⟨i, N, hN, rfl⟩ := hex
        rw [hI.toDesc.lookup_found hI.env.inj hN]
        have := a1.toDesc.lookup_found a1.env.inj hN
        rwa [a3, a5] at this
      · push_neg at hex
        rw [hI.toDesc.lookup_missing hn hex, a1.toDesc.lookup_missing hn (by rw [a3]; exact hex)]
  refine ⟨a2, ?_, hfind, ?_, ?_, s2, r1, r2, r5, r6⟩
  · rw [hI.len, a1.len, a5]
  · intro c k hc hk
    have hch := List.getElem?_eq_getElem hc
    have hch1 : s1.chains[c]? = some s.chains[c] := by rw [a2]; exact hch
    by_cases hk0 : k < 0
    · rw [hI.toDesc.raw_neg hch hk0, a1.toDesc.raw_neg hch1 hk0]
    · by_cases hk1 : k < s.checkpoint.height
      · obtain ⟨m, rfl⟩ : ∃ m : Nat, k = m := ⟨k.toNat, by omega⟩
        rw [hI.toDesc.raw_below hch (by omega), a1.toDesc.raw_below hch1 (by rw [a5]; omega), hst]
        exact b5 m (by omega)
      · by_cases hk2 : (s.chains[c]).height < k
        · rw [hI.toDesc.raw_above hch hk2, a1.toDesc.raw_above hch1 hk2]
        · obtain ⟨t, N, base, own, hci⟩ := hI.toDesc.chain_at hch
          have hhe := (hI.toDesc.height_eq hci).1
          have hpos := (hI.good.node _ _ hci.node).pos
          rw [nodeHeight] at hhe
          obtain ⟨m, rfl⟩ : ∃ m : Nat, k = ((s.checkpoint.height + m : Nat) : Int) :=
            ⟨(k - s.checkpoint.height).toNat, by omega⟩
          have hm : m < N.path.length := by omega
          have hj := List.getElem?_eq_getElem hm
          obtain ⟨Q, hQ, _⟩ := hI.good.path _ N m _ hci.node hj
          have hcc := hci.chain
          subst hcc
          have e := raw_on_path a1 hci.node hj hQ
          rw [a5] at e
          rw [e, raw_on_path hI hci.node hj hQ]
  · intro c hc
    have hch1 : s1.chains[c]? = some s.chains[c] := by rw [a2]; exact List.getElem?_eq_getElem hc
    rw [a1.toDesc.raw_below hch1 (by rw [a5]; omega), hst]
    split
    · next h => exact b4 h
    · next h => exact b3 h

/-- `set_one` also accepts the checkpoint's own height.  If another header is put there, the next
opening of the file takes it for a file of another checkpoint and makes a new one: all headers
connected are lost. -/
theorem C99_checkpoint (he : Env H cp S) (hr : Reachable H coin cp S s A) (raw : Bytes)
    (hl : raw.length = 80) (hne : raw ≠ cp.raw_header) :
    ∃ s' s'' f, s.set_one cp.height raw = (s', .ok ()) ∧
      Headers.from_file H coin (some s'.storage.file) cp = (f, .ok s'') ∧
      s''.len = .ok (cp.height + 1 : Nat) ∧
      ∀ x ∈ A, x ≠ cp.raw_header → s''.lookup (header_hash H x) = .error .missingHeader := by
  obtain ⟨T, hI, rfl, rfl, rfl, hA⟩ := reachable_inv he hr
  obtain ⟨cap, hw⟩ := hI.wf
  have hcpb := hw.count_lt
  have hpos := hI.good.length_pos
  obtain ⟨st, cap', h1, h2, _, h4, h5, _⟩ := hw.set s.checkpoint.height raw hl (by omega)
  have hlen := h2.length
  have hsl : slice st.file 0 2 = [8, 0] := by
    have := congrArg (fun x => slice x 0 2) h2.head
    simpa [slice, List.take_take] using this
  have hm : ∀ f, some st.file = some f → ¬ Matches f s.checkpoint.raw_header s.checkpoint.height := by
    rintro f hf ⟨_, _, hmt⟩
    cases hf
    have h8 : leValue (slice st.file 0 2) = 8 := by rw [hsl]; decide
    rw [h8] at hmt
    exact hne (h5.symm.trans hmt)
  have hf0 : (some st.file : Option Bytes) ≠ some [] := by
    intro hc
    cases hc' : st.file with
    | nil => rw [hc'] at hlen; simp at hlen; omega
    | cons a b => rw [hc'] at hc; simp at hc
  obtain ⟨s2, c1, c2, c3, c4, c5, _⟩ := fresh_ok (coin := s.coin) he
    (hI.toDesc.valid hI.good.root_node).work hf0 hm
  refine ⟨{ s with storage := st }, s2, _, ?_, c1, ?_, ?_⟩
  · rw [Headers.set_one, if_neg (by omega), Int.toNat_natCast, h1]
  · rw [c2.len, c5]; rfl
  · intro x hx hxne
    refine C23_missing he (Reachable.start hf0 hm c1) _ ?_
    intro y hy
    rw [List.mem_singleton] at hy
    subst hy
    obtain ⟨i, N, hN, rfl⟩ := (hA x).1 hx
    intro heq
    exact hxne (he.inj _ _ (hI.toDesc.valid hN).mem he.cp_mem heq.symm)

end Bitcoinx
