import Verif.Model.Chain
import Verif.Lemmas.Daa
import Verif.Lemmas.Storage

/-! # The tree of accepted headers

The abstract state that a `Headers` object represents: the accepted headers in order of arrival,
each with its ancestors (as positions in that order) and its chain. -/

namespace Bitcoinx
open Spec

structure Node where
  raw : Bytes
  /-- positions of the ancestors from the checkpoint (position 0) down to and including the node -/
  path : List Nat
  chain : Nat

abbrev Tree := List Node

def HasChild (T : Tree) (N : Node) : Prop := ∃ (q : Nat) (Q : Node), T[q]? = some Q ∧ Q.path = N.path ++ [q]

/-- The deserialized header (arbitrary unless 80 bytes long). -/
def mkHeader (H : Hashes) (raw : Bytes) (height : Int) : Header :=
  match deserialized_header H raw height with
  | .ok hd => hd
  | .error _ => ⟨0, [], [], 0, 0, 0, [], [], 0⟩

/-- The work of a header (0 if its bits are invalid). -/
def workOf (raw : Bytes) : Nat :=
  match header_work raw with
  | .ok w => w
  | .error _ => 0

theorem mkHeader_ok {H : Hashes} {raw : Bytes} (height : Int) (h : raw.length = 80) :
    deserialized_header H raw height = .ok (mkHeader H raw height) := by
  obtain ⟨hd, h1, _⟩ := deserialized_header_ok H raw height h
  simp [mkHeader, h1]

theorem mkHeader_fields {H : Hashes} {raw : Bytes} (height : Int) (h : raw.length = 80) :
    (mkHeader H raw height).raw = raw ∧ (mkHeader H raw height).height = height ∧
    (mkHeader H raw height).hash = header_hash H raw ∧
    (mkHeader H raw height).prev_hash = header_prev_hash raw ∧
    header_timestamp raw = .ok (mkHeader H raw height).timestamp ∧
    header_bits raw = .ok (mkHeader H raw height).bits := by
  have := deserialized_header_fields (mkHeader_ok (H := H) height h)
  exact this.2

theorem mkHeader_with {H : Hashes} {raw : Bytes} (a b : Int) (h : raw.length = 80) :
    { mkHeader H raw a with height := b } = mkHeader H raw b := by
  obtain ⟨v, t, bi, n, hu, _⟩ := unpack_header_ok raw h
  simp [mkHeader, deserialized_header, hu]

theorem mkHeader_work {H : Hashes} {raw : Bytes} (a : Int) (h : raw.length = 80) :
    (mkHeader H raw a).work = header_work raw := by
  have := (mkHeader_fields (H := H) a h).2.2.2.2.2
  simp [Header.work, header_work, this]

/-- A header that can be stored and has valid bits, of the set under consideration. -/
structure Valid (S : Bytes → Prop) (raw : Bytes) : Prop where
  length : raw.length = 80
  nonzero : raw ≠ zeros 80
  work : header_work raw = .ok (workOf raw)
  mem : S raw

/-- The work of the node at a position. -/
def nodeWork (T : Tree) (j : Nat) : Nat :=
  match T[j]? with
  | some N => workOf N.raw
  | none => 0

def totalWork (T : Tree) (path : List Nat) : Nat := (path.map (nodeWork T)).sum

def nodeHeight (cp : CheckPoint) (N : Node) : Nat := cp.height + N.path.length - 1

/-- The trees that arise by adding headers one at a time, with the list of chains they make. -/
inductive Good (H : Hashes) (cp : CheckPoint) (S : Bytes → Prop) : Tree → List Chain → Prop
  | base : Valid S cp.raw_header → Good H cp S [⟨cp.raw_header, [0], 0⟩]
      [{ parent := none, tip := mkHeader H cp.raw_header cp.height,
         work := cp.prev_work + workOf cp.raw_header, first_height := cp.height,
         header_indices := [cp.height] }]
  | extend {T : Tree} {cs : List Chain} {p : Nat} {P : Node} {ch : Chain} {raw : Bytes} :
      Good H cp S T cs → T[p]? = some P → ¬ HasChild T P → cs[P.chain]? = some ch → Valid S raw →
      header_prev_hash raw = header_hash H P.raw → (∀ M ∈ T, M.raw ≠ raw) →
      Good H cp S (T ++ [⟨raw, P.path ++ [T.length], P.chain⟩])
        (cs.set P.chain { ch with
          tip := mkHeader H raw (nodeHeight cp P + 1 : Nat), work := ch.work + workOf raw,
          header_indices := ch.header_indices ++ [T.length + cp.height] })
  | fork {T : Tree} {cs : List Chain} {p : Nat} {P : Node} {raw : Bytes} :
      Good H cp S T cs → T[p]? = some P → HasChild T P → Valid S raw →
      header_prev_hash raw = header_hash H P.raw → (∀ M ∈ T, M.raw ≠ raw) →
      Good H cp S (T ++ [⟨raw, P.path ++ [T.length], cs.length⟩])
        (cs ++ [{ parent := some P.chain, tip := mkHeader H raw (nodeHeight cp P + 1 : Nat),
                  work := cp.prev_work + totalWork T P.path + workOf raw,
                  first_height := (nodeHeight cp P + 1 : Nat),
                  header_indices := [T.length + cp.height] }])

theorem getElem?_snoc {α : Type} {T : List α} {x N : α} {i : Nat} :
    (T ++ [x])[i]? = some N ↔ T[i]? = some N ∨ (i = T.length ∧ x = N) := by
  rcases Nat.lt_trichotomy i T.length with h | h | h
  · rw [List.getElem?_append_left h]
    constructor
    · exact .inl
    · rintro (h' | ⟨rfl, _⟩)
      · exact h'
      · omega
  · subst h; simp
  · rw [List.getElem?_append_right (by omega)]
    have : T[i]? = none := by simp; omega
    simp only [this]
    rw [List.getElem?_eq_none (by simp; omega)]
    simp; omega

theorem getElem?_lt {α : Type} {T : List α} {N : α} {i : Nat} (h : T[i]? = some N) : i < T.length :=
  (List.getElem?_eq_some_iff.1 h).1

namespace Good
variable {H : Hashes} {cp : CheckPoint} {S : Bytes → Prop} {T : Tree} {cs : List Chain}

structure NodeOk (S : Bytes → Prop) (n i : Nat) (N : Node) : Prop where
  last : N.path.getLast? = some i
  head : N.path[0]? = some 0
  chain : N.chain < n
  le : ∀ j ∈ N.path, j ≤ i
  len : N.path.length ≤ i + 1
  valid : Valid S N.raw

theorem NodeOk.ne_nil {n i : Nat} {N : Node} (h : NodeOk S n i N) : N.path ≠ [] := by
  intro hc; have := h.last; simp [hc] at this

theorem NodeOk.pos {n i : Nat} {N : Node} (h : NodeOk S n i N) : 0 < N.path.length :=
  List.length_pos_iff.2 h.ne_nil

theorem node_snoc {n n' : Nat} {p : Nat} {P : Node} {raw : Bytes} {c : Nat}
    (ih : ∀ (i : Nat) (N : Node), T[i]? = some N → NodeOk S n i N) (hn : n ≤ n') (hp : T[p]? = some P)
    (hv : Valid S raw) (hc : c < n') (i : Nat) (N : Node)
    (hN : (T ++ [⟨raw, P.path ++ [T.length], c⟩])[i]? = some N) : NodeOk S n' i N := by
  rcases getElem?_snoc.1 hN with h | ⟨rfl, rfl⟩
  · have := ih i N h
    exact ⟨this.last, this.head, by have := this.chain; omega, this.le, this.len, this.valid⟩
  · have h := ih p P hp
    refine ⟨by simp, ?_, hc, ?_, ?_, hv⟩
    · rw [List.getElem?_append_left h.pos]; exact h.head
    · intro j hj
      simp only [List.mem_append, List.mem_singleton] at hj
      rcases hj with hj | hj
      · have := h.le j hj; have := getElem?_lt hp; omega
      · omega
    · have := h.len; have := getElem?_lt hp; simp; omega

theorem node (h : Good H cp S T cs) : ∀ (i : Nat) (N : Node), T[i]? = some N → NodeOk S cs.length i N := by
  induction h with
  | base hv =>
    intro i N hN
    match i with
    | 0 =>
      simp at hN; subst hN
      exact ⟨rfl, rfl, by simp, by simp, by simp, hv⟩
    | i + 1 => simp at hN
  | extend hg hp hc hch hv hprev hnew ih =>
    exact node_snoc ih (by simp) hp hv (by simpa using (ih _ _ hp).chain)
  | fork hg hp hc hv hprev hnew ih =>
    exact node_snoc ih (by simp) hp hv (by simp)

theorem take_snoc {p : List Nat} {k n : Nat} (h : k < p.length) : (p ++ [n]).take (k + 1) = p.take (k + 1) := by
  rw [List.take_append_of_le_length (by omega)]

theorem path_snoc {p : Nat} {P : Node} {raw : Bytes} {c : Nat}
    (ih : ∀ (i : Nat) (N : Node) (k j : Nat), T[i]? = some N → N.path[k]? = some j →
      ∃ M : Node, T[j]? = some M ∧ M.path = N.path.take (k + 1))
    (hp : T[p]? = some P) (i : Nat) (N : Node) (k j : Nat)
    (hN : (T ++ [⟨raw, P.path ++ [T.length], c⟩])[i]? = some N) (hk : N.path[k]? = some j) :
    ∃ M : Node, (T ++ [⟨raw, P.path ++ [T.length], c⟩])[j]? = some M ∧ M.path = N.path.take (k + 1) := by
  rcases getElem?_snoc.1 hN with h | ⟨rfl, rfl⟩
  · obtain ⟨M, h1, h2⟩ := ih i N k j h hk
    exact ⟨M, getElem?_snoc.2 (.inl h1), h2⟩
  · simp only at hk
    rcases getElem?_snoc.1 hk with h | ⟨rfl, rfl⟩
    · obtain ⟨M, h1, h2⟩ := ih p P k j hp h
      exact ⟨M, getElem?_snoc.2 (.inl h1), by rw [h2, take_snoc (getElem?_lt h)]⟩
    · refine ⟨_, getElem?_snoc.2 (.inr ⟨rfl, rfl⟩), ?_⟩
      simp only
      rw [List.take_of_length_le (by simp)]

/-- Ancestors: the path of the node at position `k` of a path is the path up to there. -/
theorem path (h : Good H cp S T cs) : ∀ (i : Nat) (N : Node) (k j : Nat), T[i]? = some N → N.path[k]? = some j →
    ∃ M : Node, T[j]? = some M ∧ M.path = N.path.take (k + 1) := by
  induction h with
  | base hv =>
    intro i N k j hN hk
    match i with
    | 0 =>
      simp at hN; subst hN
      match k with
      | 0 => simp at hk; subst hk; exact ⟨_, rfl, rfl⟩
      | k + 1 => simp at hk
    | i + 1 => simp at hN
  | extend hg hp hc hch hv hprev hnew ih => exact path_snoc ih hp
  | fork hg hp hc hv hprev hnew ih => exact path_snoc ih hp

/-- Consecutive nodes of a path are linked by hash. -/
theorem link (h : Good H cp S T cs) : ∀ (i : Nat) (N : Node) (k a b : Nat) (A B : Node), T[i]? = some N → N.path[k]? = some a →
    N.path[k + 1]? = some b → T[a]? = some A → T[b]? = some B →
    header_prev_hash B.raw = header_hash H A.raw := by
  have step : ∀ {T : Tree} {cs : List Chain} {p : Nat} {P : Node} {raw : Bytes} {c : Nat},
      Good H cp S T cs → T[p]? = some P → header_prev_hash raw = header_hash H P.raw →
      (∀ (i : Nat) (N : Node) (k a b : Nat) (A B : Node), T[i]? = some N → N.path[k]? = some a →
        N.path[k + 1]? = some b → T[a]? = some A → T[b]? = some B →
        header_prev_hash B.raw = header_hash H A.raw) →
      ∀ (i : Nat) (N : Node) (k a b : Nat) (A B : Node), (T ++ [⟨raw, P.path ++ [T.length], c⟩])[i]? = some N → N.path[k]? = some a →
        N.path[k + 1]? = some b → (T ++ [⟨raw, P.path ++ [T.length], c⟩])[a]? = some A →
        (T ++ [⟨raw, P.path ++ [T.length], c⟩])[b]? = some B →
        header_prev_hash B.raw = header_hash H A.raw := by
    intro T cs p P raw c hg hp hprev ih i N k a b A B hN ha hb hA hB
    have bound : ∀ (i : Nat) (N : Node), T[i]? = some N → ∀ j ∈ N.path, j < T.length := by
      intro i N hN j hj
      have h1 := (hg.node i N hN).le j hj
      have h2 := getElem?_lt hN
      omega
    have old : ∀ {j M}, j < T.length → (T ++ [⟨raw, P.path ++ [T.length], c⟩])[j]? = some M →
        T[j]? = some M := by
      intro j M hj h
      rcases getElem?_snoc.1 h with h | ⟨rfl, _⟩
      · exact h
      · omega
    rcases getElem?_snoc.1 hN with h | ⟨rfl, rfl⟩
    · exact ih i N k a b A B h ha hb
        (old (bound i N h a (List.mem_of_getElem? ha)) hA)
        (old (bound i N h b (List.mem_of_getElem? hb)) hB)
    · simp only at ha hb
      rcases getElem?_snoc.1 hb with hb' | ⟨hk, rfl⟩
      · have hk := getElem?_lt hb'
        have ha' : P.path[k]? = some a := by
          rcases getElem?_snoc.1 ha with h | ⟨h, _⟩
          · exact h
          · omega
        exact ih p P k a b A B hp ha' hb'
          (old (bound p P hp a (List.mem_of_getElem? ha')) hA)
          (old (bound p P hp b (List.mem_of_getElem? hb')) hB)
      · have ha' : P.path[k]? = some a := by
          rcases getElem?_snoc.1 ha with h | ⟨h, _⟩
          · exact h
          · omega
        have hl := (hg.node p P hp).last
        rw [List.getLast?_eq_getElem?, ← hk] at hl
        simp only [Nat.add_sub_cancel] at hl
        rw [hl] at ha'
        cases ha'
        have := old (getElem?_lt hp) hA
        rw [hp] at this; cases this
        rcases getElem?_snoc.1 hB with h | ⟨_, rfl⟩
        · have := getElem?_lt h; omega
        · exact hprev
  induction h with
  | base hv =>
    intro i N k a b A B hN ha hb
    match i with
    | 0 => simp at hN; subst hN; simp at hb
    | i + 1 => simp at hN
  | extend hg hp hc hch hv hprev hnew ih => exact step hg hp hprev ih
  | fork hg hp hc hv hprev hnew ih => exact step hg hp hprev ih

/-- What a chain object is in terms of the tree: `t` is the position of its tip `N`, whose path is
`base ++ own`. -/
structure ChainIs (H : Hashes) (cp : CheckPoint) (T : Tree) (c : Nat) (ch : Chain) (t : Nat) (N : Node)
    (base own : List Nat) : Prop where
  node : T[t]? = some N
  chain : N.chain = c
  path : N.path = base ++ own
  last : own.getLast? = some t
  indices : ch.header_indices = own.map (· + cp.height)
  first : ch.first_height = (cp.height + base.length : Nat)
  tip : ch.tip = mkHeader H N.raw (nodeHeight cp N)
  work : ch.work = cp.prev_work + totalWork T N.path
  mem : ∀ (i : Nat) (M : Node), T[i]? = some M → (M.chain = c ↔ i ∈ own)
  leaf : ¬ HasChild T N
  root : base = [] → ch.parent = none ∧ c = 0
  fork : ∀ p, base.getLast? = some p → ∃ P : Node, T[p]? = some P ∧ ch.parent = some P.chain ∧ P.chain < c

theorem totalWork_snoc {T : Tree} {x : Node} {path : List Nat} (h : ∀ j ∈ path, j < T.length) :
    totalWork (T ++ [x]) path = totalWork T path := by
  unfold totalWork
  congr 1
  apply List.map_congr_left
  intro j hj
  unfold nodeWork
  rw [List.getElem?_append_left (h j hj)]

theorem totalWork_append (T : Tree) (a b : List Nat) :
    totalWork T (a ++ b) = totalWork T a + totalWork T b := by simp [totalWork]

theorem totalWork_new {T : Tree} {x : Node} {path : List Nat} (h : ∀ j ∈ path, j < T.length) :
    totalWork (T ++ [x]) (path ++ [T.length]) = totalWork T path + workOf x.raw := by
  rw [totalWork_append, totalWork_snoc h]
  simp [totalWork, nodeWork]

theorem path_lt (h : Good H cp S T cs) {i : Nat} {N : Node} (hN : T[i]? = some N) :
    ∀ j ∈ N.path, j < T.length := by
  intro j hj
  have h1 := (h.node i N hN).le j hj
  have h2 := getElem?_lt hN
  omega

/-- A node of the chain that has no child is its tip. -/
theorem leaf_is_tip (h : Good H cp S T cs) {c : Nat} {ch : Chain} {t : Nat} {N : Node}
    {base own : List Nat} (hc : ChainIs H cp T c ch t N base own) {i : Nat} {M : Node}
    (hM : T[i]? = some M) (hch : M.chain = c) (hl : ¬ HasChild T M) : i = t := by
  have hi := (hc.mem i M hM).1 hch
  obtain ⟨k, hk⟩ := List.mem_iff_getElem?.1 hi
  have hlast := hc.last
  rw [List.getLast?_eq_getElem?] at hlast
  have hkl := getElem?_lt hk
  by_cases he : k = own.length - 1
  · rw [he, hlast] at hk; cases hk; rfl
  · exfalso
    apply hl
    have hk1 : k + 1 < own.length := by omega
    obtain ⟨q, hq⟩ : ∃ q, own[k + 1]? = some q := ⟨_, List.getElem?_eq_getElem hk1⟩
    have e1 : N.path[base.length + k]? = some i := by
      rw [hc.path, List.getElem?_append_right (by omega)]; simpa using hk
    have e2 : N.path[base.length + k + 1]? = some q := by
      rw [hc.path, List.getElem?_append_right (by omega),
        show base.length + k + 1 - base.length = k + 1 by omega]; exact hq
    obtain ⟨M', h1, h2⟩ := h.path t N _ i hc.node e1
    obtain ⟨Q, h3, h4⟩ := h.path t N _ q hc.node e2
    rw [hM] at h1; cases h1
    refine ⟨q, Q, h3, ?_⟩
    rw [h4, h2, List.take_add_one, e2]
    simp

/-- No child in the tree with one node more, unless the node is its parent. -/
theorem leaf_snoc {T : Tree} {x N : Node} (hl : ¬ HasChild T N) (hx : x.path ≠ N.path ++ [T.length]) :
    ¬ HasChild (T ++ [x]) N := by
  rintro ⟨q, Q, h1, h2⟩
  rcases getElem?_snoc.1 h1 with h | ⟨rfl, rfl⟩
  · exact hl ⟨q, Q, h, h2⟩
  · exact hx h2

theorem new_leaf (h : Good H cp S T cs) {x : Node} {p : List Nat} (hx : x.path = p ++ [T.length]) :
    ¬ HasChild (T ++ [x]) x := by
  rintro ⟨q, Q, h1, h2⟩
  rcases getElem?_snoc.1 h1 with h' | ⟨rfl, rfl⟩
  · have := h.path_lt h' T.length (by rw [h2, hx]; simp)
    omega
  · have := congrArg List.length h2
    simp at this

theorem chainIs (h : Good H cp S T cs) : ∀ (c : Nat) (ch : Chain), cs[c]? = some ch →
    ∃ (t : Nat) (N : Node) (base own : List Nat), ChainIs H cp T c ch t N base own := by
  induction h with
  | base hv =>
    intro c ch hc
    match c with
    | 0 =>
      simp at hc; subst hc
      refine ⟨0, _, [], [0], rfl, rfl, rfl, rfl, by simp, rfl, rfl, ?_, ?_, ?_, ?_, ?_⟩
      · simp [totalWork, nodeWork]
      · intro i M hM
        match i with
        | 0 => simp at hM; subst hM; simp
        | i + 1 => simp at hM
      · rintro ⟨q, Q, h1, h2⟩
        match q with
        | 0 => simp at h1; subst h1; simp at h2
        | q + 1 => simp at h1
      · simp
      · simp
    | c + 1 => simp at hc
  | @extend T cs p P ch0 raw hg hp hc hch hv hprev hnew ih =>
    intro c ch hcc
    have hPlt := getElem?_lt hp
    by_cases he : P.chain = c
    · subst he
      rw [List.getElem?_set_self (getElem?_lt hch)] at hcc
      simp only [Option.some.injEq] at hcc
      obtain ⟨t, N, base, own, hci⟩ := ih _ _ hch
      have hpt := hg.leaf_is_tip hci hp rfl hc
      subst hpt
      have hNP : N = P := by have := hci.node; rw [hp] at this; cases this; rfl
      subst hNP
      have hnok := hg.node p N hp
      have hpos := hnok.pos
      refine ⟨T.length, _, base, own ++ [T.length], getElem?_snoc.2 (.inr ⟨rfl, rfl⟩), rfl, ?_, ?_,
        ?_, ?_, ?_, ?_, ?_, ?_, ?_, ?_⟩
      · simp [hci.path]
      · simp
      · rw [← hcc]; simp [hci.indices]
      · rw [← hcc]; exact hci.first
      · rw [← hcc]
        have e : nodeHeight cp ⟨raw, N.path ++ [T.length], N.chain⟩ = nodeHeight cp N + 1 := by
          simp only [nodeHeight, List.length_append, List.length_singleton]; omega
        rw [e]
      · rw [← hcc]
        simp only
        rw [totalWork_new (hg.path_lt hp), hci.work]; push_cast; ring
      · intro i M hM
        rcases getElem?_snoc.1 hM with h | ⟨rfl, rfl⟩
        · rw [hci.mem i M h]
          have := getElem?_lt h
          simp; omega
        · simp
      · exact new_leaf hg rfl
      · rw [← hcc]; exact hci.root
      · intro p' hp'
        obtain ⟨P', h1, h2, h3⟩ := hci.fork p' hp'
        exact ⟨P', getElem?_snoc.2 (.inl h1), by rw [← hcc]; exact h2, h3⟩
    · rw [List.getElem?_set_ne he] at hcc
      obtain ⟨t, N, base, own, hci⟩ := ih _ _ hcc
      have hlt := hg.path_lt hci.node
      refine ⟨t, N, base, own, getElem?_snoc.2 (.inl hci.node), hci.chain, hci.path, hci.last,
        hci.indices, hci.first, hci.tip, ?_, ?_, ?_, hci.root, ?_⟩
      · rw [totalWork_snoc hlt]; exact hci.work
      · intro i M hM
        rcases getElem?_snoc.1 hM with h | ⟨rfl, rfl⟩
        · exact hci.mem i M h
        · simp only [he, false_iff]
          intro hmem
          have := hlt T.length (by rw [hci.path]; simp [hmem])
          omega
      · apply leaf_snoc hci.leaf
        simp only
        intro hpath
        have hpath := (List.append_inj' hpath rfl).1
        have h1 := (hg.node _ _ hp).last
        have h2 := (hg.node _ _ hci.node).last
        rw [hpath, h2] at h1
        cases h1
        have := hci.node; rw [hp] at this; cases this
        exact he hci.chain
      · intro p' hp'
        obtain ⟨P', h1, h2, h3⟩ := hci.fork p' hp'
        exact ⟨P', getElem?_snoc.2 (.inl h1), h2, h3⟩
  | @fork T cs p P raw hg hp hc hv hprev hnew ih =>
    intro c ch hcc
    have hPlt := getElem?_lt hp
    have hcc' := hcc
    clear hcc
    rcases getElem?_snoc.1 hcc' with hcc | ⟨rfl, hcc⟩
    · obtain ⟨t, N, base, own, hci⟩ := ih _ _ hcc
      have hlt := hg.path_lt hci.node
      have hclt := getElem?_lt hcc
      refine ⟨t, N, base, own, getElem?_snoc.2 (.inl hci.node), hci.chain, hci.path, hci.last,
        hci.indices, hci.first, hci.tip, ?_, ?_, ?_, hci.root, ?_⟩
      · rw [totalWork_snoc hlt]; exact hci.work
      · intro i M hM
        rcases getElem?_snoc.1 hM with h | ⟨rfl, rfl⟩
        · exact hci.mem i M h
        · have : ¬ cs.length = c := by omega
          simp only [this, false_iff]
          intro hmem
          have := hlt T.length (by rw [hci.path]; simp [hmem])
          omega
      · apply leaf_snoc hci.leaf
        simp only
        intro hpath
        have hpath := (List.append_inj' hpath rfl).1
        have h1 := (hg.node _ _ hp).last
        have h2 := (hg.node _ _ hci.node).last
        rw [hpath, h2] at h1
        cases h1
        have := hci.node; rw [hp] at this; cases this
        exact hci.leaf hc
      · intro p' hp'
        obtain ⟨P', h1, h2, h3⟩ := hci.fork p' hp'
        exact ⟨P', getElem?_snoc.2 (.inl h1), h2, h3⟩
    · clear hcc'
      have hnok := hg.node p P hp
      have hpos := hnok.pos
      refine ⟨T.length, _, P.path, [T.length], getElem?_snoc.2 (.inr ⟨rfl, rfl⟩), rfl, rfl, rfl,
        ?_, ?_, ?_, ?_, ?_, ?_, ?_, ?_⟩
      · rw [← hcc]; simp
      · rw [← hcc]
        have e : nodeHeight cp P + 1 = cp.height + P.path.length := by simp only [nodeHeight]; omega
        simp only [e]
      · rw [← hcc]
        have e : nodeHeight cp ⟨raw, P.path ++ [T.length], cs.length⟩ = nodeHeight cp P + 1 := by
          simp only [nodeHeight, List.length_append, List.length_singleton]; omega
        rw [e]
      · rw [← hcc]
        simp only
        rw [totalWork_new (hg.path_lt hp)]; push_cast; ring
      · intro i M hM
        rcases getElem?_snoc.1 hM with h | ⟨rfl, rfl⟩
        · have h1 := (hg.node i M h).chain
          have := getElem?_lt h
          simp; omega
        · simp
      · exact new_leaf hg rfl
      · intro hc; exact absurd hc hnok.ne_nil
      · intro p' hp'
        rw [hnok.last] at hp'
        cases hp'
        exact ⟨P, getElem?_snoc.2 (.inl hp), by rw [← hcc], hnok.chain⟩

/-- The path of a node of a chain is a prefix of the path of the chain's tip. -/
theorem prefix_tip (h : Good H cp S T cs) {c : Nat} {ch : Chain} {t : Nat} {N : Node}
    {base own : List Nat} (hc : ChainIs H cp T c ch t N base own) {i : Nat} {M : Node}
    (hM : T[i]? = some M) (hch : M.chain = c) :
    M.path = N.path.take M.path.length ∧ base.length < M.path.length := by
  have hi := (hc.mem i M hM).1 hch
  obtain ⟨k, hk⟩ := List.mem_iff_getElem?.1 hi
  have hkl := getElem?_lt hk
  have e1 : N.path[base.length + k]? = some i := by
    rw [hc.path, List.getElem?_append_right (by omega)]; simpa using hk
  obtain ⟨M', h1, h2⟩ := h.path t N _ i hc.node e1
  rw [hM] at h1; cases h1
  have hl : M.path.length = base.length + k + 1 := by
    rw [h2, List.length_take, hc.path, List.length_append]; omega
  exact ⟨by rw [hl]; exact h2, by omega⟩

theorem base_path (h : Good H cp S T cs) {c : Nat} {ch : Chain} {t : Nat} {N : Node}
    {base own : List Nat} (hc : ChainIs H cp T c ch t N base own) {p : Nat} {P : Node}
    (hb : base.getLast? = some p) (hP : T[p]? = some P) : P.path = base := by
  have hne : 0 < base.length := by
    rcases base with _ | ⟨a, b⟩
    · simp at hb
    · simp
  rw [List.getLast?_eq_getElem?] at hb
  have e1 : N.path[base.length - 1]? = some p := by
    rw [hc.path, List.getElem?_append_left (by omega)]; exact hb
  obtain ⟨M', h1, h2⟩ := h.path t N _ p hc.node e1
  rw [hP] at h1; cases h1
  rw [h2, hc.path, show base.length - 1 + 1 = base.length by omega]
  simp

/-- The storage index of the header of a chain at each height. -/
theorem header_index (h : Good H cp S T cs) (fuel : Nat) : ∀ (c : Nat) (ch : Chain) (t : Nat) (N : Node) (base own : List Nat), cs[c]? = some ch →
    ChainIs H cp T c ch t N base own → c < fuel → ∀ ht : Int,
    Chain.header_index cs fuel c ht =
      if ht < 0 then .error .missingHeader
      else if ht < cp.height then .ok ht.toNat
      else match N.path[(ht - cp.height).toNat]? with
        | some i => .ok (i + cp.height)
        | none => .error .missingHeader := by
  induction fuel with
  | zero => intro c ch t N base own _ _ hc; omega
  | succ fuel ih =>
    intro c ch t N base own hch hci hc ht
    simp only [Chain.header_index, hch, hci.first]
    by_cases hge : ht ≥ ((cp.height + base.length : Nat) : Int)
    · have h1 : ¬ ht < 0 := by omega
      have h2 : ¬ ht < (cp.height : Int) := by omega
      simp only [hge, if_true, h1, h2, if_false, hci.indices, List.getElem?_map]
      rw [hci.path, List.getElem?_append_right (by omega),
        show (ht - (cp.height : Int)).toNat - base.length =
          (ht - ((cp.height + base.length : Nat) : Int)).toNat by omega]
      cases own[(ht - ((cp.height + base.length : Nat) : Int)).toNat]? with
      | none => rfl
      | some i => rfl
    · simp only [hge, if_false]
      rcases hb : base.getLast? with _ | p
      · have hbase : base = [] := by simpa using hb
        have hpar := (hci.root hbase).1
        subst hbase
        simp only [List.length_nil, Nat.add_zero, ge_iff_le, not_le] at hge
        simp only [hpar, hge, if_true]
        by_cases h1 : ht < 0
        · have : ¬ ht ≥ 0 := by omega
          simp only [h1, this, if_true, if_false]
        · have : ht ≥ 0 := by omega
          simp only [h1, this, if_true, if_false]
      · obtain ⟨P, hP, hpar, hlt⟩ := hci.fork p hb
        have hPc := (h.node p P hP).chain
        obtain ⟨ch', hch'⟩ : ∃ ch', cs[P.chain]? = some ch' := ⟨_, List.getElem?_eq_getElem hPc⟩
        obtain ⟨t', N', base', own', hci'⟩ := h.chainIs _ _ hch'
        simp only [hpar]
        rw [ih P.chain ch' t' N' base' own' hch' hci' (by omega) ht]
        have hbp := h.base_path hci hb hP
        have hpt := (h.prefix_tip hci' hP rfl).1
        by_cases h1 : ht < 0
        · simp only [h1, if_true]
        · by_cases h2 : ht < (cp.height : Int)
          · simp only [h1, h2, if_true, if_false]
          · simp only [h1, h2, if_false]
            have hk : (ht - (cp.height : Int)).toNat < base.length := by omega
            have e1 : N.path[(ht - (cp.height : Int)).toNat]? = base[(ht - (cp.height : Int)).toNat]? := by
              rw [hci.path, List.getElem?_append_left hk]
            have e2 : N'.path[(ht - (cp.height : Int)).toNat]? = base[(ht - (cp.height : Int)).toNat]? := by
              rw [← hbp, hpt, List.getElem?_take, hbp, if_pos hk]
            rw [e1, e2]

theorem length_pos (h : Good H cp S T cs) : 0 < T.length := by
  cases h <;> simp

/-- The checkpoint is the first node. -/
theorem root_node (h : Good H cp S T cs) : T[0]? = some ⟨cp.raw_header, [0], 0⟩ := by
  induction h with
  | base => rfl
  | extend hg _ _ _ _ _ _ ih => rw [List.getElem?_append_left hg.length_pos]; exact ih
  | fork hg _ _ _ _ _ ih => rw [List.getElem?_append_left hg.length_pos]; exact ih

/-- Different positions hold different headers. -/
theorem raw_inj (h : Good H cp S T cs) : ∀ (i j : Nat) (N M : Node), T[i]? = some N → T[j]? = some M →
    N.raw = M.raw → i = j := by
  have step : ∀ {T : Tree} {x : Node}, (∀ M ∈ T, M.raw ≠ x.raw) →
      (∀ (i j : Nat) (N M : Node), T[i]? = some N → T[j]? = some M → N.raw = M.raw → i = j) →
      ∀ (i j : Nat) (N M : Node), (T ++ [x])[i]? = some N → (T ++ [x])[j]? = some M → N.raw = M.raw → i = j := by
    intro T x hx ih i j N M hN hM he
    rcases getElem?_snoc.1 hN with h1 | ⟨rfl, rfl⟩ <;> rcases getElem?_snoc.1 hM with h2 | ⟨rfl, rfl⟩
    · exact ih i j N M h1 h2 he
    · exact absurd he (hx N (List.mem_of_getElem? h1))
    · exact absurd he.symm (hx M (List.mem_of_getElem? h2))
    · rfl
  induction h with
  | base hv =>
    intro i j N M hN hM _
    match i, j with
    | 0, 0 => rfl
    | i + 1, _ => simp at hN
    | 0, j + 1 => simp at hM
  | extend hg hp hc hch hv hprev hnew ih => exact step hnew ih
  | fork hg hp hc hv hprev hnew ih => exact step hnew ih

/-- Every node but the first has a parent in the tree, of which it is a child. -/
theorem parent (h : Good H cp S T cs) : ∀ (i : Nat) (N : Node), T[i]? = some N → i ≠ 0 →
    ∃ (p : Nat) (P : Node), T[p]? = some P ∧ N.path = P.path ++ [i] ∧ header_prev_hash N.raw = header_hash H P.raw := by
  have step : ∀ {T : Tree} {p : Nat} {P x : Node}, T[p]? = some P → x.path = P.path ++ [T.length] →
      header_prev_hash x.raw = header_hash H P.raw →
      (∀ (i : Nat) (N : Node), T[i]? = some N → i ≠ 0 → ∃ (p : Nat) (P : Node), T[p]? = some P ∧ N.path = P.path ++ [i] ∧
        header_prev_hash N.raw = header_hash H P.raw) →
      ∀ (i : Nat) (N : Node), (T ++ [x])[i]? = some N → i ≠ 0 → ∃ (p : Nat) (P : Node), (T ++ [x])[p]? = some P ∧ N.path = P.path ++ [i] ∧
        header_prev_hash N.raw = header_hash H P.raw := by
    intro T p P x hp hx hprev ih i N hN hi
    rcases getElem?_snoc.1 hN with h1 | ⟨rfl, rfl⟩
    · obtain ⟨p', P', h2, h3⟩ := ih i N h1 hi
      exact ⟨p', P', getElem?_snoc.2 (.inl h2), h3⟩
    · exact ⟨p, P, getElem?_snoc.2 (.inl hp), hx, hprev⟩
  induction h with
  | base hv =>
    intro i N hN hi
    match i with
    | 0 => exact absurd rfl hi
    | i + 1 => simp at hN
  | extend hg hp hc hch hv hprev hnew ih => exact step hp rfl hprev ih
  | fork hg hp hc hv hprev hnew ih => exact step hp rfl hprev ih

end Good

end Bitcoinx
