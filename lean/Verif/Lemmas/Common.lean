import Verif.Lemmas.Reachable

/-! # Lemmas about `parent_heights` and `common_chain_and_height` -/

namespace Bitcoinx
open Spec

/-- The node at position `k` of the path is in chain `d`. -/
def InChain (T : Tree) (p : List Nat) (d k : Nat) : Prop :=
  ∃ (i : Nat) (M : Node), p[k]? = some i ∧ T[i]? = some M ∧ M.chain = d

/-- The list of pairs gives, for exactly the chains met on the path, the last height there. -/
structure Covers (T : Tree) (cp : CheckPoint) (p : List Nat) (L : List (Nat × Int)) : Prop where
  sound : ∀ (d : Nat) (u : Int), (d, u) ∈ L → ∃ k : Nat, u = ((cp.height + k : Nat) : Int) ∧
    InChain T p d k ∧ ∀ k', k < k' → ¬ InChain T p d k'
  complete : ∀ (d k : Nat), InChain T p d k → ∃ u, (d, u) ∈ L

theorem InChain.lt {T : Tree} {p : List Nat} {d k : Nat} (h : InChain T p d k) : k < p.length := by
  obtain ⟨i, M, h1, _⟩ := h
  exact getElem?_lt h1

theorem InChain.append_left {T : Tree} {b o : List Nat} {d k : Nat} (hk : k < b.length) :
    InChain T (b ++ o) d k ↔ InChain T b d k := by
  unfold InChain
  rw [List.getElem?_append_left hk]

theorem covers_cons {T : Tree} {cp : CheckPoint} {b o : List Nat} {d : Nat} {L : List (Nat × Int)}
    (ho : o ≠ []) (hin : ∀ k, k < o.length → InChain T (b ++ o) d (b.length + k))
    (hout : ∀ k, ¬ InChain T b d k) (hL : Covers T cp b L) :
    Covers T cp (b ++ o) ((d, ((cp.height + (b ++ o).length - 1 : Nat) : Int)) :: L) := by
  have hpos : 0 < o.length := List.length_pos_iff.2 ho
  have other : ∀ (e k : Nat), e ≠ d → InChain T (b ++ o) e k → k < b.length := by
    intro e k hne hk
    by_contra hge
    have hlt := hk.lt
    rw [List.length_append] at hlt
    obtain ⟨i, M, h1, h2, h3⟩ := hin (k - b.length) (by omega)
    rw [show b.length + (k - b.length) = k by omega] at h1
    obtain ⟨i', M', h1', h2', h3'⟩ := hk
    rw [h1] at h1'; cases h1'
    rw [h2] at h2'; cases h2'
    exact hne (by rw [← h3, ← h3'])
  constructor
  · intro e u hm
    rcases List.mem_cons.1 hm with hm | hm
    · cases hm
      refine ⟨(b ++ o).length - 1, by rw [List.length_append]; congr 1; omega, ?_, ?_⟩
      · have := hin (o.length - 1) (by omega)
        rwa [show b.length + (o.length - 1) = (b ++ o).length - 1 by rw [List.length_append]; omega] at this
      · intro k' hk' hc
        have := hc.lt
        omega
    · obtain ⟨k, h1, h2, h3⟩ := hL.sound e u hm
      have hne : e ≠ d := by rintro rfl; exact hout k h2
      refine ⟨k, h1, (InChain.append_left h2.lt).2 h2, fun k' hk' hc => ?_⟩
      have hlt := other e k' hne hc
      exact h3 k' hk' ((InChain.append_left hlt).1 hc)
  · intro e k hk
    by_cases he : e = d
    · subst he; exact ⟨_, List.mem_cons_self⟩
    · obtain ⟨u, hu⟩ := hL.complete e k ((InChain.append_left (other e k he hk)).1 hk)
      exact ⟨u, List.mem_cons_of_mem _ hu⟩

namespace Good
variable {H : Hashes} {cp : CheckPoint} {S : Bytes → Prop} {T : Tree} {cs : List Chain}

theorem own_ne {c : Nat} {ch : Chain} {t : Nat} {N : Node} {base own : List Nat}
    (hc : ChainIs H cp T c ch t N base own) : own ≠ [] := by
  intro h
  have := hc.last
  rw [h] at this; simp at this

/-- The nodes of a chain on the path of its tip. -/
theorem inChain_own (h : Good H cp S T cs) {c : Nat} {ch : Chain} {t : Nat} {N : Node}
    {base own : List Nat} (hc : ChainIs H cp T c ch t N base own) {k : Nat} (hk : k < own.length) :
    InChain T (base ++ own) c (base.length + k) := by
  have e : (base ++ own)[base.length + k]? = some own[k] := by
    rw [List.getElem?_append_right (by omega), Nat.add_sub_cancel_left]
    exact List.getElem?_eq_getElem hk
  have e' := e
  rw [← hc.path] at e'
  obtain ⟨M, hM, _⟩ := h.path t N _ _ hc.node e'
  exact ⟨_, M, e, hM, (hc.mem _ M hM).2 (List.getElem_mem hk)⟩

theorem not_inChain_base (h : Good H cp S T cs) {c : Nat} {ch : Chain} {t : Nat} {N : Node}
    {base own : List Nat} (hc : ChainIs H cp T c ch t N base own) (k : Nat) : ¬ InChain T base c k := by
  rintro ⟨i, M, h1, h2, h3⟩
  have hlt := getElem?_lt h1
  have e : N.path[k]? = some i := by
    rw [hc.path, List.getElem?_append_left hlt]; exact h1
  obtain ⟨M', hM', hp⟩ := h.path t N k i hc.node e
  rw [h2] at hM'; cases hM'
  have := (h.prefix_tip hc h2 h3).2
  rw [hp, List.length_take] at this
  omega

theorem parents_covers (h : Good H cp S T cs) : ∀ (fuel c : Nat) (ch : Chain) (t : Nat) (N : Node)
    (base own : List Nat), c < fuel → ChainIs H cp T c ch t N base own →
    Covers T cp base (Chain.parents_heights cs fuel ch) := by
  intro fuel
  induction fuel with
  | zero => intro c ch t N base own hc; omega
  | succ fuel ih =>
    intro c ch t N base own hlt hc
    cases hb : base.getLast? with
    | none =>
      have hbase := List.getLast?_eq_none_iff.1 hb
      have hroot := (hc.root hbase).1
      rw [Chain.parents_heights, hroot, hbase]
      refine ⟨fun d u hm => by simp at hm, ?_⟩
      rintro d k ⟨i, M, h1, _⟩
      simp at h1
    | some p =>
      obtain ⟨P, hP, hpar, hPc⟩ := hc.fork p hb
      have hPnode := h.node p P hP
      have hPpath := h.base_path hc hb hP
      obtain ⟨t', N', base', own', hc'⟩ := h.chainIs P.chain _ (List.getElem?_eq_getElem hPnode.chain)
      obtain ⟨hpre, hbl⟩ := h.prefix_tip hc' hP rfl
      have ihh := ih P.chain _ t' N' base' own' (by omega) hc'
      have hle := congrArg List.length hpre
      rw [List.length_take, hc'.path, List.length_append] at hle
      have hsplit : base = base' ++ own'.take (base.length - base'.length) := by
        rw [← hPpath, hpre, hc'.path, List.take_append]
        congr 1
        · rw [List.take_of_length_le (by omega)]
        · congr 1
          rw [List.length_append, List.length_take, List.length_take]
          omega
      rw [Chain.parents_heights, hpar]
      simp only [List.getElem?_eq_getElem hPnode.chain]
      have hfirst : ch.first_height - 1 =
          ((cp.height + (base' ++ own'.take (base.length - base'.length)).length - 1 : Nat) : Int) := by
        rw [← hsplit, hc.first]
        have : 0 < base.length := by rw [← hPpath]; exact hPnode.pos
        omega
      rw [hfirst]
      conv => arg 3; rw [hsplit]
      refine covers_cons ?_ ?_ (h.not_inChain_base hc') ihh
      · intro hc0
        have := congrArg List.length hc0
        rw [List.length_take, List.length_nil] at this
        rw [← hPpath] at this
        omega
      · intro k hk
        rw [List.length_take] at hk
        obtain ⟨i, M, h1, h2, h3⟩ := h.inChain_own hc' (k := k) (by omega)
        refine ⟨i, M, ?_, h2, h3⟩
        rw [List.getElem?_append_right (by omega), Nat.add_sub_cancel_left] at h1 ⊢
        rw [List.getElem?_take, if_pos (by omega)]; exact h1

theorem parent_covers (h : Good H cp S T cs) {c : Nat} {ch : Chain} {t : Nat} {N : Node}
    {base own : List Nat} (hch : cs[c]? = some ch) (hc : ChainIs H cp T c ch t N base own) :
    Covers T cp N.path (Chain.parent_heights cs c) := by
  have hpos : 0 < own.length := List.length_pos_iff.2 (own_ne hc)
  have hheight : ch.height = ((cp.height + (base ++ own).length - 1 : Nat) : Int) := by
    rw [Chain.height, hc.first, hc.indices, List.length_map, List.length_append]
    omega
  rw [Chain.parent_heights, hch]
  simp only [hheight]
  rw [hc.path]
  exact covers_cons (own_ne hc) (fun k hk => h.inChain_own hc hk) (h.not_inChain_base hc)
    (h.parents_covers _ c ch t N base own (getElem?_lt hch) hc)

/-- Nodes of one chain on two paths: the shorter path up to there is a prefix. -/
theorem inChain_agree (h : Good H cp S T cs) {a b : Nat} {Na Nb : Node} (ha : T[a]? = some Na)
    (hb : T[b]? = some Nb) {d ka kb : Nat} (h1 : InChain T Na.path d ka) (h2 : InChain T Nb.path d kb)
    (hk : ka ≤ kb) : Na.path.take (ka + 1) = Nb.path.take (ka + 1) := by
  obtain ⟨i, M, p1, p2, p3⟩ := h1
  obtain ⟨j, M', q1, q2, q3⟩ := h2
  obtain ⟨X, hX, hXp⟩ := h.path a Na ka i ha p1
  rw [p2] at hX; cases hX
  obtain ⟨Y, hY, hYp⟩ := h.path b Nb kb j hb q1
  rw [q2] at hY; cases hY
  subst p3
  obtain ⟨t, N, base, own, hci⟩ := h.chainIs M.chain _ (List.getElem?_eq_getElem (h.node i M p2).chain)
  obtain ⟨e1, _⟩ := h.prefix_tip hci p2 rfl
  obtain ⟨e2, _⟩ := h.prefix_tip hci q2 q3
  have l1 := getElem?_lt p1
  have l2 := getElem?_lt q1
  have m1 : M.path.length = ka + 1 := by rw [hXp, List.length_take]; omega
  have m2 : M'.path.length = kb + 1 := by rw [hYp, List.length_take]; omega
  have f1 : Na.path.take (ka + 1) = N.path.take (ka + 1) := by rw [← hXp, e1, m1]
  have f2 : Nb.path.take (kb + 1) = N.path.take (kb + 1) := by rw [← hYp, e2, m2]
  rw [f1]
  have := congrArg (List.take (ka + 1)) f2
  rw [List.take_take, List.take_take, min_eq_left (by omega)] at this
  exact this.symm

/-- A common node of two paths is at the same position, and the paths agree up to it. -/
theorem common_prefix (h : Good H cp S T cs) {a b : Nat} {Na Nb : Node} (ha : T[a]? = some Na)
    (hb : T[b]? = some Nb) {ka kb i : Nat} (h1 : Na.path[ka]? = some i) (h2 : Nb.path[kb]? = some i) :
    ka = kb ∧ Na.path.take (ka + 1) = Nb.path.take (ka + 1) := by
  obtain ⟨X, hX, hXp⟩ := h.path a Na ka i ha h1
  obtain ⟨Y, hY, hYp⟩ := h.path b Nb kb i hb h2
  rw [hX] at hY; cases hY
  have l1 := getElem?_lt h1
  have l2 := getElem?_lt h2
  have e := congrArg List.length (hXp.symm.trans hYp)
  rw [List.length_take, List.length_take] at e
  have : ka = kb := by omega
  subst this
  exact ⟨rfl, hXp.symm.trans hYp⟩

end Good

/-- The best common entry found by the loop. -/
theorem common_loop_spec (other : List (Nat × Int)) :
    ∀ (L : List (Nat × Int)) (res : Option Nat × Int),
      (Chain.common_loop other res L = res ∨ ∃ d u v, (d, u) ∈ L ∧ dictGet other d = some v ∧
        Chain.common_loop other res L = (some d, min v u)) ∧
      res.2 ≤ (Chain.common_loop other res L).2 ∧
      ∀ d u v, (d, u) ∈ L → dictGet other d = some v → min v u ≤ (Chain.common_loop other res L).2 := by
  intro L
  induction L with
  | nil => intro res; exact ⟨.inl rfl, le_refl _, by simp⟩
  | cons x L ih =>
    intro res
    obtain ⟨d, u⟩ := x
    cases hd : dictGet other d with
    | none =>
      simp only [Chain.common_loop, hd]
      obtain ⟨h1, h2, h3⟩ := ih res
      refine ⟨?_, h2, ?_⟩
      · rcases h1 with h1 | ⟨e, u', v, hm, hv, h1⟩
        · exact .inl h1
        · exact .inr ⟨e, u', v, List.mem_cons_of_mem _ hm, hv, h1⟩
      · intro e u' v hm hv
        rcases List.mem_cons.1 hm with hm | hm
        · cases hm; rw [hd] at hv; cases hv
        · exact h3 e u' v hm hv
    | some v =>
      simp only [Chain.common_loop, hd]
      by_cases hgt : min v u > res.2
      · simp only [hgt, if_true]
        obtain ⟨h1, h2, h3⟩ := ih (some d, min v u)
        refine ⟨?_, by simp only at h2; omega, ?_⟩
        · right
          rcases h1 with h1 | ⟨e, u', v', hm, hv, h1⟩
          · exact ⟨d, u, v, List.mem_cons_self, hd, h1⟩
          · exact ⟨e, u', v', List.mem_cons_of_mem _ hm, hv, h1⟩
        · intro e u' v' hm hv
          rcases List.mem_cons.1 hm with hm | hm
          · cases hm; rw [hd] at hv; cases hv; exact h2
          · exact h3 e u' v' hm hv
      · simp only [hgt, if_false]
        obtain ⟨h1, h2, h3⟩ := ih res
        refine ⟨?_, h2, ?_⟩
        · rcases h1 with h1 | ⟨e, u', v', hm, hv, h1⟩
          · exact .inl h1
          · exact .inr ⟨e, u', v', List.mem_cons_of_mem _ hm, hv, h1⟩
        · intro e u' v' hm hv
          rcases List.mem_cons.1 hm with hm | hm
          · cases hm; rw [hd] at hv; cases hv; omega
          · exact h3 e u' v' hm hv

theorem dictGet_some {κ ν : Type} [DecidableEq κ] {d : List (κ × ν)} {k : κ} {v : ν} (h : (k, v) ∈ d) :
    ∃ v', dictGet d k = some v' := by
  unfold dictGet
  cases hf : d.find? (fun e => e.1 = k) with
  | some e => exact ⟨e.2, rfl⟩
  | none =>
    have := List.find?_eq_none.1 hf (k, v) h
    simp at this

/-- The result: the last common node of the two paths, by its chain and height. -/
theorem common_spec {H : Hashes} {cp : CheckPoint} {S : Bytes → Prop} {T : Tree} {cs : List Chain}
    (h : Good H cp S T cs) {a b : Nat} {ca cb : Chain} {ta tb : Nat} {Na Nb : Node}
    {basea owna baseb ownb : List Nat} (ha : cs[a]? = some ca) (hb : cs[b]? = some cb)
    (hca : Good.ChainIs H cp T a ca ta Na basea owna) (hcb : Good.ChainIs H cp T b cb tb Nb baseb ownb) :
    ∃ (k i : Nat) (M : Node), T[i]? = some M ∧ Na.path[k]? = some i ∧ Nb.path[k]? = some i ∧
      Na.path.take (k + 1) = Nb.path.take (k + 1) ∧
      (∀ j ja jb : Nat, Na.path[ja]? = some j → Nb.path[jb]? = some j → ja ≤ k) ∧
      Chain.common_chain_and_height cs a b = (some M.chain, ((cp.height + k : Nat) : Int)) := by
  have cov_a := h.parent_covers ha hca
  have cov_b := h.parent_covers hb hcb
  have hget : ∀ d v, dictGet (Chain.parent_heights cs b) d = some v →
      (d, v) ∈ Chain.parent_heights cs b := fun d v hd => dictGet_mem hd
  -- every candidate entry names a common node
  have cand : ∀ d u v, (d, u) ∈ Chain.parent_heights cs a → dictGet (Chain.parent_heights cs b) d = some v →
      ∃ (k i : Nat) (M : Node), min v u = ((cp.height + k : Nat) : Int) ∧ T[i]? = some M ∧ M.chain = d ∧
        Na.path[k]? = some i ∧ Nb.path[k]? = some i := by
    intro d u v hu hv
    obtain ⟨ka, rfl, ia, _⟩ := cov_a.sound d u hu
    obtain ⟨kb, rfl, ib, _⟩ := cov_b.sound d v (hget d v hv)
    rcases Nat.le_total ka kb with hle | hle
    · have hag := h.inChain_agree hca.node hcb.node ia ib hle
      obtain ⟨i, M, p1, p2, p3⟩ := ia
      refine ⟨ka, i, M, by omega, p2, p3, p1, ?_⟩
      have := congrArg (fun l => l[ka]?) hag
      simp only [List.getElem?_take, Nat.lt_succ_self, if_true] at this
      rw [← this]; exact p1
    · have hag := h.inChain_agree hcb.node hca.node ib ia hle
      obtain ⟨i, M, p1, p2, p3⟩ := ib
      refine ⟨kb, i, M, by omega, p2, p3, ?_, p1⟩
      have := congrArg (fun l => l[kb]?) hag
      simp only [List.getElem?_take, Nat.lt_succ_self, if_true] at this
      rw [← this]; exact p1
  -- every common node is below some candidate
  have comp : ∀ j ja jb : Nat, Na.path[ja]? = some j → Nb.path[jb]? = some j →
      ∃ d u v, (d, u) ∈ Chain.parent_heights cs a ∧ dictGet (Chain.parent_heights cs b) d = some v ∧
        ((cp.height + ja : Nat) : Int) ≤ min v u := by
    intro j ja jb h1 h2
    obtain ⟨rfl, _⟩ := h.common_prefix hca.node hcb.node h1 h2
    obtain ⟨M, hM, _⟩ := h.path ta Na ja j hca.node h1
    have ia : InChain T Na.path M.chain ja := ⟨j, M, h1, hM, rfl⟩
    have ib : InChain T Nb.path M.chain ja := ⟨j, M, h2, hM, rfl⟩
    obtain ⟨u, hu⟩ := cov_a.complete _ _ ia
    obtain ⟨v0, hv0⟩ := cov_b.complete _ _ ib
    obtain ⟨v, hv⟩ := dictGet_some hv0
    refine ⟨M.chain, u, v, hu, hv, ?_⟩
    obtain ⟨ka, rfl, _, ma⟩ := cov_a.sound _ u hu
    obtain ⟨kb, rfl, _, mb⟩ := cov_b.sound _ v (hget _ v hv)
    have : ja ≤ ka := by by_contra hc; exact ma ja (by omega) ia
    have : ja ≤ kb := by by_contra hc; exact mb ja (by omega) ib
    omega
  have h0a := (h.node ta Na hca.node).head
  have h0b := (h.node tb Nb hcb.node).head
  obtain ⟨s1, _, s3⟩ := common_loop_spec (Chain.parent_heights cs b) (Chain.parent_heights cs a) (none, -1)
  obtain ⟨d0, u0, v0, m1, m2, m3⟩ := comp 0 0 0 h0a h0b
  have hbig := s3 d0 u0 v0 m1 m2
  rcases s1 with s1 | ⟨d, u, v, hu, hv, s1⟩
  · rw [s1] at hbig
    simp only at hbig
    omega
  · obtain ⟨k, i, M, e1, e2, e3, e4, e5⟩ := cand d u v hu hv
    refine ⟨k, i, M, e2, e4, e5, (h.common_prefix hca.node hcb.node e4 e5).2, ?_, ?_⟩
    · intro j ja jb h1 h2
      obtain ⟨d', u', v', n1, n2, n3⟩ := comp j ja jb h1 h2
      have := s3 d' u' v' n1 n2
      rw [s1] at this
      simp only at this
      omega
    · rw [Chain.common_chain_and_height, s1, e1, e3]

end Bitcoinx
