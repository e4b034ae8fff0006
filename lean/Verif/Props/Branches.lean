import Verif.Props.Reorg
import Verif.Props.History

/-! # C122: what a change of the longest chain costs -/

namespace Bitcoinx
open Spec

section
variable {H : Hashes} {coin : Coin} {cp : CheckPoint} {S : Bytes → Prop} {s s' : Headers} {A : List Bytes}

/-- **C122** (branches).  The work of two chains compares as the work of their headers above the point where they fork. -/
theorem C122_branches (he : Env H cp S) (hr : Reachable H coin cp S s A) (a b : Nat) (ca cb : Chain)
    (ha : s.chains[a]? = some ca) (hb : s.chains[b]? = some cb) :
    ∃ (c : Nat) (h : Int) (Wa Wb : Nat), Chain.common_chain_and_height s.chains a b = (some c, h) ∧
      s.chainwork_range a (h + 1) (ca.height + 1) = .ok Wa ∧ s.chainwork_range b (h + 1) (cb.height + 1) = .ok Wb ∧
      ca.work - cb.work = (Wa : Int) - Wb := by
  obtain ⟨T, hI, rfl, rfl, rfl, hA⟩ := reachable_inv he hr
  obtain ⟨ta, Na, basea, owna, hca⟩ := hI.toDesc.chain_at ha
  obtain ⟨tb, Nb, baseb, ownb, hcb⟩ := hI.toDesc.chain_at hb
  obtain ⟨k, i, M, hM, e1, e2, e3, e4, e5⟩ := common_spec hI.good ha hb hca hcb
  have hha := (hI.toDesc.height_eq hca).1
  have hhb := (hI.toDesc.height_eq hcb).1
  have hpa := (hI.good.node _ _ hca.node).pos
  have hpb := (hI.good.node _ _ hcb.node).pos
  have ra := hI.toDesc.chainwork_range ha hca (k + 1) Na.path.length (le_refl _)
  have rb := hI.toDesc.chainwork_range hb hcb (k + 1) Nb.path.length (le_refl _)
  have split : ∀ p : List Nat, totalWork T p = totalWork T (p.take (k + 1)) + totalWork T (slice p (k + 1) p.length) := by
    intro p
    rw [← Good.totalWork_append]
    congr 1
    simp [slice]
  refine ⟨M.chain, _, totalWork T (slice Na.path (k + 1) Na.path.length), totalWork T (slice Nb.path (k + 1) Nb.path.length),
    e5, ?_, ?_, ?_⟩
  · rw [hha, nodeHeight]
    rw [← ra]
    congr 1
    push_cast
    omega
  · rw [hhb, nodeHeight]
    rw [← rb]
    congr 1
    push_cast
    omega
  · rw [hca.work, hcb.work]
    have sa := split Na.path
    have sb := split Nb.path
    rw [e3] at sa
    push_cast
    omega

/-- **C122** (what was followed).  At any later time, the chain that was the longest and the one that is the longest now have
a point where they fork; the headers up to it are the same, none above it are, and the headers of the new longest chain
above it have at least the work of the headers of the old one above it. -/
theorem C122_reorg (he : Env H cp S) (hr : Reachable H coin cp S s A) (hl : Later H coin cp S s s') :
    ∃ m m' x x', s.longest_chain = .ok m ∧ s'.longest_chain = .ok m' ∧ s.chains[m]? = some x ∧ s'.chains[m']? = some x' ∧
      ∃ (c : Nat) (h : Int) (W W' : Nat), Chain.common_chain_and_height s'.chains m m' = (some c, h) ∧
        (∀ k : Int, cp.height ≤ k → k ≤ x.height → k ≤ h → s'.header_at_height m' k = s.header_at_height m k) ∧
        (∀ k r r', (cp.height : Int) ≤ k → h < k → s.raw_header_at_height m k = .ok r →
          s'.raw_header_at_height m' k = .ok r' → k ≤ x.height → r ≠ r') ∧
        s.chainwork_range m (h + 1) (x.height + 1) = .ok W ∧ s'.chainwork_range m' (h + 1) (x'.height + 1) = .ok W' ∧
        W ≤ W' := by
  obtain ⟨L, hr'⟩ := later_reachable hr hl
  obtain ⟨m, x, a1, a2, a3, _⟩ := C32_longest s (C32_reachable he hr)
  obtain ⟨m', x', b1, b2, b3, _⟩ := C32_longest s' (C32_reachable he hr')
  obtain ⟨y, y1, _, _, y4, _, _, y7⟩ := C97_chain he hr hl m x a2
  obtain ⟨c, h, Wm, W', g1, g2, g3, g4⟩ := C122_branches he hr' m m' y x' y1 b2
  obtain ⟨c', h', ch', f1, _, _, _, _, f6, f7, f8, f9, f10⟩ := C33_fork_point he hr' m m' y x' y1 b2
  rw [g1] at f1
  obtain ⟨rfl, rfl⟩ := Prod.mk.inj f1 |>.imp (fun h => Option.some.inj h) id
  have hraw : ∀ k : Int, cp.height ≤ k → k ≤ x.height →
      s'.raw_header_at_height m k = s.raw_header_at_height m k ∧ ∃ r, s.raw_header_at_height m k = .ok r := by
    intro k k1 k2
    obtain ⟨hd, d1, _⟩ := C24_linked he hr m x a2 k k1 k2
    have d2 := (y7 k k1 k2).1
    rw [d1] at d2
    obtain ⟨r, r1, r2⟩ := bind_eq_ok.mp d1
    obtain ⟨r', r1', r2'⟩ := bind_eq_ok.mp d2
    have r1 : s.raw_header_at_height m k = .ok r := r1
    have r1' : s'.raw_header_at_height m k = .ok r' := r1'
    have e := (deserialized_header_fields r2).2.1
    have e' := (deserialized_header_fields r2').2.1
    rw [r1, r1', ← e, ← e']
    exact ⟨rfl, _, rfl⟩
  have hsame : s.chainwork_range m (h + 1) (x.height + 1) = s'.chainwork_range m (h + 1) (x.height + 1) := by
    simp only [Headers.chainwork_range, ChainView.chainwork_range]
    congr 1
    apply mapE_congr
    intro k hk
    rw [mem_pyRange] at hk
    have := (hraw k (by omega) (by omega)).1
    show (do let raw ← s.raw_header_at_height m k; header_work raw) = (do let raw ← s'.raw_header_at_height m k; header_work raw)
    rw [this]
  have hW : ∃ W, s'.chainwork_range m (h + 1) (x.height + 1) = .ok W ∧ W ≤ Wm := by
    obtain ⟨T, hI, rfl, hsc, rfl, hA⟩ := reachable_inv he hr'
    obtain ⟨t, N, base, own, hci⟩ := hI.toDesc.chain_at y1
    have hh := (hI.toDesc.height_eq hci).1
    have hp := (hI.good.node _ _ hci.node).pos
    have hx := (C24_tip he hr m x a2).1
    rw [nodeHeight] at hh
    have ra := hI.toDesc.chainwork_range y1 hci (h + 1 - s'.checkpoint.height).toNat
      (x.height + 1 - s'.checkpoint.height).toNat (by omega)
    have rb := hI.toDesc.chainwork_range y1 hci (h + 1 - s'.checkpoint.height).toNat N.path.length (le_refl _)
    rw [show (((s'.checkpoint.height + (h + 1 - s'.checkpoint.height).toNat : Nat)) : Int) = h + 1 by omega] at ra rb
    rw [show (((s'.checkpoint.height + (x.height + 1 - s'.checkpoint.height).toNat : Nat)) : Int) = x.height + 1 by omega] at ra
    rw [show (((s'.checkpoint.height + N.path.length : Nat)) : Int) = y.height + 1 by omega, g2] at rb
    refine ⟨_, ra, ?_⟩
    rw [Except.ok.inj rb]
    generalize (h + 1 - s'.checkpoint.height).toNat = i
    have hj : (x.height + 1 - s'.checkpoint.height).toNat ≤ N.path.length := by omega
    generalize (x.height + 1 - s'.checkpoint.height).toNat = j at hj
    have e : slice N.path i N.path.length = slice N.path i j ++ (slice N.path i N.path.length).drop (j - i) := by
      simp only [slice, List.take_length, List.drop_take]
      exact (List.take_append_drop _ _).symm
    rw [e, Good.totalWork_append]
    omega
  obtain ⟨W, hW1, hW2⟩ := hW
  refine ⟨m, m', x, x', a1, b1, a2, b2, c, h, W, W', g1, ?_, ?_, hsame.trans hW1, g3, ?_⟩
  · intro k k1 k2 k3
    rw [← (y7 k k1 k2).1]
    have := (f9 k k3).1
    simp only [Headers.header_at_height, ChainView.header_at_height]
    show (do let raw ← s'.raw_header_at_height m' k; deserialized_header s'.H raw k) =
      (do let raw ← s'.raw_header_at_height m k; deserialized_header s'.H raw k)
    rw [this]
  · intro k r r' k1 k2 h1 h2 k3
    exact f10 k k r r' k1 k1 (.inl k2) ((hraw k k1 k3).1.trans h1) h2
  · have := b3 m y y1
    omega
end

open ChainExample (raw0 raw1 raw2 raw3 cp) in
open TieExample (S env) in
/-- A collection with two chains whose longest one changes from the second to the first, at equal work above the point where
they fork. -/
example : ∃ s s', Reachable toyHashes Bitcoin cp S s [raw0, raw1, raw2, raw3] ∧ Later toyHashes Bitcoin cp S s s' ∧
    s.longest_chain = .ok 1 ∧ s'.longest_chain = .ok 0 ∧
    ∃ (c0 c1 : Chain) (c : Nat) (h : Int) (W : Nat), s'.chains[0]? = some c0 ∧ s'.chains[1]? = some c1 ∧
      Chain.common_chain_and_height s'.chains 1 0 = (some c, h) ∧
      s'.chainwork_range 1 (h + 1) (c1.height + 1) = .ok W ∧ s'.chainwork_range 0 (h + 1) (c0.height + 1) = .ok W := by
  obtain ⟨s, s', hd, r, room, m, hc, l1, l2, _, w⟩ := C121_tie
  have hl : Later toyHashes Bitcoin cp S s s' := .connect .now m room hc
  refine ⟨s, s', r, hl, l1, l2, ?_⟩
  obtain ⟨L, r'⟩ := later_reachable r hl
  have h0 : (s'.chains.map Chain.work)[0]? = some (3 * 4295032833) := by rw [w]; rfl
  have h1 : (s'.chains.map Chain.work)[1]? = some (3 * 4295032833) := by rw [w]; rfl
  rw [List.getElem?_map, Option.map_eq_some_iff] at h0 h1
  obtain ⟨c0, p0, q0⟩ := h0
  obtain ⟨c1, p1, q1⟩ := h1
  obtain ⟨c, h, Wa, Wb, g1, g2, g3, g4⟩ := C122_branches env r' 1 0 c1 c0 p1 p0
  have : Wb = Wa := by omega
  exact ⟨c0, c1, c, h, Wa, p0, p1, g1, g2, this ▸ g3⟩

end Bitcoinx
