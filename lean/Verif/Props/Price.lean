import Verif.Props.Minimum
import Verif.Props.Order

/-! # C124: what can be stored in a collection, and at what price -/

namespace Bitcoinx
open Spec

/-- There are fewer chains than headers, unless there is one header only. -/
theorem Good.chains_le {H : Hashes} {cp : CheckPoint} {S : Bytes → Prop} {T : Tree} {cs : List Chain}
    (h : Good H cp S T cs) : T.length = 1 ∧ cs.length = 1 ∨ cs.length + 1 ≤ T.length := by
  induction h with
  | base _ => exact .inl ⟨rfl, rfl⟩
  | extend _ _ _ _ _ _ _ ih =>
    right
    rw [List.length_set, List.length_append, List.length_singleton]
    omega
  | @fork T cs p P raw hg hp hc _ _ _ ih =>
    right
    rw [List.length_append, List.length_append, List.length_singleton, List.length_singleton]
    rcases ih with ⟨h1, _⟩ | ih
    · obtain ⟨q, Q, hQ, hpath⟩ := hc
      have hq := getElem?_lt hQ
      have hlen := (hg.node _ _ hQ).len
      have hP := (hg.node _ _ hp).pos
      rw [hpath, List.length_append, List.length_singleton] at hlen
      omega
    · omega

section
variable {H : Hashes} {coin : Coin} {cp : CheckPoint} {S : Bytes → Prop} {s : Headers} {A : List Bytes}

/-- **C124** (size).  A collection stores each header that it has accepted once, however often it was connected, and nothing
else above the checkpoint; and with `n` headers besides the checkpoint's it has at most `n` chains (and one if `n` is 0). -/
theorem C124_size (he : Env H cp S) (hr : Reachable H coin cp S s A) :
    ∃ D : List Bytes, (cp.raw_header :: D).Nodup ∧ (∀ x, x ∈ cp.raw_header :: D ↔ x ∈ A) ∧
      s.len = .ok (cp.height + 1 + D.length) ∧ s.chains.length ≤ max 1 D.length := by
  obtain ⟨T, hI, rfl, rfl, rfl, hA⟩ := reachable_inv he hr
  have nd : (T.map Node.raw).Nodup := by
    rw [List.Nodup, List.pairwise_iff_getElem]
    intro a b ha hb hab heq
    rw [List.length_map] at ha hb
    rw [List.getElem_map, List.getElem_map] at heq
    have := hI.good.raw_inj _ _ _ _ (List.getElem?_eq_getElem ha) (List.getElem?_eq_getElem hb) heq
    omega
  have hmem : ∀ x, x ∈ T.map Node.raw ↔ x ∈ A := by
    intro x
    rw [hA, List.mem_map]
    simp only [List.mem_iff_getElem? (l := T)]
    constructor
    · rintro ⟨N, ⟨i, hi⟩, h⟩; exact ⟨i, N, hi, h⟩
    · rintro ⟨i, N, hi, h⟩; exact ⟨N, ⟨i, hi⟩, h⟩
  have hroot := hI.good.root_node
  have hle := Good.chains_le hI.good
  have hlen := hI.len
  cases T with
  | nil => simp at hroot
  | cons R T =>
    rw [List.getElem?_cons_zero] at hroot
    cases hroot
    refine ⟨T.map Node.raw, nd, hmem, ?_, ?_⟩
    · rw [hlen, List.length_cons, List.length_map]
      congr 1
      push_cast
      omega
    · rw [List.length_map]
      rw [List.length_cons] at hle
      omega

/-- **C124** (price).  Every header stored above the checkpoint has a hash not above the coin's highest target.  So nobody
can make a collection store `n` headers, or have `n` chains if `n` is 2 or more, without finding `n` such hashes (of different headers);
the room for chains is full after 65536 of them at the earliest. -/
theorem C124_price (he : Env H cp S) (h : Primed H coin cp S s A) (hcoin : coin ∈ all_coins)
    (hold : cp.height < daaHeight coin.required_bits → ∀ (c : Nat) (ch : Chain), s.chains[c]? = some ch →
      ∀ k : Int, cp.height - 2016 < k → k ≤ cp.height → CappedAt (s.view c) coin.max_target k) :
    ∃ D : List Bytes, D.Nodup ∧ s.len = .ok (cp.height + 1 + D.length) ∧ s.chains.length ≤ max 1 D.length ∧
      (65536 ≤ s.chains.length → 65536 ≤ D.length) ∧
      ∀ x ∈ D, x ∈ A ∧ leValue (header_hash H x) ≤ coin.max_target := by
  obtain ⟨D, d1, d2, d3, d4⟩ := C124_size he h.reachable
  refine ⟨D, (List.nodup_cons.1 d1).2, d3, d4, by omega, ?_⟩
  intro x hx
  have hxA : x ∈ A := (d2 x).1 (by simp [hx])
  refine ⟨hxA, ?_⟩
  have hne : x ≠ cp.raw_header := by
    rintro rfl
    exact (List.nodup_cons.1 d1).1 hx
  obtain ⟨hd, c, ch, f1, _, f3, f4, f5, f6, f7⟩ := C23_lookup he h.reachable x hxA
  have hgt : (cp.height : Int) < hd.height := by
    rcases f7 with ⟨h1, _⟩ | _
    · exact absurd h1 hne
    · obtain ⟨T, hI, rfl, rfl, rfl, hA⟩ := reachable_inv he h.reachable
      obtain ⟨i, N, hN, hraw⟩ := (hA x).1 hxA
      have := hI.toDesc.lookup_found hI.env.inj hN
      rw [hraw, f1] at this
      have hh := (mkHeader_fields (H := s.H) (nodeHeight s.checkpoint N) (hI.toDesc.valid hN).length).2.1
      have e := congrArg Header.height (Prod.mk.inj (Except.ok.inj this)).1
      rw [← hraw] at e
      rw [hh] at e
      have hl : 2 ≤ N.path.length := by
        by_contra hcon
        have hk := hI.good.node _ _ hN
        have hp := hk.pos
        have h1 : N.path.length = 1 := by omega
        obtain ⟨a, ha⟩ := List.length_eq_one_iff.1 h1
        have q1 := hk.last
        have q2 := hk.head
        rw [ha] at q1 q2
        simp only [List.getLast?_singleton, List.getElem?_cons_zero, Option.some.injEq] at q1 q2
        subst q1
        subst q2
        rw [hI.good.root_node] at hN
        cases hN
        exact hne hraw.symm
      rw [e, nodeHeight]
      omega
  obtain ⟨raw, bits, t, k1, k2, k3, k4, k5⟩ := C120_collection he h hcoin c ch f3 (fun h0 => hold h0 c ch f3) hd.height hgt f5
  rw [f6] at k1
  cases Except.ok.inj k1
  exact k4.trans k5
end

/-- A collection with a header above the checkpoint: what `C124_size` and `C124_price` ask for. -/
example : ∃ s, Primed toyHashes Bitcoin ChainExample.cp ChainExample.S s [ChainExample.raw0, ChainExample.raw1] ∧
    Bitcoin ∈ all_coins ∧ ∀ (c : Nat) (ch : Chain), s.chains[c]? = some ch →
      ∀ k : Int, ChainExample.cp.height - 2016 < k → k ≤ ChainExample.cp.height → CappedAt (s.view c) Bitcoin.max_target k := by
  obtain ⟨s, s', r, h1, h2, h3⟩ := ChainExample.first
  have hS1 : ChainExample.S ChainExample.raw1 := by simp [ChainExample.S]
  have hr' := Reachable.accept h1 hS1 h2 h3
  refine ⟨s', Primed.accept (.start h1) hS1 h2 h3, by simp [all_coins], ?_⟩
  intro c ch g3
  have ht := (C24_tip ChainExample.env hr' c ch g3).1
  have hcp : ((ChainExample.cp.height : Nat) : Int) = 0 := rfl
  rw [hcp] at ht
  obtain ⟨x, x1, _, _, x4, x5, _⟩ := C24_linked ChainExample.env hr' c ch g3 0 (by rw [hcp]) ht
  obtain ⟨raw, y1, y2⟩ := bind_eq_ok.mp x1
  have hraw : raw = ChainExample.raw0 := by
    rw [← (deserialized_header_fields y2).2.1]
    exact x5 hcp.symm
  subst hraw
  have y1 : s'.raw_header_at_height c 0 = .ok ChainExample.raw0 := y1
  rintro k _ hk bits t ⟨raw, z1, z2, z3⟩
  have z1 : s'.raw_header_at_height c k = .ok raw := z1
  by_cases h0 : k = 0
  · subst h0
    rw [y1] at z1; cases z1
    have e : header_bits ChainExample.raw0 = .ok 0x1d00ffff := by decide +kernel
    have hb := Except.ok.inj (e.symm.trans z2)
    subst hb
    have e' : bits_to_target 0x1d00ffff = .ok Bitcoin.max_target := by decide +kernel
    exact (Except.ok.inj (e'.symm.trans z3)).ge
  · rw [(C24_outside ChainExample.env hr' c ch g3 k (.inl (by rw [hcp] at hk; omega))).2] at z1
    cases z1

end Bitcoinx
