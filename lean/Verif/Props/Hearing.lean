import Mathlib.Data.List.Perm.Subperm
import Verif.Props.Order
import Verif.Props.Reorg
import Verif.Spec.Hearing

/-! # C123: one honest source of headers is enough -/

namespace Bitcoinx
open Spec

section
variable {H : Hashes} {coin : Coin} {cp : CheckPoint} {S : Bytes → Prop} {s s' t t' : Headers} {A A' : List Bytes}

/-- **C123** (more headers).  A collection that has accepted all the headers of another one, and perhaps more, has for each
chain of that one a chain with the same headers up to its tip and at least its work; so its longest chain has at least the
work of the other's. -/
theorem C123_more (he : Env H cp S) (hr : Reachable H coin cp S s A) (hr' : Reachable H coin cp S s' A')
    (hsub : ∀ x ∈ A, x ∈ A') :
    (∀ (c : Nat) (ch : Chain), s.chains[c]? = some ch → ∃ (c' : Nat) (ch' : Chain), s'.chains[c']? = some ch' ∧
      ch.height ≤ ch'.height ∧ ch.work ≤ ch'.work ∧
      ∀ k : Int, cp.height ≤ k → k ≤ ch.height → s.raw_header_at_height c k = s'.raw_header_at_height c' k) ∧
    ∃ m m' x x', s.longest_chain = .ok m ∧ s'.longest_chain = .ok m' ∧ s.chains[m]? = some x ∧
      s'.chains[m']? = some x' ∧ x.work ≤ x'.work := by
  have hall : ∀ (c : Nat) (ch : Chain), s.chains[c]? = some ch → ∃ (c' : Nat) (ch' : Chain), s'.chains[c']? = some ch' ∧
      ch.height ≤ ch'.height ∧ ch.work ≤ ch'.work ∧
      ∀ k : Int, cp.height ≤ k → k ≤ ch.height → s.raw_header_at_height c k = s'.raw_header_at_height c' k := by
    intro c ch hc
    obtain ⟨T, hI, rfl, rfl, rfl, hA⟩ := reachable_inv he hr
    obtain ⟨T', hI', hH, _, hcp, hA'⟩ := reachable_inv he hr'
    obtain ⟨u, N, base, own, hci⟩ := hI.toDesc.chain_at hc
    obtain ⟨j, N', hN', hraw⟩ := (hA' N.raw).1 (hsub _ ((hA _).2 ⟨u, N, hci.node, rfl⟩))
    obtain ⟨ch', hch'⟩ := hI'.toDesc.chain_exists hN'
    obtain ⟨u', M, base', own', hci'⟩ := hI'.toDesc.chain_at hch'
    have hpos := (hI.good.node _ _ hci.node).pos
    have hpre := (hI'.good.prefix_tip hci' hN' rfl).1
    have hlen : N'.path.length ≤ M.path.length := by
      have := congrArg List.length hpre
      rw [List.length_take] at this
      omega
    have hp := paths_eq hI hI' hH hcp _ u j N N' hci.node hN' hraw.symm (le_refl _)
    have hpl : N.path.length = N'.path.length := by simpa using congrArg List.length hp
    refine ⟨N'.chain, ch', hch', ?_, ?_, ?_⟩
    · rw [(hI'.toDesc.height_eq hci').1, (hI.toDesc.height_eq hci).1, nodeHeight, nodeHeight, hcp]
      omega
    · rw [hci'.work, hci.work, hcp, totalWork_same hp]
      have : totalWork T' M.path = totalWork T' N'.path + totalWork T' (M.path.drop N'.path.length) := by
        conv_lhs => rw [← List.take_append_drop N'.path.length M.path]
        rw [Good.totalWork_append, ← hpre]
      push_cast at this ⊢
      omega
    · intro k h1 h2
      rw [(hI.toDesc.height_eq hci).1, nodeHeight] at h2
      obtain ⟨m, rfl⟩ : ∃ m : Nat, k = ((s.checkpoint.height + m : Nat) : Int) :=
        ⟨(k - s.checkpoint.height).toNat, by omega⟩
      have := raw_same hI hI' hH hcp hci.node hN' hraw.symm m (by omega)
      rwa [hci.chain] at this
  refine ⟨hall, ?_⟩
  obtain ⟨m, x, a1, a2, a3, _⟩ := C32_longest s (C32_reachable he hr)
  obtain ⟨m', x', b1, b2, b3, _⟩ := C32_longest s' (C32_reachable he hr')
  obtain ⟨c', ch', d1, _, d2, _⟩ := hall m x a2
  exact ⟨m, m', x, x', a1, b1, a2, b2, d2.trans (b3 c' ch' d1)⟩

/-- What is accepted of a sequence that contains an honest one. -/
theorem hears_reachable (he : Env H cp S) {M : List Bytes} (hh : Hears s' M t') :
    ∀ {s t : Headers} {A A' L : List Bytes}, Reachable H coin cp S s A → Reachable H coin cp S s' A' →
      (∀ x ∈ A, x ∈ A') → (∀ i : Nat, i < cp.height → s.storage.get i = s'.storage.get i) →
      Accepts s L t → L.Sublist M → (∀ x ∈ M, S x) → RoomFor s L.length → RoomFor s' M.length →
      ∃ A2, Reachable H coin cp S t' A2 ∧ ∀ x ∈ A ++ L, x ∈ A2 := by
  induction hh with
  | nil =>
    intro s t A A' L hr hr' hsub hb hacc hL hS hroom hroom'
    rw [List.sublist_nil] at hL
    subst hL
    exact ⟨A', hr', by simpa using hsub⟩
  | @cons s' s1' t' raw r rest hc _ ih =>
    intro s t A A' L hr hr' hsub hb hacc hL hS hroom hroom'
    rw [List.length_cons] at hroom'
    have hrm' := roomFor_succ hroom'
    have hSr := hS raw (by simp)
    have hS' : ∀ x ∈ rest, S x := fun x hx => hS x (by simp [hx])
    cases hL with
    | cons _ hL =>
      cases r with
      | error e =>
        have := C27_unchanged he hr' hrm' raw hSr _ _ hc
        subst this
        exact ih hr hr' hsub hb hacc hL hS' hroom
          ⟨by have := hroom'.1; omega, fun k hk => by have := hroom'.2 k hk; push_cast at this; omega⟩
      | ok r =>
        obtain ⟨h1, h2, h3⟩ := connect_step he hr' hSr hroom' hc
        exact ih hr h1 (fun x hx => by simp [hsub x hx]) (fun i hi => by rw [h3 i hi, hb i hi]) hacc hL hS' hroom h2
    | cons_cons _ hL =>
      cases hacc with
      | @cons _ s1 _ _ r0 _ hc0 hacc =>
        rw [List.length_cons] at hroom
        have hrm := roomFor_succ hroom
        have hne : raw ≠ cp.raw_header := by
          rintro rfl
          rw [(C28_checkpoint he hr).1] at hc0
          cases (Prod.mk.inj hc0).2
        have hok : ∃ r', r = .ok r' := by
          by_cases hin : raw ∈ A'
          · obtain ⟨r', h1, _⟩ := C28_idempotent he hr' raw hin hne
            rw [hc] at h1
            exact ⟨r', (Prod.mk.inj h1).2⟩
          · have hl : raw.length = 80 := by
              by_contra hl
              have := C26_malformed s raw hl
              rw [hc0] at this
              cases (Prod.mk.inj this).2
            have hp : ∃ y ∈ A, header_hash H y = header_prev_hash raw := by
              by_contra hcon
              have := C26_missing he hr raw hl (fun y hy h => hcon ⟨y, hy, h⟩)
              rw [hc0] at this
              cases (Prod.mk.inj this).2
            have := C87_connect he hr hr' hrm hrm' hb raw hSr
              ⟨fun h => absurd (hsub _ h) hin, fun h => absurd h hin⟩
              ⟨fun ⟨y, hy, h⟩ => ⟨y, hsub y hy, h⟩, fun _ => hp⟩
            rw [hc0, hc] at this
            cases r with
            | error e => cases this
            | ok r' => exact ⟨r', rfl⟩
        obtain ⟨r', rfl⟩ := hok
        obtain ⟨h1, h2, h3⟩ := connect_step he hr' hSr hroom' hc
        obtain ⟨g1, g2, g3⟩ := connect_step he hr hSr hroom hc0
        obtain ⟨A2, k1, k2⟩ := ih g1 h1
          (fun x hx => by
            rcases List.mem_append.1 hx with hx | hx
            · exact List.mem_append_left _ (hsub x hx)
            · exact List.mem_append_right _ hx)
          (fun i hi => by rw [h3 i hi, g3 i hi, hb i hi]) hacc hL hS' g2 h2
        exact ⟨A2, k1, by simpa using k2⟩

/-- **C123** (one honest source).  A collection is told the headers of an honest source, in the order in which a collection
that holds no others would accept them, but with any number of other headers before, between and after them.  Then it has
accepted all of the honest ones, and its longest chain has at least the work of the longest chain of one that is told the
honest ones alone. -/
theorem C123_honest (he : Env H cp S) (hr : Reachable H coin cp S s A) (hr' : Reachable H coin cp S s' A')
    (hsub : ∀ x ∈ A, x ∈ A') (hbelow : ∀ i : Nat, i < cp.height → s.storage.get i = s'.storage.get i)
    (L M : List Bytes) (hacc : Accepts s L t) (hh : Hears s' M t') (hLM : L.Sublist M) (hS : ∀ x ∈ M, S x)
    (hroom : RoomFor s L.length) (hroom' : RoomFor s' M.length) :
    (∀ x ∈ L, ∃ hd c, t'.lookup (header_hash H x) = .ok (hd, c) ∧ hd.raw = x) ∧
    ∃ m m' x x', t.longest_chain = .ok m ∧ t'.longest_chain = .ok m' ∧ t.chains[m]? = some x ∧
      t'.chains[m']? = some x' ∧ x.work ≤ x'.work := by
  obtain ⟨A2, k1, k2⟩ := hears_reachable he hh hr hr' hsub hbelow hacc hLM hS hroom hroom'
  refine ⟨fun x hx => ?_, ?_⟩
  · obtain ⟨hd, c, ch, f1, f2, _⟩ := C23_lookup he k1 x (k2 x (by simp [hx]))
    exact ⟨hd, c, f1, (deserialized_header_fields f2).2.1⟩
  · exact (C123_more he (accepts_reachable he hacc hr (fun x hx => hS x (hLM.subset hx)) hroom) k1 k2).2

end

open ChainExample (raw0 raw1 raw2 raw3 cp) in
open TieExample (raw4 S env) in
/-- A collection is told a header that it refuses, then the one of the honest source, then one that it knows. -/
example : ∃ s t t', Reachable toyHashes Bitcoin cp S s [raw0, raw1, raw2, raw3] ∧ Accepts s [raw4] t ∧
    Hears s [raw0, raw4, raw4] t' ∧ [raw4].Sublist [raw0, raw4, raw4] ∧ (∀ x ∈ [raw0, raw4, raw4], S x) ∧
    RoomFor s 1 ∧ RoomFor s 3 ∧ s.connect raw0 = (s, .error .missingHeader) := by
  obtain ⟨s, s', hd, r, room, m, hc, _, _, w, _⟩ := C121_tie
  have hchains : s.chains.length = 2 := by simpa using congrArg List.length w
  have hlen : ∀ k, s.len = .ok k → k ≤ 4 := by
    intro k hk
    obtain ⟨T, hI, _, _, hcp, hA⟩ := reachable_inv env r
    rw [hI.len] at hk
    have h0 : s.checkpoint.height = 0 := by rw [hcp]; rfl
    have nd : (T.map Node.raw).Nodup := by
      rw [List.Nodup, List.pairwise_iff_getElem]
      intro a b ha hb hab heq
      rw [List.length_map] at ha hb
      rw [List.getElem_map, List.getElem_map] at heq
      have := hI.good.raw_inj _ _ _ _ (List.getElem?_eq_getElem ha) (List.getElem?_eq_getElem hb) heq
      omega
    have hs : T.map Node.raw ⊆ [raw0, raw1, raw2, raw3] := by
      intro x hx
      obtain ⟨N, hN, rfl⟩ := List.mem_map.1 hx
      obtain ⟨i, hi⟩ := List.mem_iff_getElem?.1 hN
      exact (hA _).2 ⟨i, N, hi, rfl⟩
    have := (List.subperm_of_subset nd hs).length_le
    rw [List.length_map] at this
    simp only [List.length_cons, List.length_nil] at this
    have e := Except.ok.inj hk
    omega
  have h0 := (C28_checkpoint env r).1
  have r' := Reachable.accept r m room hc
  obtain ⟨x, hx, _⟩ := C28_idempotent env r' raw4 (by simp) (by decide +kernel)
  refine ⟨s, s', s', r, .cons hc .nil, .cons h0 (.cons hc (.cons hx .nil)), ?_, ?_, ?_, ?_, h0⟩
  · exact .cons _ (.cons_cons _ (.cons _ .slnil))
  · intro x hx
    simp only [List.mem_cons, List.not_mem_nil, or_false] at hx
    rcases hx with rfl | rfl | rfl
    · simp [S]
    · exact m
    · exact m
  · exact ⟨by omega, fun k hk => by have := hlen k hk; omega⟩
  · exact ⟨by omega, fun k hk => by have := hlen k hk; omega⟩

end Bitcoinx
