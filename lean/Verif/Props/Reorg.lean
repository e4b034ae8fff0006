import Verif.Props.ChainExample

/-! # C121: when the longest chain changes -/

namespace Bitcoinx
open Spec

section
variable {H : Hashes} {coin : Coin} {cp : CheckPoint} {S : Bytes → Prop} {s : Headers} {A : List Bytes}

theorem longest_after {s s' : Headers} (hne : s.chains ≠ []) (c : Nat) (y : Chain) (hc : s'.chains[c]? = some y)
    (hW : ∀ ch, s.chains[c]? = some ch → ch.work < y.work) (hother : ∀ k, k ≠ c → s'.chains[k]? = s.chains[k]?) :
    ∃ m m' x, s.longest_chain = .ok m ∧ s'.longest_chain = .ok m' ∧ s.chains[m]? = some x ∧ (m' = m ∨ m' = c) ∧
      (m' = c ↔ x.work < y.work ∨ (x.work = y.work ∧ c < m)) := by
  have hne' : s'.chains ≠ [] := by
    intro h
    rw [h] at hc; simp at hc
  obtain ⟨m, x, a1, a2, a3, a4⟩ := C32_longest s hne
  obtain ⟨m', x', b1, b2, b3, b4⟩ := C32_longest s' hne'
  have hyx := b3 c y hc
  refine ⟨m, m', x, a1, b1, a2, ?_, ?_⟩
  · by_contra hcon
    push Not at hcon
    obtain ⟨hm, hmc⟩ := hcon
    rw [hother m' hmc] at b2
    have h1 := a3 m' x' b2
    by_cases hmc' : m = c
    · subst hmc'
      have := hW x a2
      omega
    · have h2 := (hother m hmc').trans a2
      have h3 := b3 m x h2
      rcases lt_or_gt_of_ne hm with h | h
      · have := a4 m' x' b2 h; omega
      · have := b4 m x h2 h; omega
  · constructor
    · rintro rfl
      rw [hc] at b2; cases b2
      by_cases hmc' : m = m'
      · subst hmc'
        exact .inl (hW x a2)
      · have h2 := (hother m hmc').trans a2
        have h3 := b3 m x h2
        rcases lt_or_gt_of_ne hmc' with h | h
        · exact .inl (b4 m x h2 h)
        · rcases lt_or_eq_of_le h3 with h4 | h4
          · exact .inl h4
          · exact .inr ⟨h4, h⟩
    · intro h
      by_contra hmc
      rw [hother m' hmc] at b2
      have h1 := a3 m' x' b2
      rcases h with h | ⟨h, h'⟩
      · omega
      · have h2 := (hother m (by omega)).trans a2
        by_cases hmm : m' < m
        · have := a4 m' x' b2 hmm; omega
        · have := b4 c y hc (by omega)
          omega

/-- **C121** (a header is accepted).  The longest chain stays what it was, or becomes the chain with the new header as its
tip: exactly if this has more work than the longest chain had, or the same work and comes before it in the list of chains. -/
theorem C121_accept (he : Env H cp S) (hr : Reachable H coin cp S s A) (hroom : Room s) (raw : Bytes) (hS : S raw)
    (hnew : raw ∉ A) (s' : Headers) (hd : Header) (c : Nat) (hc : s.connect raw = (s', .ok (hd, c))) :
    ∃ m m' x y, s.longest_chain = .ok m ∧ s'.longest_chain = .ok m' ∧ s.chains[m]? = some x ∧ s'.chains[c]? = some y ∧
      y.tip = hd ∧ (m' = m ∨ m' = c) ∧ (m' = c ↔ x.work < y.work ∨ (x.work = y.work ∧ c < m)) := by
  obtain ⟨prev, pc, ch, w, n, h1, h2, h3, _, _, h6⟩ := C29_chains he hr hroom raw hS hnew s' hd c hc
  have hw : 0 < w := by
    cases ht : bits_to_target hd.bits with
    | error e => rw [(C13_work _).2 e ht] at h3; cases h3
    | ok t =>
      obtain ⟨w', g1, g2, _⟩ := (C13_work _).1 t ht
      rw [h3] at g1; cases g1
      exact g2
  have hne := C32_reachable he hr
  rcases h6 with ⟨_, rfl, hs⟩ | ⟨_, rfl, pw, _, hs⟩
  · have hlt : c < s.chains.length := (List.getElem?_eq_some_iff.mp h2).1
    have hy : s'.chains[c]? = some { parent := ch.parent, tip := hd, work := ch.work + w, first_height := ch.first_height,
                                     header_indices := ch.header_indices ++ [n] } := by
      rw [hs, List.getElem?_set_self hlt]
    obtain ⟨m, m', x, g1, g2, g3, g4, g5⟩ := longest_after hne c _ hy
      (fun ch' h => by rw [h2] at h; cases h; dsimp only; omega)
      (fun k hk => by rw [hs, List.getElem?_set_ne (fun h => hk h.symm)])
    exact ⟨m, m', x, _, g1, g2, g3, hy, rfl, g4, g5⟩
  · have hy : s'.chains[s.chains.length]? = some { parent := some pc, tip := hd, work := pw + w,
                                                   first_height := prev.height + 1, header_indices := [n] } := by
      rw [hs, List.getElem?_append_right (le_refl _), Nat.sub_self]; rfl
    obtain ⟨m, m', x, g1, g2, g3, g4, g5⟩ := longest_after hne _ _ hy
      (fun ch' h => by rw [List.getElem?_eq_none (le_refl _)] at h; cases h)
      (fun k hk => by
        by_cases hlt : k < s.chains.length
        · rw [hs, List.getElem?_append_left hlt]
        · rw [List.getElem?_eq_none (l := s'.chains) (by rw [hs, List.length_append, List.length_singleton]; omega),
            List.getElem?_eq_none (by omega)])
    exact ⟨m, m', x, _, g1, g2, g3, hy, rfl, g4, g5⟩

/-- **C121** (nothing is accepted).  The longest chain stays what it was when a header is refused or was known already. -/
theorem C121_otherwise (he : Env H cp S) (hr : Reachable H coin cp S s A) (hroom : Room s) (raw : Bytes) (hS : S raw)
    (s' : Headers) (r : Res (Header × Nat)) (hc : s.connect raw = (s', r)) (hno : raw ∈ A ∨ ∃ e, r = .error e) :
    s'.longest_chain = s.longest_chain ∧ s'.chains = s.chains := by
  have : s' = s := by
    rcases hno with hin | ⟨e, rfl⟩
    · by_cases hcp : raw = cp.raw_header
      · subst hcp
        rw [(C28_checkpoint he hr).1] at hc
        exact (Prod.mk.inj hc).1.symm
      · obtain ⟨r', h1, _⟩ := C28_idempotent he hr raw hin hcp
        rw [h1] at hc
        exact (Prod.mk.inj hc).1.symm
    · exact C27_unchanged he hr hroom raw hS s' e hc
  rw [this]
  exact ⟨rfl, rfl⟩

end

/-! A history where the longest chain changes though the new one has no more work. -/
namespace TieExample

open ChainExample (raw0 raw1 raw2 raw3 next cp)

@[irreducible] def raw4 : Bytes := next raw1 4
def S (x : Bytes) : Prop := x ∈ [raw0, raw1, raw2, raw3, raw4]

theorem env : Env toyHashes cp S := by
  refine ⟨?_, ?_, ?_, ?_, ?_, ?_, ?_⟩
  · have : ∀ a ∈ [raw0, raw1, raw2, raw3, raw4], ∀ b ∈ [raw0, raw1, raw2, raw3, raw4],
        header_hash toyHashes a = header_hash toyHashes b → a = b := by decide +kernel
    intro a b ha hb; exact this a ha b hb
  · show ∀ a ∈ [raw0, raw1, raw2, raw3, raw4], header_hash toyHashes a ≠ header_prev_hash cp.raw_header
    decide +kernel
  · decide +kernel
  · decide +kernel
  · exact List.mem_cons_self
  · decide +kernel
  · decide +kernel

end TieExample

open ChainExample (raw0 raw1 raw2 raw3 cp)
open TieExample (raw4 S env)

set_option maxHeartbeats 1000000 in
/-- **C121** (first seen).  The claim that the longest chain changes only when another one has more work is false: two chains
with one and two headers above the checkpoint, the second one being the longest, and a header that makes their work equal;
the first chain of the list is then returned, though the second one had that much work before. -/
theorem C121_tie : ∃ s s' hd, Reachable toyHashes Bitcoin cp S s [raw0, raw1, raw2, raw3] ∧ Room s ∧ S raw4 ∧
    s.connect raw4 = (s', .ok (hd, 0)) ∧ s.longest_chain = .ok 1 ∧ s'.longest_chain = .ok 0 ∧
    s.chains.map Chain.work = [2 * 4295032833, 3 * 4295032833] ∧
    s'.chains.map Chain.work = [3 * 4295032833, 3 * 4295032833] := by
  have hb : ∀ r ∈ [raw0, raw1, raw2, raw3, raw4], r.length = 80 ∧ header_bits r = .ok 0x1d00ffff ∧
      hash_to_value (header_hash toyHashes r) ≤ 0xffff <<< (8 * 26) := by decide +kernel
  have ht : bits_to_target 0x1d00ffff = .ok (0xffff <<< (8 * 26)) := by decide +kernel
  have hw : ∃ w, header_work raw0 = .ok w := by
    have : (match header_work raw0 with | .ok _ => true | .error _ => false) = true := by decide +kernel
    cases h : header_work raw0 with
    | ok w => exact ⟨w, rfl⟩
    | error e => rw [h] at this; cases this
  have hm0 : S raw0 := by simp [S]
  have hm1 : S raw1 := by simp [S]
  have hm2 : S raw2 := by simp [S]
  have hm3 : S raw3 := by simp [S]
  have hm4 : S raw4 := by simp [S]
  obtain ⟨w, hw⟩ := hw
  obtain ⟨s0, a1, a2, a3, a4, a5, a6⟩ := fresh_ok (coin := Bitcoin) (file := none) env
    (by simp [workOf, cp, hw]) (by simp) (by simp)
  have r0 : Reachable toyHashes Bitcoin cp S s0 [raw0] := .start (by simp) (by simp) a1
  have room : ∀ (s : Headers) (T : Tree), Inv S s T → s.checkpoint = cp → T.length < 1000 →
      s.chains.length < 1000 → Room s := by
    intro s T hI hcp hT hc
    refine ⟨by omega, fun n hn => ?_⟩
    rw [hI.len, hcp] at hn
    simp only [Except.ok.injEq] at hn
    have : cp.height = 0 := rfl
    omega
  have l0 : s0.chains.length = 1 := by rw [a6]; rfl
  have n0 : (⟨cp.raw_header, [0], 0⟩ : Node).raw = raw0 := rfl
  have hroom0 := room s0 _ a2 a5 (by simp) (by omega)
  obtain ⟨s1, c1, d1, b1, b2, b3, b4, b5, b6⟩ := easy_connect a2 a4 (p := 0) rfl
    (by rw [a5]; decide) hm1 (hb raw1 (by simp)).1 (by rw [a3]; decide +kernel)
    (by simp only [List.mem_singleton]; rintro M rfl; decide +kernel)
    (by decide +kernel) (hb raw1 (by simp)).2.1 ht (by rw [a3]; exact (hb raw1 (by simp)).2.2) hroom0
  have r1 := Reachable.accept r0 hm1 hroom0 b1
  have l1 : s1.chains.length = 1 := by
    cases b6 with
    | extended _ _ _ _ h => rw [h, List.length_set, l0]
    | forked h _ _ =>
      obtain ⟨q, Q, h1, h2⟩ := h
      match q with
      | 0 => simp at h1; subst h1; simp at h2
      | q + 1 => simp at h1
  have hroom1 := room s1 _ b2 (b5.trans a5) (by simp) (by omega)
  obtain ⟨s2, c2, d2, e1, e2, e3, e4, e5, e6⟩ := easy_connect b2 (b4.trans a4) (p := 0) rfl
    (by rw [b5, a5]; decide) hm2 (hb raw2 (by simp)).1 (by rw [b3, a3]; decide +kernel)
    (by
      intro M hM
      simp only [List.cons_append, List.nil_append, List.mem_cons, List.not_mem_nil, or_false] at hM
      rcases hM with rfl | rfl
      · show raw0 ≠ raw2; decide +kernel
      · show raw1 ≠ raw2; decide +kernel)
    (by decide +kernel) (hb raw2 (by simp)).2.1 ht (by rw [b3, a3]; exact (hb raw2 (by simp)).2.2) hroom1
  have r2 := Reachable.accept r1 hm2 hroom1 e1
  have l2 : s2.chains.length = 2 := by
    cases e6 with
    | extended _ h _ _ _ => exact absurd ⟨1, _, rfl, rfl⟩ h
    | forked _ _ h => rw [h, List.length_append, l1]; rfl
  have hroom2 := room s2 _ e2 (e5.trans (b5.trans a5)) (by simp) (by omega)
  obtain ⟨s3, c3, d3, f1, f2, f3, f4, f5, f6⟩ := easy_connect e2 (e4.trans (b4.trans a4)) (p := 2) rfl
    (by
      rw [e5, b5, a5]
      simp [nodeHeight, cp]) hm3 (hb raw3 (by simp)).1 (by
      rw [e3, b3, a3]
      show header_prev_hash raw3 = header_hash toyHashes raw2
      decide +kernel)
    (by
      intro M hM
      simp only [List.cons_append, List.nil_append, List.mem_cons, List.not_mem_nil, or_false] at hM
      rcases hM with rfl | rfl | rfl
      · show raw0 ≠ raw3; decide +kernel
      · show raw1 ≠ raw3; decide +kernel
      · show raw2 ≠ raw3; decide +kernel)
    (by show header_bits raw3 = header_bits raw2; decide +kernel) (hb raw3 (by simp)).2.1 ht (by rw [e3, b3, a3]; exact (hb raw3 (by simp)).2.2) hroom2
  have r3 := Reachable.accept r2 hm3 hroom2 f1
  have l3 : s3.chains.length = 2 := by
    cases f6 with
    | extended _ _ _ _ h => rw [h, List.length_set, l2]
    | forked h _ _ =>
      obtain ⟨q, Q, h1, h2⟩ := h
      match q with
      | 0 => simp at h1; subst h1; simp at h2
      | 1 => simp at h1; subst h1; simp at h2
      | 2 => simp at h1; subst h1; simp at h2
      | q + 3 => simp at h1
  have hroom3 := room s3 _ f2 (f5.trans (e5.trans (b5.trans a5))) (by simp) (by omega)
  obtain ⟨s4, c4, d4, g1, g2, g3, g4, g5, g6⟩ := easy_connect f2 (f4.trans (e4.trans (b4.trans a4))) (p := 1) rfl
    (by
      rw [f5, e5, b5, a5]
      simp [nodeHeight, cp]) hm4 (hb raw4 (by simp)).1 (by
      rw [f3, e3, b3, a3]
      show header_prev_hash raw4 = header_hash toyHashes raw1
      decide +kernel)
    (by
      intro M hM
      simp only [List.cons_append, List.nil_append, List.mem_cons, List.not_mem_nil, or_false] at hM
      rcases hM with rfl | rfl | rfl | rfl
      · show raw0 ≠ raw4; decide +kernel
      · show raw1 ≠ raw4; decide +kernel
      · show raw2 ≠ raw4; decide +kernel
      · show raw3 ≠ raw4; decide +kernel)
    (by show header_bits raw4 = header_bits raw1; decide +kernel) (hb raw4 (by simp)).2.1 ht
    (by rw [f3, e3, b3, a3]; exact (hb raw4 (by simp)).2.2) hroom3
  have hW : workOf raw0 = 4295032833 ∧ workOf raw1 = 4295032833 ∧ workOf raw2 = 4295032833 ∧ workOf raw3 = 4295032833 ∧
      workOf raw4 = 4295032833 := by decide +kernel
  obtain ⟨w0, w1, w2, w3, w4⟩ := hW
  have k0 : s0.chains.map Chain.work = [4295032833] := by
    rw [a6]
    simp [baseHeaders, cp, w0]
  have k1 : s1.chains.map Chain.work = [2 * 4295032833] ∧ c1 = 0 := by
    cases b6 with
    | extended ch _ hc hch h =>
      have hx : ch.work = 4295032833 := by
        have := congrArg (·[0]?) k0
        simp only [List.getElem?_map] at this
        rw [show s0.chains[0]? = some ch from hch] at this
        simpa using this
      refine ⟨?_, hc⟩
      rw [h, List.map_set, k0]
      simp [extendedChain, hx, w1]
    | forked h _ _ =>
      obtain ⟨q, Q, h1, h2⟩ := h
      match q with
      | 0 => simp at h1; subst h1; simp at h2
      | q + 1 => simp at h1
  obtain ⟨k1, rfl⟩ := k1
  have k2 : s2.chains.map Chain.work = [2 * 4295032833, 2 * 4295032833] ∧ c2 = 1 := by
    cases e6 with
    | extended _ h _ _ _ => exact absurd ⟨1, _, rfl, rfl⟩ h
    | forked _ hc h =>
      refine ⟨?_, by rw [hc, l1]⟩
      rw [h, List.map_append, k1]
      have hcp : s1.checkpoint = cp := b5.trans a5
      have hnw : nodeWork ([⟨cp.raw_header, [0], 0⟩] ++ [⟨raw1, [0] ++ [1], 0⟩] : Tree) 0 = 4295032833 := w0
      simp only [forkedChain, hcp, totalWork, List.map_cons, List.map_nil, List.length_singleton] at hnw ⊢
      simp [cp, w2, nodeWork, w0]
  obtain ⟨k2, rfl⟩ := k2
  have k3 : s3.chains.map Chain.work = [2 * 4295032833, 3 * 4295032833] ∧ c3 = 1 := by
    cases f6 with
    | extended ch _ hc hch h =>
      have hx : ch.work = 2 * 4295032833 := by
        have := congrArg (·[1]?) k2
        simp only [List.getElem?_map] at this
        rw [show s2.chains[1]? = some ch from hch] at this
        simpa using this
      refine ⟨?_, hc⟩
      rw [h, List.map_set, k2]
      simp [extendedChain, hx, w3]
    | forked h _ _ =>
      obtain ⟨q, Q, h1, h2⟩ := h
      match q with
      | 0 => simp at h1; subst h1; simp at h2
      | 1 => simp at h1; subst h1; simp at h2
      | 2 => simp at h1; subst h1; simp at h2
      | q + 3 => simp at h1
  obtain ⟨k3, rfl⟩ := k3
  have k4 : s4.chains.map Chain.work = [3 * 4295032833, 3 * 4295032833] ∧ c4 = 0 := by
    cases g6 with
    | extended ch _ hc hch h =>
      have hx : ch.work = 2 * 4295032833 := by
        have := congrArg (·[0]?) k3
        simp only [List.getElem?_map] at this
        rw [show s3.chains[0]? = some ch from hch] at this
        simpa using this
      refine ⟨?_, hc⟩
      rw [h, List.map_set, k3]
      simp [extendedChain, hx, w4]
    | forked h _ _ =>
      obtain ⟨q, Q, h1, h2⟩ := h
      match q with
      | 0 => simp at h1; subst h1; simp at h2
      | 1 => simp at h1; subst h1; simp at h2
      | 2 => simp at h1; subst h1; simp at h2
      | 3 => simp at h1; subst h1; simp at h2
      | q + 4 => simp at h1
  obtain ⟨k4, rfl⟩ := k4
  refine ⟨s3, s4, d4, r3, hroom3, hm4, g1, ?_, ?_, k3, k4⟩
  · obtain ⟨m, x, h1, h2, h3, h4⟩ := C32_longest s3 (by intro h; rw [h] at k3; simp at k3)
    rw [h1]
    have := congrArg (·[m]?) k3
    simp only [List.getElem?_map, h2, Option.map_some] at this
    match m with
    | 1 => rfl
    | 0 =>
      have hx : x.work = 2 * 4295032833 := by simpa using this
      obtain ⟨y, hy⟩ : ∃ y, s3.chains[1]? = some y := ⟨_, List.getElem?_eq_getElem (by omega)⟩
      have h5 := congrArg (·[1]?) k3
      simp only [List.getElem?_map, hy, Option.map_some] at h5
      have hy' : y.work = 3 * 4295032833 := by simpa using h5
      have := h3 1 y hy
      omega
    | m + 2 => simp at this
  · obtain ⟨m, x, h1, h2, h3, h4⟩ := C32_longest s4 (by intro h; rw [h] at k4; simp at k4)
    rw [h1]
    have := congrArg (·[m]?) k4
    simp only [List.getElem?_map, h2, Option.map_some] at this
    match m with
    | 0 => rfl
    | 1 =>
      have hx : x.work = 3 * 4295032833 := by simpa using this
      have hlen := congrArg List.length k4
      rw [List.length_map] at hlen
      obtain ⟨y, hy⟩ : ∃ y, s4.chains[0]? = some y := ⟨_, List.getElem?_eq_getElem (by rw [hlen]; simp)⟩
      have h5 := congrArg (·[0]?) k4
      simp only [List.getElem?_map, hy, Option.map_some] at h5
      have hy' : y.work = 3 * 4295032833 := by simpa using h5
      have := h4 0 y hy (by omega)
      omega
    | m + 2 => simp at this

end Bitcoinx
