import Verif.Props.ChainExample
import Verif.Props.Order

/-! # An example for C87: the history of `ChainExample` in another order -/

namespace Bitcoinx
open Spec
namespace ChainExample

/-- Two successors of the genesis header and a successor of the second are accepted. -/
theorem fed : ∃ s s3, Reachable toyHashes Bitcoin cp S s [raw0] ∧ RoomFor s 3 ∧
    Accepts s [raw1, raw2, raw3] s3 := by
  have hb : ∀ r ∈ [raw0, raw1, raw2, raw3], r.length = 80 ∧ header_bits r = .ok 0x1d00ffff ∧
      hash_to_value (header_hash toyHashes r) ≤ 0xffff <<< (8 * 26) := by decide +kernel
  have ht : bits_to_target 0x1d00ffff = .ok (0xffff <<< (8 * 26)) := by decide +kernel
  have hw : ∃ w, header_work raw0 = .ok w := by
    have : (match header_work raw0 with | .ok _ => true | .error _ => false) = true := by decide +kernel
    cases h : header_work raw0 with
    | ok w => exact ⟨w, rfl⟩
    | error e => rw [h] at this; cases this
  have hm0 : S raw0 := by simp [S]
  have hm1 : S raw1 := by simp [S]
  have hm2 : S raw2 := by simp [S]
  have hm3 : S raw3 := by simp [S]
  obtain ⟨w, hw⟩ := hw
  obtain ⟨s0, a1, a2, a3, a4, a5, a6⟩ := fresh_ok (coin := Bitcoin) (file := none) env
    (by simp [workOf, cp, hw]) (by simp) (by simp)
  have r0 : Reachable toyHashes Bitcoin cp S s0 [raw0] := .start (by simp) (by simp) a1
  have room : ∀ (s : Headers) (T : Tree), Inv S s T → s.checkpoint = cp → T.length < 1000 →
      s.chains.length < 1000 → Room s := by
    intro s T hI hcp hT hc
    refine ⟨by omega, fun n hn => ?_⟩
    rw [hI.len, hcp] at hn
    simp only [Except.ok.injEq] at hn
    have : cp.height = 0 := rfl
    omega
  have l0 : s0.chains.length = 1 := by rw [a6]; rfl
  have n0 : (⟨cp.raw_header, [0], 0⟩ : Node).raw = raw0 := rfl
  have hroom0 := room s0 _ a2 a5 (by simp) (by omega)
  obtain ⟨s1, c1, d1, b1, b2, b3, b4, b5, b6⟩ := easy_connect a2 a4 (p := 0) rfl
    (by rw [a5]; decide) hm1 (hb raw1 (by simp)).1 (by rw [a3]; decide +kernel)
    (by simp only [List.mem_singleton]; rintro M rfl; decide +kernel)
    (by decide +kernel) (hb raw1 (by simp)).2.1 ht (by rw [a3]; exact (hb raw1 (by simp)).2.2) hroom0
  have r1 := r0.accept hm1 hroom0 b1
  have l1 : s1.chains.length = 1 := by
    cases b6 with
    | extended _ _ _ _ h => rw [h, List.length_set, l0]
    | forked h _ _ =>
      obtain ⟨q, Q, h1, h2⟩ := h
      match q with
      | 0 => simp at h1; subst h1; simp at h2
      | q + 1 => simp at h1
  have hroom1 := room s1 _ b2 (b5.trans a5) (by simp) (by omega)
  obtain ⟨s2, c2, d2, e1, e2, e3, e4, e5, e6⟩ := easy_connect b2 (b4.trans a4) (p := 0) rfl
    (by rw [b5, a5]; decide) hm2 (hb raw2 (by simp)).1 (by rw [b3, a3]; decide +kernel)
    (by
      intro M hM
      simp only [List.cons_append, List.nil_append, List.mem_cons, List.not_mem_nil, or_false] at hM
      rcases hM with rfl | rfl
      · show raw0 ≠ raw2; decide +kernel
      · show raw1 ≠ raw2; decide +kernel)
    (by decide +kernel) (hb raw2 (by simp)).2.1 ht (by rw [b3, a3]; exact (hb raw2 (by simp)).2.2) hroom1
  have r2 := r1.accept hm2 hroom1 e1
  have l2 : s2.chains.length = 2 := by
    cases e6 with
    | extended _ h _ _ _ => exact absurd ⟨1, _, rfl, rfl⟩ h
    | forked _ _ h => rw [h, List.length_append, l1]; rfl
  have hroom2 := room s2 _ e2 (e5.trans (b5.trans a5)) (by simp) (by omega)
  obtain ⟨s3, c3, d3, f1, f2, f3, f4, f5, f6⟩ := easy_connect e2 (e4.trans (b4.trans a4)) (p := 2) rfl
    (by
      rw [e5, b5, a5]
      simp [nodeHeight, cp]) hm3 (hb raw3 (by simp)).1 (by
      rw [e3, b3, a3]
      show header_prev_hash raw3 = header_hash toyHashes raw2
      decide +kernel)
    (by
      intro M hM
      simp only [List.cons_append, List.nil_append, List.mem_cons, List.not_mem_nil, or_false] at hM
      rcases hM with rfl | rfl | rfl
      · show raw0 ≠ raw3; decide +kernel
      · show raw1 ≠ raw3; decide +kernel
      · show raw2 ≠ raw3; decide +kernel)
    (by show header_bits raw3 = header_bits raw2; decide +kernel) (hb raw3 (by simp)).2.1 ht (by rw [e3, b3, a3]; exact (hb raw3 (by simp)).2.2) hroom2
  refine ⟨s0, s3, r0, ⟨by omega, fun k hk => ?_⟩, .cons b1 (.cons e1 (.cons f1 .nil))⟩
  rw [a2.len, a5] at hk
  simp only [Except.ok.injEq] at hk
  have : cp.height = 0 := rfl
  rw [this] at hk
  simp only [List.length_singleton] at hk
  omega

/-- The headers of the other branch may come first. -/
theorem other_order : ParentsFirst toyHashes [raw0] [raw2, raw3, raw1] := by
  have h2 : header_hash toyHashes raw0 = header_prev_hash raw2 := by decide +kernel
  have h3 : header_hash toyHashes raw2 = header_prev_hash raw3 := by decide +kernel
  have h1 : header_hash toyHashes raw0 = header_prev_hash raw1 := by decide +kernel
  intro u x v h
  match u with
  | [] => simp at h; exact ⟨raw0, by simp, h.1 ▸ h2⟩
  | [a] => simp at h; exact ⟨raw2, by simp [h.1], h.2.1 ▸ h3⟩
  | [a, b] => simp at h; exact ⟨raw0, by simp, h.2.2.1 ▸ h1⟩
  | a :: b :: c :: u => simp at h

/-- C87 for this history: the other order is accepted too, with the same number of headers. -/
example : ∃ s s3 s3', Accepts s [raw1, raw2, raw3] s3 ∧ Accepts s [raw2, raw3, raw1] s3' ∧ s3.len = s3'.len ∧
    s3.chains.length = s3'.chains.length := by
  obtain ⟨s, s3, hr, hroom, hacc⟩ := fed
  obtain ⟨s3', h1, h2, h3, _⟩ := C87_any_order env hr [raw1, raw2, raw3] [raw2, raw3, raw1] hacc
    (fun x hx => List.mem_cons_of_mem _ hx) hroom
    (List.perm_append_comm (l₁ := [raw2, raw3]) (l₂ := [raw1])) other_order
  exact ⟨s, s3, s3', hacc, h1, h3, by simpa using h2.length_eq⟩

end ChainExample

end Bitcoinx
