import Verif.Props.Chain
import Verif.Spec.History

/-! # A history with a fork, showing that the hypotheses of C23-C33 can be met

The hash function is a toy; the coin is `Bitcoin`, the checkpoint its genesis header.  The headers
connected are two successors of the genesis header and a successor of the second. -/

namespace Bitcoinx
open Spec

/-- In the first 2016 blocks of `Bitcoin` the required bits are those of the block before. -/
theorem easy_required {S : Bytes → Prop} {s : Headers} {T : Tree} (h : Inv S s T) (hcoin : s.coin = Bitcoin)
    {p : Nat} {P : Node} (hp : T[p]? = some P) (hsmall : nodeHeight s.checkpoint P + 1 < 2016) {b : Int}
    (hb : header_bits P.raw = .ok b) (ts : Int) :
    s.required_bits P.chain ((nodeHeight s.checkpoint P + 1 : Nat) : Int) ts = .ok b := by
  obtain ⟨ch, hch⟩ := h.toDesc.chain_exists hp
  obtain ⟨tt, N, base, own, hci⟩ := h.toDesc.chain_at hch
  obtain ⟨hpre, _⟩ := h.good.prefix_tip hci hp rfl
  have hnode := h.good.node p P hp
  have hpos := hnode.pos
  have hk : N.path[P.path.length - 1]? = some p := by
    have := hnode.last
    rw [List.getLast?_eq_getElem?, hpre, List.getElem?_take] at this
    rw [← hpre] at this
    simpa [hpos] using this
  have hraw := h.toDesc.raw_at hch hci hk hp
  rw [show s.checkpoint.height + (P.path.length - 1) = nodeHeight s.checkpoint P by
    rw [nodeHeight]; omega] at hraw
  have hPl := (h.toDesc.valid hp).length
  have hPf := mkHeader_fields (H := s.H) (nodeHeight s.checkpoint P) hPl
  have hm : Bitcoin.required_bits = .mainnet := by decide +kernel
  have hlt : ((nodeHeight s.checkpoint P + 1 : Nat) : Int) < 478558 := by omega
  have hne : ¬ ((nodeHeight s.checkpoint P + 1 : Nat) : Int) = 0 := by omega
  have hmod : ((nodeHeight s.checkpoint P + 1 : Nat) : Int) % 2016 ≠ 0 := by omega
  have hpred : ((nodeHeight s.checkpoint P + 1 : Nat) : Int) - 1 = (nodeHeight s.checkpoint P : Int) := by
    omega
  have hhd : (s.view P.chain).header_at_height (nodeHeight s.checkpoint P) =
      .ok (mkHeader s.H P.raw (nodeHeight s.checkpoint P)) := by
    simp only [ChainView.header_at_height, Headers.view, hraw, ok_bind']
    exact mkHeader_ok _ hPl
  have hPb : (mkHeader s.H P.raw (nodeHeight s.checkpoint P)).bits = b := by
    have := hPf.2.2.2.2.2; rw [hb] at this; cases this; rfl
  have hco : (s.view P.chain).coin.required_bits = .mainnet := by rw [← hm, ← hcoin]; rfl
  simp only [Headers.required_bits, ChainView.required_bits, hco, ChainView.required_bits_mainnet, hlt,
    if_true, ChainView.required_bits_fortnightly, hne, if_false, hpred, hhd, ok_bind', hmod, ne_eq,
    not_false_iff, pure_ok', hPb]

theorem easy_connect {S : Bytes → Prop} {s : Headers} {T : Tree} (h : Inv S s T) (hcoin : s.coin = Bitcoin)
    {p : Nat} {P : Node} (hp : T[p]? = some P) (hsmall : nodeHeight s.checkpoint P + 1 < 2016) {raw : Bytes}
    (hS : S raw) (hl : raw.length = 80) (hprev : header_prev_hash raw = header_hash s.H P.raw)
    (hnew : ∀ M ∈ T, M.raw ≠ raw) (hbits : header_bits raw = header_bits P.raw) {b : Int} {t : Nat}
    (hb : header_bits raw = .ok b) (ht : bits_to_target b = .ok t)
    (hpow : hash_to_value (header_hash s.H raw) ≤ t) (hroom : Room s) :
    ∃ s' c hd, s.connect raw = (s', .ok (hd, c)) ∧ Inv S s' (T ++ [⟨raw, P.path ++ [T.length], c⟩]) ∧
      s'.H = s.H ∧ s'.coin = s.coin ∧ s'.checkpoint = s.checkpoint ∧ Added s T P raw s' c := by
  have hf := mkHeader_fields (H := s.H) ((nodeHeight s.checkpoint P + 1 : Nat) : Int) hl
  have hbd : (mkHeader s.H raw ((nodeHeight s.checkpoint P + 1 : Nat) : Int)).bits = b := by
    have := hf.2.2.2.2.2; rw [hb] at this; cases this; rfl
  have hreq := easy_required h hcoin hp hsmall (by rw [← hbits]; exact hb)
  have hck := h.connect_check_new hS hl hp hprev hnew
  simp only [hreq, ok_bind', hbd, ne_eq, not_true_eq_false, if_false, Header.target, ht,
    Header.hash_value, hf.2.2.1] at hck
  have hng : ¬ hash_to_value (header_hash s.H raw) > t := by omega
  simp only [hng, if_false, pure_ok'] at hck
  have hv : Valid S raw := h.env.valid hS hl (height := (nodeHeight s.checkpoint P + 1 : Nat)) (t := t)
    (by rw [Header.target, hbd]; exact ht) (by rw [Header.hash_value, hf.2.2.1]; exact hpow)
  have hrm := hroom.2 _ h.len
  obtain ⟨s', c, c1, c2, c3, c4, c5, c6, _⟩ := h.connect_accept hv hp hprev hnew hck (by omega)
    (fun _ => hroom.1)
  exact ⟨s', c, _, c1, c2, c3, c4, c5, c6⟩

namespace ChainExample

@[irreducible] def raw0 : Bytes := Bitcoin.genesis_header
def next (prev : Bytes) (nonce : UInt8) : Bytes :=
  [1, 0, 0, 0] ++ header_hash toyHashes prev ++ List.replicate 32 nonce ++ [1, 2, 3, 4] ++
    [0xff, 0xff, 0, 0x1d] ++ [nonce, 0, 0, 0]
@[irreducible] def raw1 : Bytes := next raw0 1
@[irreducible] def raw2 : Bytes := next raw0 2
@[irreducible] def raw3 : Bytes := next raw2 3
def cp : CheckPoint := ⟨raw0, 0, 0⟩
def S (x : Bytes) : Prop := x ∈ [raw0, raw1, raw2, raw3]

theorem env : Env toyHashes cp S := by
  refine ⟨?_, ?_, ?_, ?_, ?_, ?_, ?_⟩
  · have : ∀ a ∈ [raw0, raw1, raw2, raw3], ∀ b ∈ [raw0, raw1, raw2, raw3],
        header_hash toyHashes a = header_hash toyHashes b → a = b := by decide +kernel
    intro a b ha hb; exact this a ha b hb
  · show ∀ a ∈ [raw0, raw1, raw2, raw3], header_hash toyHashes a ≠ header_prev_hash cp.raw_header
    decide +kernel
  · decide +kernel
  · decide +kernel
  · exact List.mem_cons_self
  · decide +kernel
  · decide +kernel

/-- The new collection, to which a first header can be connected. -/
theorem first : ∃ s s' r, Reachable toyHashes Bitcoin cp S s [raw0] ∧ Room s ∧
    s.connect raw1 = (s', .ok r) := by
  have hb : ∀ r ∈ [raw0, raw1, raw2, raw3], r.length = 80 ∧ header_bits r = .ok 0x1d00ffff ∧
      hash_to_value (header_hash toyHashes r) ≤ 0xffff <<< (8 * 26) := by decide +kernel
  have ht : bits_to_target 0x1d00ffff = .ok (0xffff <<< (8 * 26)) := by decide +kernel
  have hw : ∃ w, header_work raw0 = .ok w := by
    have : (match header_work raw0 with | .ok _ => true | .error _ => false) = true := by decide +kernel
    cases h : header_work raw0 with
    | ok w => exact ⟨w, rfl⟩
    | error e => rw [h] at this; cases this
  have hm0 : S raw0 := by simp [S]
  have hm1 : S raw1 := by simp [S]
  have hm2 : S raw2 := by simp [S]
  have hm3 : S raw3 := by simp [S]
  obtain ⟨w, hw⟩ := hw
  obtain ⟨s0, a1, a2, a3, a4, a5, a6⟩ := fresh_ok (coin := Bitcoin) (file := none) env
    (by simp [workOf, cp, hw]) (by simp) (by simp)
  have r0 : Reachable toyHashes Bitcoin cp S s0 [raw0] := .start (by simp) (by simp) a1
  have room : ∀ (s : Headers) (T : Tree), Inv S s T → s.checkpoint = cp → T.length < 1000 →
      s.chains.length < 1000 → Room s := by
    intro s T hI hcp hT hc
    refine ⟨by omega, fun n hn => ?_⟩
    rw [hI.len, hcp] at hn
    simp only [Except.ok.injEq] at hn
    have : cp.height = 0 := rfl
    omega
  have l0 : s0.chains.length = 1 := by rw [a6]; rfl
  have n0 : (⟨cp.raw_header, [0], 0⟩ : Node).raw = raw0 := rfl
  have hroom0 := room s0 _ a2 a5 (by simp) (by omega)
  obtain ⟨s1, c1, d1, b1, b2, b3, b4, b5, b6⟩ := easy_connect a2 a4 (p := 0) rfl
    (by rw [a5]; decide) hm1 (hb raw1 (by simp)).1 (by rw [a3]; decide +kernel)
    (by simp only [List.mem_singleton]; rintro M rfl; decide +kernel)
    (by decide +kernel) (hb raw1 (by simp)).2.1 ht (by rw [a3]; exact (hb raw1 (by simp)).2.2) hroom0
  exact ⟨s0, s1, _, r0, hroom0, b1⟩

/-- Such a history exists: two chains, four accepted headers, and room for more. -/
theorem unset_history : ∃ s, Unset toyHashes Bitcoin cp S s [raw0, raw1, raw2, raw3] ∧
    s.chains.length = 2 ∧ Room s := by
  have hb : ∀ r ∈ [raw0, raw1, raw2, raw3], r.length = 80 ∧ header_bits r = .ok 0x1d00ffff ∧
      hash_to_value (header_hash toyHashes r) ≤ 0xffff <<< (8 * 26) := by decide +kernel
  have ht : bits_to_target 0x1d00ffff = .ok (0xffff <<< (8 * 26)) := by decide +kernel
  have hw : ∃ w, header_work raw0 = .ok w := by
    have : (match header_work raw0 with | .ok _ => true | .error _ => false) = true := by decide +kernel
    cases h : header_work raw0 with
    | ok w => exact ⟨w, rfl⟩
    | error e => rw [h] at this; cases this
  have hm0 : S raw0 := by simp [S]
  have hm1 : S raw1 := by simp [S]
  have hm2 : S raw2 := by simp [S]
  have hm3 : S raw3 := by simp [S]
  obtain ⟨w, hw⟩ := hw
  obtain ⟨s0, a1, a2, a3, a4, a5, a6⟩ := fresh_ok (coin := Bitcoin) (file := none) env
    (by simp [workOf, cp, hw]) (by simp) (by simp)
  have r0 : Unset toyHashes Bitcoin cp S s0 [raw0] := .start (by simp) (by simp) a1
  have room : ∀ (s : Headers) (T : Tree), Inv S s T → s.checkpoint = cp → T.length < 1000 →
      s.chains.length < 1000 → Room s := by
    intro s T hI hcp hT hc
    refine ⟨by omega, fun n hn => ?_⟩
    rw [hI.len, hcp] at hn
    simp only [Except.ok.injEq] at hn
    have : cp.height = 0 := rfl
    omega
  have l0 : s0.chains.length = 1 := by rw [a6]; rfl
  have n0 : (⟨cp.raw_header, [0], 0⟩ : Node).raw = raw0 := rfl
  have hroom0 := room s0 _ a2 a5 (by simp) (by omega)
  obtain ⟨s1, c1, d1, b1, b2, b3, b4, b5, b6⟩ := easy_connect a2 a4 (p := 0) rfl
    (by rw [a5]; decide) hm1 (hb raw1 (by simp)).1 (by rw [a3]; decide +kernel)
    (by simp only [List.mem_singleton]; rintro M rfl; decide +kernel)
    (by decide +kernel) (hb raw1 (by simp)).2.1 ht (by rw [a3]; exact (hb raw1 (by simp)).2.2) hroom0
  have r1 := r0.accept hm1 hroom0 b1
  have l1 : s1.chains.length = 1 := by
    cases b6 with
    | extended _ _ _ _ h => rw [h, List.length_set, l0]
    | forked h _ _ =>
      obtain ⟨q, Q, h1, h2⟩ := h
      match q with
      | 0 => simp at h1; subst h1; simp at h2
      | q + 1 => simp at h1
  have hroom1 := room s1 _ b2 (b5.trans a5) (by simp) (by omega)
  obtain ⟨s2, c2, d2, e1, e2, e3, e4, e5, e6⟩ := easy_connect b2 (b4.trans a4) (p := 0) rfl
    (by rw [b5, a5]; decide) hm2 (hb raw2 (by simp)).1 (by rw [b3, a3]; decide +kernel)
    (by
      intro M hM
      simp only [List.cons_append, List.nil_append, List.mem_cons, List.not_mem_nil, or_false] at hM
      rcases hM with rfl | rfl
      · show raw0 ≠ raw2; decide +kernel
      · show raw1 ≠ raw2; decide +kernel)
    (by decide +kernel) (hb raw2 (by simp)).2.1 ht (by rw [b3, a3]; exact (hb raw2 (by simp)).2.2) hroom1
  have r2 := r1.accept hm2 hroom1 e1
  have l2 : s2.chains.length = 2 := by
    cases e6 with
    | extended _ h _ _ _ => exact absurd ⟨1, _, rfl, rfl⟩ h
    | forked _ _ h => rw [h, List.length_append, l1]; rfl
  have hroom2 := room s2 _ e2 (e5.trans (b5.trans a5)) (by simp) (by omega)
  obtain ⟨s3, c3, d3, f1, f2, f3, f4, f5, f6⟩ := easy_connect e2 (e4.trans (b4.trans a4)) (p := 2) rfl
    (by
      rw [e5, b5, a5]
      simp [nodeHeight, cp]) hm3 (hb raw3 (by simp)).1 (by
      rw [e3, b3, a3]
      show header_prev_hash raw3 = header_hash toyHashes raw2
      decide +kernel)
    (by
      intro M hM
      simp only [List.cons_append, List.nil_append, List.mem_cons, List.not_mem_nil, or_false] at hM
      rcases hM with rfl | rfl | rfl
      · show raw0 ≠ raw3; decide +kernel
      · show raw1 ≠ raw3; decide +kernel
      · show raw2 ≠ raw3; decide +kernel)
    (by show header_bits raw3 = header_bits raw2; decide +kernel) (hb raw3 (by simp)).2.1 ht (by rw [e3, b3, a3]; exact (hb raw3 (by simp)).2.2) hroom2
  have r3 := r2.accept hm3 hroom2 f1
  have l3 : s3.chains.length = 2 := by
    cases f6 with
    | extended _ _ _ _ h => rw [h, List.length_set, l2]
    | forked h _ _ =>
      obtain ⟨q, Q, h1, h2⟩ := h
      match q with
      | 0 => simp at h1; subst h1; simp at h2
      | 1 => simp at h1; subst h1; simp at h2
      | 2 => simp at h1; subst h1; simp at h2
      | q + 3 => simp at h1
  exact ⟨s3, r3, l3, room s3 _ f2 (f5.trans (e5.trans (b5.trans a5))) (by simp) (by omega)⟩

theorem history : ∃ s, Reachable toyHashes Bitcoin cp S s [raw0, raw1, raw2, raw3] ∧
    s.chains.length = 2 ∧ Room s := by
  obtain ⟨s, h1, h2, h3⟩ := unset_history
  exact ⟨s, h1.reachable, h2, h3⟩

/-- The conclusions of C23, C28 and C33 in this history. -/
example : ∃ s r h c, Reachable toyHashes Bitcoin cp S s [raw0, raw1, raw2, raw3] ∧
    s.connect raw1 = (s, .ok r) ∧ Chain.common_chain_and_height s.chains 0 1 = (some c, h) := by
  obtain ⟨s, hr, hl, _⟩ := history
  obtain ⟨r, h1, _⟩ := C28_idempotent env hr raw1 (by simp) (by decide +kernel)
  obtain ⟨c, h, ch, h2, _⟩ := C33_fork_point env hr 0 1 _ _
    (List.getElem?_eq_getElem (by omega)) (List.getElem?_eq_getElem (by omega))
  exact ⟨s, r, h, c, hr, h1, h2⟩

end ChainExample

end Bitcoinx
