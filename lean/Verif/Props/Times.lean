import Verif.Props.Reorg
import Verif.Props.Optional
import Mathlib.Tactic.IntervalCases

/-! # C126: the times of headers -/

namespace Bitcoinx
open Spec

section
variable {H : Hashes} {coin : Coin} {cp : CheckPoint} {S : Bytes → Prop} {s : Headers} {A : List Bytes}

/-- **C126** (not checked).  On the main network whether a new header is accepted does not depend on its time: the bits it
must have are the same for all times, and only they and its hash count. -/
theorem C126_unchecked (he : Env H cp S) (hr : Reachable H coin cp S s A) (hroom : Room s)
    (hm : coin.required_bits = .mainnet) (raw : Bytes) (hS : S raw) (hl : raw.length = 80) (hnew : raw ∉ A) (prev : Header)
    (pc : Nat) (hprev : s.lookup (header_prev_hash raw) = .ok (prev, pc)) :
    (∃ r, (s.connect raw).2 = .ok r) ↔ ∃ b t, header_bits raw = .ok b ∧ bits_to_target b = .ok t ∧
      leValue (header_hash H raw) ≤ t ∧ ∀ time, s.required_bits pc (prev.height + 1) time = .ok b := by
  obtain ⟨hd, v, d1, d2, s', r, d3, d4⟩ := C26_rules he hr hroom raw hS hl hnew prev pc hprev
  obtain ⟨_, _, _, hsc, _, _⟩ := reachable_inv he hr
  have hf := deserialized_header_fields d1
  have hsame : ∀ t, s.required_bits pc (prev.height + 1) t = s.required_bits pc hd.height hd.timestamp := by
    intro t
    rw [hf.2.2.1, ← (C117_mainnet s (by rw [hsc]; exact hm) pc _ t).1,
      (C117_mainnet s (by rw [hsc]; exact hm) pc _ hd.timestamp).1]
  have hbits := hf.2.2.2.2.2.2
  rw [d3, ← hf.2.2.2.1]
  constructor
  · rintro ⟨x, hx⟩
    simp only at hx
    cases d2 with
    | noBits e _ => rw [d4.1] at hx; cases hx
    | wrongBits b _ _ => rw [d4.1] at hx; cases hx
    | badTarget e _ _ => rw [d4.1] at hx; cases hx
    | noPoW t _ _ _ => rw [d4.1] at hx; cases hx
    | accept t a b c => exact ⟨hd.bits, t, hbits, b, c, fun time => by rw [hsame, a]⟩
  · rintro ⟨b, t, h1, h2, h3, h4⟩
    rw [hbits] at h1
    have e := Except.ok.inj h1
    subst e
    have h5 := h4 hd.timestamp
    rw [hsame] at h5
    cases d2 with
    | noBits e a => rw [h5] at a; cases a
    | wrongBits b a n => rw [h5] at a; exact absurd (Except.ok.inj a) n
    | badTarget e _ b => rw [h2] at b; cases b
    | noPoW t' _ b c =>
      rw [h2] at b
      have := Except.ok.inj b
      omega
    | accept t a b c => obtain ⟨x, hx⟩ := d4; exact ⟨_, hx⟩
end

theorem upperMedian_step {W V : List Int} {t m m' : Int} (hV : V.Sublist W) (hlen : W.length ≤ V.length + 1)
    (h : UpperMedian W m) (h' : UpperMedian (t :: V) m') (ht : m < t) : m ≤ m' := by
  by_contra hlt
  have h1 := h.2.1
  have h2 := h'.2.2
  rw [List.filter_cons_of_neg (by simp only [decide_eq_true_eq]; omega), List.length_cons] at h2
  have h3 : (V.filter (fun x => decide (x ≤ m'))).length ≤ (W.filter (fun x => decide (x < m))).length := by
    rw [← List.countP_eq_length_filter, ← List.countP_eq_length_filter]
    refine (hV.countP_le).trans (List.countP_mono_left ?_)
    intro x _ hx
    simp only [decide_eq_true_eq] at hx ⊢
    omega
  have := Nat.div_le_div_right (c := 2) hlen
  omega

/-- **C126** (with the rule of the network).  If each header has a time after the median time past of the one before it, then
the median time past never falls along the chain. -/
theorem C126_rising (v : ChainView) (n : Nat) (raw : Nat → Bytes) (ts : Nat → Int)
    (hr : ∀ k : Nat, k ≤ n → v.raw_header_at_height k = .ok (raw k))
    (ht : ∀ k : Nat, k ≤ n → header_timestamp (raw k) = .ok (ts k))
    (hrule : ∀ (k : Nat) (m : Int), k < n → v.median_time_past k = .ok m → m < ts (k + 1)) (i j : Nat) (hij : i ≤ j)
    (hj : j ≤ n) :
    ∃ m m', v.median_time_past i = .ok m ∧ v.median_time_past j = .ok m' ∧ m ≤ m' := by
  have key : ∀ k, k ≤ n → ∃ m, v.median_time_past k = .ok m ∧
      UpperMedian ((List.range (min 11 (k + 1))).map (fun i => ts (k - i))) m := fun k hk =>
    C34_median_time_past v k raw ts (fun q hq _ => hr q (by omega)) (fun q hq _ => ht q (by omega))
  induction j, hij using Nat.le_induction with
  | base =>
    obtain ⟨m, h1, _⟩ := key i hj
    exact ⟨m, m, h1, h1, le_refl _⟩
  | succ j hij ih =>
    obtain ⟨m, m1, h1, h2, h3⟩ := ih (by omega)
    obtain ⟨m1', g1, g2⟩ := key j (by omega)
    obtain ⟨m2, k1, k2⟩ := key (j + 1) hj
    rw [h2] at g1
    cases Except.ok.inj g1
    refine ⟨m, m2, h1, k1, h3.trans ?_⟩
    obtain ⟨q, hq⟩ : ∃ q, min 11 (j + 1 + 1) = q + 1 := ⟨min 11 (j + 1 + 1) - 1, by omega⟩
    rw [hq, List.range_succ_eq_map, List.map_cons, List.map_map] at k2
    have e : (List.range q).map ((fun i => ts (j + 1 - i)) ∘ Nat.succ) = (List.range q).map (fun i => ts (j - i)) := by
      apply List.map_congr_left
      intro a _
      simp only [Function.comp, Nat.succ_eq_add_one]
      congr 1
      omega
    rw [e, Nat.sub_zero] at k2
    refine upperMedian_step ?_ ?_ g2 k2 (hrule j m1 (by omega) h2)
    · exact (List.range_sublist.2 (by omega)).map _
    · simp only [List.length_map, List.length_range]
      omega

open ChainExample (raw0 raw1 raw2 raw3 cp) in
open TieExample (raw4 S env) in
/-- **C126** (falling).  So the claim that the median time past never falls along a chain is false of collections: the first
header is of 2009, and two that follow it are of 1972. -/
theorem C126_falling : ∃ (s : Headers) (c : Nat), Reachable toyHashes Bitcoin cp S s [raw0, raw1, raw2, raw3] ∧
    s.median_time_past c 0 = .ok 1231006505 ∧ s.median_time_past c 2 = .ok 67305985 := by
  obtain ⟨s, s', _, r, _⟩ := C121_tie
  have hinj : ∀ a b, S a → S b → header_hash toyHashes a = header_hash toyHashes b → a = b := env.inj
  obtain ⟨hd, c, ch, f1, f2, f3, f4, f5, f6, f7⟩ := C23_lookup env r raw3 (by simp)
  have hcp : ((cp.height : Nat) : Int) = 0 := rfl
  have m0 : S raw0 := by simp [S]
  have m2 : S raw2 := by simp [S]
  have hS : ∀ y ∈ [raw0, raw1, raw2, raw3], S y := by
    intro y hy
    simp only [List.mem_cons, List.not_mem_nil, or_false] at hy
    simp only [S, List.mem_cons, List.not_mem_nil, or_false]
    tauto
  have p3 : header_prev_hash raw3 = header_hash toyHashes raw2 := by decide +kernel
  have p2 : header_prev_hash raw2 = header_hash toyHashes raw0 := by decide +kernel
  have n3 : raw3 ≠ raw0 := by decide +kernel
  have n2 : raw2 ≠ raw0 := by decide +kernel
  have hraw : ∀ k x, s.header_at_height c k = .ok x → s.raw_header_at_height c k = .ok x.raw ∧
      x.hash = header_hash toyHashes x.raw ∧ x.prev_hash = header_prev_hash x.raw := by
    intro k x hx
    obtain ⟨_, _, hH, _⟩ := reachable_inv env r
    obtain ⟨raw, q1, q2⟩ := bind_eq_ok.mp hx
    have e := deserialized_header_fields q2
    have q1 : s.raw_header_at_height c k = .ok raw := q1
    have e1 : x.hash = header_hash s.H raw := e.2.2.2.1
    rw [hH] at e1
    rw [e.2.1]
    exact ⟨q1, e1, e.2.2.2.2.1⟩
  have step : ∀ (k : Int) (x y : Bytes), 0 ≤ k → k ≤ ch.height → s.raw_header_at_height c k = .ok x → x ≠ raw0 → S y →
      header_prev_hash x = header_hash toyHashes y → 1 ≤ k ∧ s.raw_header_at_height c (k - 1) = .ok y := by
    intro k x y k0 k1 hx hne hy hp
    obtain ⟨z, z1, z2, z3, z4, z5, z6⟩ := C24_linked env r c ch f3 k (by omega) k1
    obtain ⟨w1, w2, w3⟩ := hraw k z z1
    rw [hx] at w1
    have e := Except.ok.inj w1
    have hk : (cp.height : Int) < k := by
      by_contra hcon
      have := z5 (by omega)
      rw [← e] at this
      exact hne this
    obtain ⟨prev, g1, g2⟩ := z6 hk
    obtain ⟨u1, u2, _⟩ := hraw (k - 1) prev g1
    obtain ⟨_, l1, _, l3, _⟩ := C24_linked env r c ch f3 (k - 1) (by omega) (by omega)
    rw [g1] at l1
    cases Except.ok.inj l1
    have : prev.raw = y := hinj _ _ (hS _ l3) hy (by rw [← u2, ← g2, w3, ← e, hp])
    rw [u1, this]
    exact ⟨by omega, rfl⟩
  have hd0 : 0 ≤ hd.height := by
    by_contra hcon
    rw [(C24_outside env r c ch f3 _ (.inl (by omega))).2] at f6
    cases f6
  obtain ⟨a1, a2⟩ := step hd.height raw3 raw2 hd0 f5 f6 n3 m2 p3
  obtain ⟨b1, b2⟩ := step (hd.height - 1) raw2 raw0 (by omega) (by omega) a2 n2 m0 p2
  have h2 : hd.height = 2 := by
    obtain ⟨z, z1, _, z3, _, _, z6⟩ := C24_linked env r c ch f3 (hd.height - 1 - 1) (by omega) (by omega)
    by_contra hcon
    obtain ⟨prev, g1, g2⟩ := z6 (by omega)
    obtain ⟨w1, _, w3⟩ := hraw _ z z1
    rw [b2] at w1
    obtain ⟨u1, u2, _⟩ := hraw _ prev g1
    obtain ⟨_, l1, _, l3, _⟩ := C24_linked env r c ch f3 (hd.height - 1 - 1 - 1) (by omega) (by omega)
    rw [g1] at l1
    cases Except.ok.inj l1
    have : ∀ a ∈ [raw0, raw1, raw2, raw3], header_prev_hash raw0 ≠ header_hash toyHashes a := by decide +kernel
    exact this prev.raw l3 (by rw [Except.ok.inj w1, ← w3, g2, u2])
  rw [h2] at f6 a2 b2
  have t0 : header_timestamp raw0 = .ok 1231006505 := by decide +kernel
  have t2 : header_timestamp raw2 = .ok 67305985 := by decide +kernel
  have t3 : header_timestamp raw3 = .ok 67305985 := by decide +kernel
  have v0 : (s.view c).raw_header_at_height 0 = .ok raw0 := b2
  have v1 : (s.view c).raw_header_at_height 1 = .ok raw2 := a2
  have v2 : (s.view c).raw_header_at_height 2 = .ok raw3 := f6
  have e0 : pyRangeDown 0 (max (-1) (0 - 11)) = [0] := by decide
  have e2 : pyRangeDown 2 (max (-1) (2 - 11)) = [2, 1, 0] := by decide
  refine ⟨s, c, r, ?_, ?_⟩
  · simp only [Headers.median_time_past, ChainView.median_time_past, e0, mapE, v0, ok_bind', t0, pure_ok']
    decide
  · simp only [Headers.median_time_past, ChainView.median_time_past, e2, mapE, v0, v1, v2, ok_bind', t0, t2, t3, pure_ok']
    decide

open ChainExample (raw0 raw1 raw2 raw3 cp) in
open TieExample (raw4 S env) in
/-- What `C126_unchecked` asks for: a collection with room, and a new header after one that it knows, which is accepted. -/
example : ∃ s prev pc, Reachable toyHashes Bitcoin cp S s [raw0, raw1, raw2, raw3] ∧ Room s ∧
    Bitcoin.required_bits = .mainnet ∧ S raw4 ∧ raw4.length = 80 ∧ raw4 ∉ [raw0, raw1, raw2, raw3] ∧
    s.lookup (header_prev_hash raw4) = .ok (prev, pc) ∧ ∃ r, (s.connect raw4).2 = .ok r := by
  obtain ⟨s, s', hd, r, h1, h2, h3, _⟩ := C121_tie
  obtain ⟨prev, c, ch, f1, _⟩ := C23_lookup env r raw1 (by simp)
  have e : header_prev_hash raw4 = header_hash toyHashes raw1 := by decide +kernel
  refine ⟨s, prev, c, r, h1, by decide +kernel, h2, by decide +kernel, by decide +kernel, by rw [e]; exact f1, (hd, 0), ?_⟩
  rw [h3]

/-- Times that obey the rule of the network, though some of them fall: what `C126_rising` asks for. -/
example : let ts : Nat → Int := fun k => [10, 30, 31, 40, 35].getD k 0
    let v := exView Bitcoin fun k => exHeader (ts k.toNat).toNat 0x1d00ffff
    (∀ k : Nat, k ≤ 4 → v.raw_header_at_height k = .ok (exHeader (ts k).toNat 0x1d00ffff)) ∧
    (∀ k : Nat, k ≤ 4 → header_timestamp (exHeader (ts k).toNat 0x1d00ffff) = .ok (ts k)) ∧
    (∀ k : Nat, k < 4 → ∃ m, v.median_time_past k = .ok m ∧ m < ts (k + 1)) := by
  intro ts v
  refine ⟨?_, ?_, ?_⟩
  · intro k hk
    interval_cases k <;> decide +kernel
  · intro k hk
    interval_cases k <;> decide +kernel
  · intro k hk
    interval_cases k
    · exact ⟨10, by decide +kernel, by decide⟩
    · exact ⟨30, by decide +kernel, by decide⟩
    · exact ⟨30, by decide +kernel, by decide⟩
    · exact ⟨31, by decide +kernel, by decide⟩

end Bitcoinx
