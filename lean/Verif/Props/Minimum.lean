import Verif.Props.Fortnight

/-! # C120: the least difficulty of a coin -/

namespace Bitcoinx
open Spec

/-- No target of a header at this height, if there is one, is above `M`. -/
def CappedAt (v : ChainView) (M : Nat) (k : Int) : Prop := ∀ bits t, TargetAt v k bits t → t ≤ M

/-- The last height of the rules before the DAA. -/
def daaHeight : RequiredBits → Int
  | .mainnet => 504031
  | .testnet => 1188697
  | .scaling_testnet => 2200

theorem DAA_capped (v : ChainView) (h b : Int) (t : Nat) (hb : v.required_bits_DAA h = .ok b)
    (ht : bits_to_target b = .ok t) : t ≤ v.coin.max_target := by
  rw [ChainView.required_bits_DAA] at hb
  obtain ⟨start, _, hb⟩ := bind_eq_ok.mp hb
  obtain ⟨end_, _, hb⟩ := bind_eq_ok.mp hb
  obtain ⟨W, _, hb⟩ := bind_eq_ok.mp hb
  dsimp only at hb
  split at hb
  · cases hb
  · obtain ⟨b', g, hb⟩ := bind_eq_ok.mp hb
    rw [pure_ok'] at hb
    cases Except.ok.inj hb
    have := rounded_le g ht
    omega

theorem fortnightly_capped (v : ChainView) (h b : Int) (h0 : h ≠ 0) (hb : v.required_bits_fortnightly h = .ok b) :
    (h % 2016 ≠ 0 → ∃ raw, v.raw_header_at_height (h - 1) = .ok raw ∧ header_bits raw = .ok b) ∧
    (h % 2016 = 0 → ∀ t, bits_to_target b = .ok t → t ≤ v.coin.max_target) := by
  rw [ChainView.required_bits_fortnightly, if_neg h0] at hb
  obtain ⟨prev, g1, hb⟩ := bind_eq_ok.mp hb
  obtain ⟨raw, g2, g3⟩ := bind_eq_ok.mp g1
  have hpb := (deserialized_header_fields g3).2.2.2.2.2.2
  refine ⟨fun hm => ?_, fun hm t ht => ?_⟩
  · rw [if_pos hm, pure_ok'] at hb
    exact ⟨raw, g2, by rw [hpb, Except.ok.inj hb]⟩
  · rw [if_neg (by simpa using hm)] at hb
    obtain ⟨prior, _, hb⟩ := bind_eq_ok.mp hb
    dsimp only at hb
    obtain ⟨T', _, hb⟩ := bind_eq_ok.mp hb
    obtain ⟨b', g5, hb⟩ := bind_eq_ok.mp hb
    rw [pure_ok'] at hb
    cases Except.ok.inj hb
    have := rounded_le g5 ht
    omega

/-- The look-back of the test networks ends in the period of 2016 headers in which it began. -/
theorem lookback_within (v : ChainView) (n : Nat) (b : Int) (hb : v.prior_non_special_loop (pyRangeDown n (-1)) = .ok b) :
    ∃ k raw, 2016 * ((n : Int) / 2016) ≤ k ∧ k ≤ n ∧ v.raw_header_at_height k = .ok raw ∧ header_bits raw = .ok b ∧
      (k % 2016 = 0 ∨ b ≠ v.coin.genesis_bits) := by
  induction n with
  | zero =>
    rw [pyRangeDown_cons _ _ (by omega)] at hb
    obtain ⟨raw, g1, hb⟩ := bind_eq_ok.mp hb
    obtain ⟨b', g2, hb⟩ := bind_eq_ok.mp hb
    rw [if_pos (.inl (by simp)), pure_ok'] at hb
    cases Except.ok.inj hb
    exact ⟨_, raw, by simp, le_refl _, g1, g2, .inl (by simp)⟩
  | succ n ih =>
    rw [pyRangeDown_cons _ _ (by omega)] at hb
    obtain ⟨raw, g1, hb⟩ := bind_eq_ok.mp hb
    obtain ⟨b', g2, hb⟩ := bind_eq_ok.mp hb
    split at hb
    · rename_i hc
      rw [pure_ok'] at hb
      cases Except.ok.inj hb
      exact ⟨_, raw, by omega, le_refl _, g1, g2, hc⟩
    · rename_i hc
      push Not at hc
      rw [show (((n + 1 : Nat) : Int) - 1) = n by push_cast; omega] at hb
      obtain ⟨k, raw', k1, k2, k3⟩ := ih hb
      exact ⟨k, raw', by push_cast at hc ⊢; omega, by push_cast; omega, k3⟩

/-- **C120** (one header).  Bits that are required never stand for a target above the coin's: under the DAA whatever the
history is, before it if the headers of the last 2016 heights are so themselves. -/
theorem C120_required (v : ChainView) (h time b : Int) (t : Nat) (hpos : 0 < h) (hb : v.required_bits h time = .ok b)
    (ht : bits_to_target b = .ok t) (hg : bits_to_target v.coin.genesis_bits = .ok v.coin.max_target)
    (hold : h ≤ daaHeight v.coin.required_bits → ∀ k, h - 2016 ≤ k → k < h → CappedAt v v.coin.max_target k) :
    t ≤ v.coin.max_target := by
  have hgen : b = v.coin.genesis_bits → t ≤ v.coin.max_target := by
    rintro rfl
    rw [hg] at ht; cases ht
    exact le_refl _
  have hfort : h ≤ daaHeight v.coin.required_bits → ∀ b t, v.required_bits_fortnightly h = .ok b →
      bits_to_target b = .ok t → t ≤ v.coin.max_target := by
    intro hd b t hb ht
    obtain ⟨f1, f2⟩ := fortnightly_capped v h b (by omega) hb
    by_cases hm : h % 2016 = 0
    · exact f2 hm t ht
    · obtain ⟨raw, r1, r2⟩ := f1 hm
      exact hold hd (h - 1) (by omega) (by omega) b t ⟨raw, r1, r2, ht⟩
  have htest : ∀ daa minpow, daa = daaHeight v.coin.required_bits → v.required_bits_testnet_ h time daa minpow = .ok b →
      t ≤ v.coin.max_target := by
    intro daa minpow hdaa hb
    subst hdaa
    rw [ChainView.required_bits_testnet_] at hb
    obtain ⟨raw, _, hb⟩ := bind_eq_ok.mp hb
    obtain ⟨pt, _, hb⟩ := bind_eq_ok.mp hb
    dsimp only at hb
    by_cases hd : h ≤ daaHeight v.coin.required_bits
    · rw [if_pos hd] at hb
      split at hb
      · exact hfort hd b t hb ht
      · split at hb
        · rw [pure_ok'] at hb
          exact hgen (Except.ok.inj hb).symm
        · rw [ChainView.prior_non_special_bits] at hb
          obtain ⟨n, hn⟩ : ∃ n : Nat, h - 1 = n := ⟨(h - 1).toNat, by omega⟩
          rw [hn] at hb
          obtain ⟨k, raw', k1, k2, k3, k4, _⟩ := lookback_within v n b hb
          exact hold hd k (by omega) (by omega) b t ⟨raw', k3, k4, ht⟩
    · rw [if_neg hd] at hb
      split at hb
      · rw [pure_ok'] at hb
        exact hgen (Except.ok.inj hb).symm
      · exact DAA_capped v h b t hb ht
  rw [ChainView.required_bits] at hb
  cases hq : v.coin.required_bits with
  | testnet => rw [hq] at hb htest; exact htest _ _ rfl hb
  | scaling_testnet => rw [hq] at hb htest; exact htest _ _ rfl hb
  | mainnet =>
    rw [hq] at hb hfort
    simp only [ChainView.required_bits_mainnet] at hb
    split at hb
    · exact hfort (show h ≤ 504031 by omega) b t hb ht
    · split at hb
      · rename_i hle
        have hfort := hfort (show h ≤ 504031 from hle)
        rw [ChainView.required_bits_EDA] at hb
        obtain ⟨b1, g1, hb⟩ := bind_eq_ok.mp hb
        split at hb
        · rw [pure_ok'] at hb
          cases Except.ok.inj hb
          exact hfort _ _ g1 ht
        · obtain ⟨m1, _, hb⟩ := bind_eq_ok.mp hb
          obtain ⟨m7, _, hb⟩ := bind_eq_ok.mp hb
          dsimp only at hb
          split at hb
          · rw [pure_ok'] at hb
            cases Except.ok.inj hb
            exact hfort _ _ g1 ht
          · obtain ⟨T', _, hb⟩ := bind_eq_ok.mp hb
            obtain ⟨b', g5, hb⟩ := bind_eq_ok.mp hb
            rw [pure_ok'] at hb
            cases Except.ok.inj hb
            have := rounded_le g5 ht
            omega
      · exact DAA_capped v h b t hb ht

/-- **C120** (the coins).  The genesis bits of each coin stand for its highest target. -/
theorem C120_coins : ∀ coin ∈ all_coins, bits_to_target coin.genesis_bits = .ok coin.max_target ∧ coin.max_target < 2 ^ 256 := by
  decide +kernel

section
variable {H : Hashes} {coin : Coin} {cp : CheckPoint} {S : Bytes → Prop} {s : Headers} {A : List Bytes}

theorem Primed.reachable (h : Primed H coin cp S s A) : Reachable H coin cp S s A := by
  induction h with
  | start h => exact h
  | accept _ h1 h2 h3 ih => exact .accept ih h1 h2 h3
  | reject _ h1 h2 h3 ih => exact .reject ih h1 h2 h3
  | reopen _ h1 ih => exact .reopen ih h1

/-- **C120** (collections).  Every header above the checkpoint on every chain of a collection has a target not above the
coin's, and a hash not above it.  A checkpoint where the DAA is in force is enough for that; before the DAA the headers of
the 2016 heights up to the checkpoint must be so. -/
theorem C120_collection (he : Env H cp S) (h : Primed H coin cp S s A) (hcoin : coin ∈ all_coins) (c : Nat) (ch : Chain)
    (hch : s.chains[c]? = some ch)
    (hold : cp.height < daaHeight coin.required_bits → ∀ k : Int, cp.height - 2016 < k → k ≤ cp.height →
      CappedAt (s.view c) coin.max_target k)
    (k : Int) (hk : cp.height < k) (hk' : k ≤ ch.height) :
    ∃ raw bits t, s.raw_header_at_height c k = .ok raw ∧ header_bits raw = .ok bits ∧ bits_to_target bits = .ok t ∧
      leValue (header_hash H raw) ≤ t ∧ t ≤ coin.max_target := by
  obtain ⟨n, rfl⟩ : ∃ n : Nat, k = n := ⟨k.toNat, by omega⟩
  obtain ⟨_, _, _, _, hsc, _⟩ := primed_obey he h
  have hsc : (s.view c).coin = coin := hsc
  induction n using Nat.strong_induction_on with
  | _ n ih =>
    obtain ⟨raw, hd, h1, h2, h3, t, ht, hpow⟩ := C98_on_chain he h c ch hch n hk hk'
    have hf := deserialized_header_fields h2
    refine ⟨raw, hd.bits, t, h1, hf.2.2.2.2.2.2, ht, by rw [← hf.2.2.2.1]; exact hpow, ?_⟩
    rw [hf.2.2.1, Headers.required_bits] at h3
    rw [← hsc]
    refine C120_required (s.view c) n hd.timestamp hd.bits t (by omega) h3 ht ?_ ?_
    · rw [hsc]; exact (C120_coins coin hcoin).1
    · rw [hsc]
      intro hd k k1 k2 bits t' htk
      by_cases hkc : k ≤ cp.height
      · exact hold (by omega) k (by omega) hkc bits t' htk
      · obtain ⟨m, rfl⟩ : ∃ m : Nat, k = m := ⟨k.toNat, by omega⟩
        obtain ⟨raw', b', t'', g1, g2, g3, _, g4⟩ := ih m (by omega) (by omega) (by omega)
        exact (htk.unique ⟨raw', g1, g2, g3⟩).2 ▸ g4

theorem sum_ge_of_le {w : Nat} : ∀ (l : List Nat), (∀ x ∈ l, w ≤ x) → l.length * w ≤ l.sum
  | [], _ => by simp
  | x :: l, h => by
    have h1 := h x (by simp)
    have h2 := sum_ge_of_le l (fun y hy => h y (by simp [hy]))
    rw [List.length_cons, List.sum_cons, Nat.add_mul]
    omega

/-- **C120** (work).  So a chain with `n` headers above the checkpoint has at least `n` times the work of the coin's genesis
header. -/
theorem C120_work (he : Env H cp S) (h : Primed H coin cp S s A) (hcoin : coin ∈ all_coins) (c : Nat) (ch : Chain)
    (hch : s.chains[c]? = some ch)
    (hold : cp.height < daaHeight coin.required_bits → ∀ k : Int, cp.height - 2016 < k → k ≤ cp.height →
      CappedAt (s.view c) coin.max_target k) :
    ∃ w : Nat, bits_to_work coin.genesis_bits = .ok w ∧ 0 < w ∧
      (cp.prev_work : Int) + (ch.height - cp.height) * w ≤ ch.work := by
  obtain ⟨w, hw, hw1, _⟩ := (C13_work coin.genesis_bits).1 _ (C120_coins coin hcoin).1
  refine ⟨w, hw, hw1, ?_⟩
  obtain ⟨works, h1, h2, h3, _⟩ := C25_work he h.reachable c ch hch
  have htip := (C24_tip he h.reachable c ch hch).1
  cases works with
  | nil => simp at h1; omega
  | cons w0 works =>
    rw [List.length_cons] at h1
    have hle : works.length * w ≤ works.sum := by
      apply sum_ge_of_le
      intro x hx
      obtain ⟨i, hi⟩ := List.getElem?_of_mem hx
      have hil := (List.getElem?_eq_some_iff.mp hi).1
      obtain ⟨hd, g1, g2⟩ := h2 (i + 1) x (by simpa using hi)
      obtain ⟨raw, bits, t, k1, k2, k3, _, k4⟩ := C120_collection he h hcoin c ch hch hold ((cp.height + (i + 1) : Nat) : Int)
        (by push_cast; omega) (by push_cast; omega)
      obtain ⟨raw', g3, g4⟩ := bind_eq_ok.mp g1
      have g3 : s.raw_header_at_height c ((cp.height + (i + 1) : Nat) : Int) = .ok raw' := g3
      rw [k1] at g3; cases g3
      have := (deserialized_header_fields g4).2.2.2.2.2.2
      rw [k2] at this
      rw [← Except.ok.inj this] at g2
      exact C13_antitone _ _ _ _ _ _ k3 (C120_coins coin hcoin).1 g2 hw k4
    have e : ch.height - cp.height = works.length := by push_cast at h1; omega
    have h3 : ch.work = cp.prev_work + (w0 + works.sum) := by rw [h3, List.sum_cons]; push_cast; rfl
    rw [e, h3]
    have : (works.length : Int) * w ≤ works.sum := by exact_mod_cast hle
    linarith [Int.natCast_nonneg w0]
end

/-- **C120** (test networks: a boundary).  If the header before a multiple of 2016 has the genesis bits, as it may have
when it comes twenty minutes late, then the difficulty of all others is forgotten: after two weeks or more the genesis bits
are required, and otherwise a target of at least a quarter of the coin's. -/
theorem C120_reset (v : ChainView) (h time t1 t0 : Int) (h0 : 0 < h) (hm : h % 2016 = 0)
    (hn : v.coin.required_bits ≠ .mainnet) (hd : h ≤ daaHeight v.coin.required_bits)
    (hg : bits_to_target v.coin.genesis_bits = .ok v.coin.max_target)
    (prev_raw prior_raw : Bytes) (hp : v.raw_header_at_height (h - 1) = .ok prev_raw) (hpl : prev_raw.length = 80)
    (hq : v.raw_header_at_height (h - 2016) = .ok prior_raw) (hql : prior_raw.length = 80)
    (hbits : header_bits prev_raw = .ok v.coin.genesis_bits)
    (ht1 : header_timestamp prev_raw = .ok t1) (ht0 : header_timestamp prior_raw = .ok t0) :
    (1209600 ≤ t1 - t0 → v.required_bits h time = .ok v.coin.genesis_bits) ∧
    ∃ (b r : Nat), v.required_bits h time = .ok (b : Int) ∧ bits_to_target b = .ok r ∧
      ∀ r', Representable r' → r' ≤ v.coin.max_target / 4 → r' ≤ r := by
  have hM : v.coin.max_target < 2 ^ 256 := by
    obtain ⟨_, _, _, h⟩ := C11_roundtrip _ _ hg
    exact h
  have hreq : v.required_bits h time = v.required_bits_fortnightly h := by
    cases hc : v.coin.required_bits with
    | mainnet => exact absurd hc hn
    | testnet =>
      rw [hc] at hd
      exact (C18_testnet v h time prev_raw t1 1188697 true (.inl ⟨hc, rfl, rfl⟩) hp ht1).1 hd hm
    | scaling_testnet =>
      rw [hc] at hd
      exact (C18_testnet v h time prev_raw t1 2200 false (.inr ⟨hc, rfl, rfl⟩) hp ht1).1 hd hm
  obtain ⟨b, r, p, q, c1, c2, c3, c4, c5, c6, c7, c8, c9⟩ := C14_boundary v h (by omega) hm prev_raw prior_raw _ t1 t0 _
    hp hpl hq hql hbits hg ht1 ht0 hM
  rw [hreq]
  refine ⟨fun htwo => ?_, b, r, c1, c2, fun r' g1 g2 => c9 r' g1 g2 (by omega)⟩
  have hp' : 1209600 ≤ p := by unfold Clamped at c3; omega
  have hqq : (v.coin.max_target : Int) ≤ q := by
    have hmul : (v.coin.max_target : Int) * 1209600 ≤ v.coin.max_target * p := by nlinarith
    unfold IsFloorDiv at c4
    omega
  have hr : v.coin.max_target ≤ r := by
    refine c6 _ ?_ (by omega)
    obtain ⟨g, hgb, h1, h2⟩ := ((C11_bits_to_target _).1 _).1 hg
    obtain ⟨g', r', e1, e2, _, e4, _⟩ := (C12_rounds_down (v.coin.max_target : Int)).1 ⟨by omega, by omega⟩
    obtain ⟨b', f1, f2, _⟩ := C11_roundtrip _ _ hg
    rw [f2] at e1; cases e1
    rw [← f1, hg] at e2; cases e2
    exact e4
  have hrr : r = v.coin.max_target := by omega
  obtain ⟨g, hgb, hg2, _⟩ := C11_roundtrip _ _ hg
  obtain ⟨g', hgb', hg2', _⟩ := C11_roundtrip _ _ c2
  rw [hrr, hg2] at hg2'
  rw [c1, hgb, hgb', Except.ok.inj hg2']

/-- **C120** (test networks: a period).  When the header at a multiple of 2016 has the genesis bits, all headers up to the
next multiple must have them too, whatever their times. -/
theorem C120_period (v : ChainView) (h : Int) (h0 : 0 ≤ h) (hm : h % 2016 = 0) (hn : v.coin.required_bits ≠ .mainnet)
    (raw : Bytes) (hraw : v.raw_header_at_height h = .ok raw) (hbits : header_bits raw = .ok v.coin.genesis_bits) (h1 : Int)
    (hd : h1 ≤ daaHeight v.coin.required_bits) (hend : h1 < h + 2016)
    (hnew : ∀ k, h < k → k ≤ h1 → ∃ raw bits time, v.raw_header_at_height k = .ok raw ∧ header_bits raw = .ok bits ∧
      v.required_bits k time = .ok bits) :
    ∀ k, h ≤ k → k ≤ h1 → ∃ raw, v.raw_header_at_height k = .ok raw ∧ header_bits raw = .ok v.coin.genesis_bits := by
  intro k hk hk1
  obtain ⟨n, rfl⟩ : ∃ n : Nat, k = n := ⟨k.toNat, by omega⟩
  induction n using Nat.strong_induction_on with
  | _ n ih =>
    by_cases e : h = n
    · exact ⟨raw, by rw [← e]; exact hraw, hbits⟩
    obtain ⟨rw', bits, time, g1, g2, g3⟩ := hnew n (by omega) hk1
    refine ⟨rw', g1, ?_⟩
    rw [g2]
    congr 1
    have htest : ∀ daa minpow, daa = daaHeight v.coin.required_bits →
        v.required_bits_testnet_ n time daa minpow = .ok bits → bits = v.coin.genesis_bits := by
      intro daa minpow hdaa hb
      subst hdaa
      rw [ChainView.required_bits_testnet_] at hb
      obtain ⟨_, _, hb⟩ := bind_eq_ok.mp hb
      obtain ⟨pt, _, hb⟩ := bind_eq_ok.mp hb
      dsimp only at hb
      rw [if_pos (by omega), if_neg (by omega)] at hb
      split at hb
      · rw [pure_ok'] at hb
        exact (Except.ok.inj hb).symm
      · rw [ChainView.prior_non_special_bits] at hb
        obtain ⟨m, hm'⟩ : ∃ m : Nat, (n : Int) - 1 = m := ⟨n - 1, by omega⟩
        rw [hm'] at hb
        obtain ⟨j, raw', k1, k2, k3, k4, _⟩ := lookback_within v m bits hb
        obtain ⟨i, rfl⟩ : ∃ i : Nat, j = i := ⟨j.toNat, by omega⟩
        obtain ⟨raw'', j1, j2⟩ := ih i (by omega) (by omega) (by omega)
        rw [k3] at j1; cases j1
        rw [k4] at j2
        exact Except.ok.inj j2
    rw [ChainView.required_bits] at g3
    cases hc : v.coin.required_bits with
    | mainnet => exact absurd hc hn
    | testnet => rw [hc] at g3 htest; exact htest _ _ rfl g3
    | scaling_testnet => rw [hc] at g3 htest; exact htest _ _ rfl g3

/-- The checkpoint at height 0 and a header at height 1: what `C120_collection` and `C120_work` ask for. -/
example : ∃ s c ch, Primed toyHashes Bitcoin ChainExample.cp ChainExample.S s [ChainExample.raw0, ChainExample.raw1] ∧
    s.chains[c]? = some ch ∧ Bitcoin ∈ all_coins ∧ (ChainExample.cp.height : Int) < 1 ∧ 1 ≤ ch.height ∧
    ∀ k : Int, ChainExample.cp.height - 2016 < k → k ≤ ChainExample.cp.height → CappedAt (s.view c) Bitcoin.max_target k := by
  obtain ⟨s, s', r, h1, h2, h3⟩ := ChainExample.first
  have hS1 : ChainExample.S ChainExample.raw1 := by simp [ChainExample.S]
  have hr' := Reachable.accept h1 hS1 h2 h3
  have hp' := Primed.accept (.start h1) hS1 h2 h3
  obtain ⟨hd, c, ch, g1, g2, g3, _, g5, g6, _⟩ := C23_lookup ChainExample.env hr' ChainExample.raw1 (by simp)
  have ht := (C24_tip ChainExample.env hr' c ch g3).1
  have hcp : ((ChainExample.cp.height : Nat) : Int) = 0 := rfl
  rw [hcp] at ht
  obtain ⟨x, x1, _, _, x4, x5, _⟩ := C24_linked ChainExample.env hr' c ch g3 0 (by rw [hcp]) ht
  obtain ⟨raw, y1, y2⟩ := bind_eq_ok.mp x1
  have hraw : raw = ChainExample.raw0 := by
    rw [← (deserialized_header_fields y2).2.1]
    exact x5 hcp.symm
  subst hraw
  have y1 : s'.raw_header_at_height c 0 = .ok ChainExample.raw0 := y1
  have hneg : ∀ k : Int, k < 0 → s'.raw_header_at_height c k ≠ .ok ChainExample.raw1 ∧
      ∀ raw, s'.raw_header_at_height c k ≠ .ok raw := by
    intro k hk
    rw [(C24_outside ChainExample.env hr' c ch g3 k (.inl hk)).2]
    exact ⟨by simp, by simp⟩
  have hpos : ¬ hd.height < 0 := fun h => (hneg _ h).1 g6
  have hne : hd.height ≠ 0 := by
    intro h0
    rw [h0, y1] at g6
    exact absurd (Except.ok.inj g6) (by decide +kernel)
  refine ⟨s', c, ch, hp', g3, by simp [all_coins], by decide, by omega, ?_⟩
  rintro k _ hk bits t ⟨raw, z1, z2, z3⟩
  have z1 : s'.raw_header_at_height c k = .ok raw := z1
  by_cases h0 : k = 0
  · subst h0
    rw [y1] at z1; cases z1
    have e : header_bits ChainExample.raw0 = .ok 0x1d00ffff := by decide +kernel
    have hb := Except.ok.inj (e.symm.trans z2)
    subst hb
    have e' : bits_to_target 0x1d00ffff = .ok Bitcoin.max_target := by decide +kernel
    exact (Except.ok.inj (e'.symm.trans z3)).ge
  · exact absurd z1 ((hneg k (by rw [hcp] at hk; omega)).2 raw)

/-- A test network whose difficulty is over 16 million, with one late header before height 4032, where the least difficulty
is then required, or a quarter of the highest target if the headers came fast; and a period that began at the least
difficulty. -/
example : (exView BitcoinTestnet (fun k => exHeader (600 * k.toNat + (if k = 4031 then 1200 else 0))
        (if k = 4031 then 0x1d00ffff else 0x1a00ffff))).required_bits 4032 0 = .ok 0x1d00ffff ∧
    (exView BitcoinTestnet (fun k => exHeader (k.toNat + (if k = 4031 then 1200 else 0))
        (if k = 4031 then 0x1d00ffff else 0x1a00ffff))).required_bits 4032 0 = .ok 0x1c3fffc0 ∧
    (exView BitcoinTestnet (fun k => exHeader (600 * k.toNat) (if k < 4032 then 0x1a00ffff else 0x1d00ffff))
      ).required_bits 4040 2424000 = .ok 0x1d00ffff ∧
    BitcoinTestnet ∈ all_coins ∧ (4040 : Int) ≤ daaHeight BitcoinTestnet.required_bits := by
  decide +kernel

end Bitcoinx
