import Verif.Props.Decay

/-! # C118: how fast the target can rise before the DAA -/

namespace Bitcoinx
open Spec

/-- The header at a height of a chain has these bits, which stand for the target. -/
def TargetAt (v : ChainView) (k : Int) (bits : Int) (t : Nat) : Prop :=
  ∃ raw, v.raw_header_at_height k = .ok raw ∧ header_bits raw = .ok bits ∧ bits_to_target bits = .ok t

theorem TargetAt.unique {v : ChainView} {k b b' : Int} {t t' : Nat} (h : TargetAt v k b t) (h' : TargetAt v k b' t') :
    b = b' ∧ t = t' := by
  obtain ⟨r, h1, h2, h3⟩ := h
  obtain ⟨r', h1', h2', h3'⟩ := h'
  rw [h1] at h1'; cases h1'
  rw [h2] at h2'; cases h2'
  rw [h3] at h3'; cases h3'
  exact ⟨rfl, rfl⟩

theorem rounded_le {x : Int} {b t : Nat} (h : target_to_bits x = .ok b) (ht : bits_to_target b = .ok t) : (t : Int) ≤ x := by
  obtain ⟨h1, h2⟩ := C12_rounds_down x
  by_cases hx : 0 ≤ x ∧ x < 2 ^ 256
  · obtain ⟨b', r, g1, g2, g3, _⟩ := h1 hx
    rw [h] at g1; cases g1
    rw [ht] at g2; cases g2
    exact g3
  · rw [h2 hx] at h; cases h

/-- **C118** (one header).  What the fortnightly rule requires, if it requires anything: the bits of the header before,
but at multiples of 2016 a target at most four times as high and not above the coin's; the target of the emergency rule
is at most a quarter higher, or the one of the fortnightly rule. -/
theorem C118_step (v : ChainView) (h b : Int) (t : Nat) (h0 : h ≠ 0) (ht : bits_to_target b = .ok t) (b0 : Int) (T : Nat)
    (hprev : TargetAt v (h - 1) b0 T) :
    (v.required_bits_fortnightly h = .ok b → (h % 2016 ≠ 0 → b = b0 ∧ t = T) ∧
      (h % 2016 = 0 → t ≤ 4 * T ∧ t ≤ v.coin.max_target)) ∧
    (v.required_bits_EDA h = .ok b → (h % 2016 ≠ 0 → 4 * t ≤ 5 * T) ∧
      (h % 2016 = 0 → t ≤ 4 * T ∧ t ≤ v.coin.max_target)) := by
  obtain ⟨raw, p1, p2, p3⟩ := hprev
  have hfort : ∀ b, v.required_bits_fortnightly h = .ok b → (h % 2016 ≠ 0 → b = b0) ∧
      (h % 2016 = 0 → ∀ t, bits_to_target b = .ok t → t ≤ 4 * T ∧ t ≤ v.coin.max_target) := by
    intro b hb
    rw [ChainView.required_bits_fortnightly, if_neg h0] at hb
    obtain ⟨prev, g1, hb⟩ := bind_eq_ok.mp hb
    obtain ⟨raw', g2, g3⟩ := bind_eq_ok.mp g1
    rw [p1] at g2; cases g2
    have hpb := (deserialized_header_fields g3).2.2.2.2.2.2
    rw [p2] at hpb
    have hpb := Except.ok.inj hpb
    refine ⟨fun hm => ?_, fun hm t ht => ?_⟩
    · rw [if_pos hm, pure_ok'] at hb
      rw [hpb, Except.ok.inj hb]
    · rw [if_neg (by simpa using hm)] at hb
      obtain ⟨prior, _, hb⟩ := bind_eq_ok.mp hb
      dsimp only at hb
      have hcl := min_max_clamped 302400 4838400 (prev.timestamp - prior.timestamp) (by norm_num)
      rw [show ((2016 * 600 : Int) / 4) = 302400 by norm_num, show (2016 * 600 * 4 : Int) = 4838400 by norm_num,
        show (2016 * 600 : Int) = 1209600 by norm_num] at hb
      generalize min (max (prev.timestamp - prior.timestamp) 302400) 4838400 = p at hcl hb
      have hp : 302400 ≤ p ∧ p ≤ 4838400 := by unfold Clamped at hcl; omega
      obtain ⟨T', g4, hb⟩ := bind_eq_ok.mp hb
      rw [← hpb, p3] at g4; cases g4
      obtain ⟨b', g5, hb⟩ := bind_eq_ok.mp hb
      rw [pure_ok'] at hb
      cases Except.ok.inj hb
      have := rounded_le g5 ht
      have h4 : (T * p) / 1209600 ≤ 4 * (T : Int) := by
        apply Int.ediv_le_of_le_mul (by norm_num); nlinarith
      omega
  refine ⟨fun hb => ⟨fun hm => ?_, fun hm => (hfort b hb).2 hm t ht⟩, fun hb => ?_⟩
  · have e := (hfort b hb).1 hm
    refine ⟨e, ?_⟩
    rw [e, p3] at ht; cases ht; rfl
  · by_cases hm : h % 2016 = 0
    · rw [C17_boundary v h hm] at hb
      exact ⟨fun h => absurd hm h, fun _ => (hfort b hb).2 hm t ht⟩
    · refine ⟨fun _ => ?_, fun h => absurd h hm⟩
      rw [ChainView.required_bits_EDA] at hb
      obtain ⟨b1, g1, hb⟩ := bind_eq_ok.mp hb
      have e := (hfort b1 g1).1 hm
      rw [if_neg hm] at hb
      obtain ⟨m1, _, hb⟩ := bind_eq_ok.mp hb
      obtain ⟨m7, _, hb⟩ := bind_eq_ok.mp hb
      dsimp only at hb
      split at hb
      · rw [pure_ok'] at hb
        rw [← Except.ok.inj hb, e, p3] at ht; cases ht; omega
      · obtain ⟨T', g4, hb⟩ := bind_eq_ok.mp hb
        rw [e, p3] at g4; cases g4
        obtain ⟨b', g5, hb⟩ := bind_eq_ok.mp hb
        rw [pure_ok'] at hb
        cases Except.ok.inj hb
        have := rounded_le g5 ht
        rw [Nat.shiftRight_eq_div_pow] at this
        push_cast at this
        omega

/-- **C118** (many headers).  If from height `h0` on the headers of a chain have the bits that the fortnightly rule
requires, the target grows from that of the header before by at most a factor of four for each multiple of 2016 that has
been passed. -/
theorem C118_growth (v : ChainView) (h0 h1 : Int) (hpos : 0 < h0) (b0 : Int) (T0 : Nat) (hprev : TargetAt v (h0 - 1) b0 T0)
    (hnew : ∀ k, h0 ≤ k → k < h1 → ∃ bits t, TargetAt v k bits t ∧ v.required_bits_fortnightly k = .ok bits)
    (n : Nat) (hn : h0 + n < h1) :
    ∃ bits t, ∃ m : Nat, TargetAt v (h0 + n) bits t ∧ (m : Int) = (h0 + n) / 2016 - (h0 - 1) / 2016 ∧ t ≤ 4 ^ m * T0 ∧
      (m = 0 → bits = b0) := by
  induction n with
  | zero =>
    obtain ⟨bits, t, g1, g2⟩ := hnew h0 (le_refl _) (by omega)
    have hs := (C118_step v h0 bits t (by omega) (by obtain ⟨_, _, _, h⟩ := g1; exact h) b0 T0 hprev).1 g2
    simp only [Nat.cast_zero, add_zero]
    by_cases hm : h0 % 2016 = 0
    · exact ⟨bits, t, 1, g1, by push_cast; omega, by have := (hs.2 hm).1; omega, by omega⟩
    · obtain ⟨e1, e2⟩ := hs.1 hm
      exact ⟨bits, t, 0, g1, by push_cast; omega, by omega, fun _ => e1⟩
  | succ n ih =>
    obtain ⟨b, t, m, i1, i2, i3, i4⟩ := ih (by push_cast at hn; omega)
    obtain ⟨bits, t', g1, g2⟩ := hnew (h0 + (n + 1 : Nat)) (by omega) hn
    have e : h0 + ((n + 1 : Nat) : Int) - 1 = h0 + n := by push_cast; omega
    have hs := (C118_step v _ bits t' (by omega) (by obtain ⟨_, _, _, h⟩ := g1; exact h) b t (by rw [e]; exact i1)).1 g2
    by_cases hm : (h0 + ((n + 1 : Nat) : Int)) % 2016 = 0
    · refine ⟨bits, t', m + 1, g1, by push_cast at hm ⊢; omega, ?_, by omega⟩
      have := (hs.2 hm).1
      rw [pow_succ]
      calc t' ≤ 4 * t := this
        _ ≤ 4 * (4 ^ m * T0) := Nat.mul_le_mul_left _ i3
        _ = _ := by ring
    · obtain ⟨e1, e2⟩ := hs.1 hm
      refine ⟨bits, t', m, g1, by push_cast at hm ⊢; omega, by rw [e2]; exact i3, fun h => by rw [e1, i4 h]⟩

variable {H : Hashes} {coin : Coin} {cp : CheckPoint} {S : Bytes → Prop} {s : Headers} {A : List Bytes}

/-- **C118** (collections).  On the chains of a collection of mainnet headers, below height 478558: all headers above the
checkpoint up to the next multiple of 2016 have the bits of the header they follow, and later ones a target that is
higher by at most a factor of four for each multiple of 2016 in between. -/
theorem C118_collection (he : Env H cp S) (h : Primed H coin cp S s A) (hm : coin.required_bits = .mainnet) (c : Nat)
    (ch : Chain) (hch : s.chains[c]? = some ch) (h0 : Int) (hcp : cp.height < h0) (b0 : Int) (T0 : Nat)
    (hprev : TargetAt (s.view c) (h0 - 1) b0 T0) (n : Nat) (hn : h0 + n ≤ ch.height) (hf : h0 + n < 478558) :
    ∃ bits t, ∃ m : Nat, TargetAt (s.view c) (h0 + n) bits t ∧ (m : Int) = (h0 + n) / 2016 - (h0 - 1) / 2016 ∧
      t ≤ 4 ^ m * T0 ∧ (m = 0 → bits = b0) := by
  refine C118_growth (s.view c) h0 (h0 + n + 1) (by omega) b0 T0 hprev (fun k hk hk' => ?_) n (by omega)
  obtain ⟨raw, hd, h1, h2, h3, t, ht, _⟩ := C98_on_chain he h c ch hch k (by omega) (by omega)
  have hf := deserialized_header_fields h2
  obtain ⟨_, _, _, _, hsc, _⟩ := primed_obey he h
  refine ⟨hd.bits, t, ⟨raw, h1, hf.2.2.2.2.2.2, ht⟩, ?_⟩
  rw [hf.2.2.1, Headers.required_bits] at h3
  rw [← h3]
  exact ((C17_mainnet_dispatch (s.view c) k _ (by rw [show (s.view c).coin = coin from hsc]; exact hm)).1 (by omega)).symm

/-- The checkpoint at height 0 and a header at height 1. -/
example : ∃ s c ch T, Primed toyHashes Bitcoin ChainExample.cp ChainExample.S s [ChainExample.raw0, ChainExample.raw1] ∧
    s.chains[c]? = some ch ∧ Bitcoin.required_bits = .mainnet ∧ (1 : Int) + (0 : Nat) ≤ ch.height ∧
    TargetAt (s.view c) (1 - 1) 0x1d00ffff T := by
  obtain ⟨s, s', r, h1, h2, h3⟩ := ChainExample.first
  have hS1 : ChainExample.S ChainExample.raw1 := by simp [ChainExample.S]
  have hr' := Reachable.accept h1 hS1 h2 h3
  have hp' := Primed.accept (.start h1) hS1 h2 h3
  obtain ⟨hd, c, ch, g1, g2, g3, _, g5, g6, _⟩ := C23_lookup ChainExample.env hr' ChainExample.raw1 (by simp)
  have ht := (C24_tip ChainExample.env hr' c ch g3).1
  have hcp : ((ChainExample.cp.height : Nat) : Int) = 0 := rfl
  rw [hcp] at ht
  obtain ⟨x, x1, _, _, x4, x5, _⟩ := C24_linked ChainExample.env hr' c ch g3 0 (by rw [hcp]) ht
  obtain ⟨raw, y1, y2⟩ := bind_eq_ok.mp x1
  have hraw : raw = ChainExample.raw0 := by
    rw [← (deserialized_header_fields y2).2.1]
    exact x5 hcp.symm
  subst hraw
  have y1 : s'.raw_header_at_height c 0 = .ok ChainExample.raw0 := y1
  have hpos : ¬ hd.height < 0 := by
    intro hneg
    rw [(C24_outside ChainExample.env hr' c ch g3 hd.height (.inl hneg)).2] at g6
    cases g6
  have hne : hd.height ≠ 0 := by
    intro h0
    rw [h0, y1] at g6
    exact absurd (Except.ok.inj g6) (by decide +kernel)
  exact ⟨s', c, ch, 0xffff <<< (8 * 26), hp', g3, by decide +kernel, by push_cast; omega, ChainExample.raw0, y1,
    by decide +kernel, by decide +kernel⟩

/-- A boundary where the target grows by a factor of four, and one header of the emergency rule, where it grows by a
quarter. -/
example : (exView Bitcoin (fun k => exHeader (6000 * k.toNat) 0x1b00ffff)).required_bits_fortnightly 4032 = .ok 0x1b03fffc ∧
    (exView Bitcoin (fun k => exHeader (7200 * k.toNat) 0x1b00ffff)).required_bits_EDA 480001 = .ok 0x1b013ffe := by
  decide +kernel

end Bitcoinx
