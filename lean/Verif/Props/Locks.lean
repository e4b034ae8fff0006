import Verif.Props.Times
import Verif.Props.Tx

/-! # C128: lock times along a chain -/

namespace Bitcoinx
open Spec

/-- **C128** (with the rule of the network).  If each header has a time after the median time past of the one before it, then a
transaction that is final for the block after some header is final for every later block: what `is_final_for_block` is to be
given are the height of the block and the median time past of the header before it. -/
theorem C128_stays_final (v : ChainView) (n : Nat) (raw : Nat → Bytes) (ts : Nat → Int)
    (hr : ∀ k : Nat, k ≤ n → v.raw_header_at_height k = .ok (raw k))
    (ht : ∀ k : Nat, k ≤ n → header_timestamp (raw k) = .ok (ts k))
    (hrule : ∀ (k : Nat) (m : Int), k < n → v.median_time_past k = .ok m → m < ts (k + 1)) (tx : Tx) (i j : Nat) (hij : i ≤ j)
    (hj : j ≤ n) (m m' : Int) (hm : v.median_time_past i = .ok m) (hm' : v.median_time_past j = .ok m')
    (hf : tx.is_final_for_block (i + 1) m = true) : tx.is_final_for_block (j + 1) m' = true := by
  obtain ⟨a, b, h1, h2, h3⟩ := C126_rising v n raw ts hr ht hrule i j hij hj
  rw [hm] at h1
  rw [hm'] at h2
  cases Except.ok.inj h1
  cases Except.ok.inj h2
  exact C48_monotone tx _ _ _ _ (by omega) h3 hf

/-- **C128** (locks by height).  Without any rule about times this holds of transactions that are locked by height or not at
all, or of which no input counts for the lock; of any other transaction it fails for some median times. -/
theorem C128_by_height (tx : Tx) :
    (tx.locktime < 500000000 ∨ ∀ i ∈ tx.inputs, i.sequence = 2 ^ 32 - 1) ↔
      ∀ (h h' m m' : Int), h ≤ h' → tx.is_final_for_block h m = true → tx.is_final_for_block h' m' = true := by
  simp only [C48_final, Final]
  constructor
  · rintro h a a' m m' ha hf
    rcases h with h | h
    · rcases hf with q | ⟨_, q⟩ | ⟨q, _⟩ | q
      · exact .inl q
      · exact .inr (.inl ⟨h, by omega⟩)
      · omega
      · exact .inr (.inr (.inr q))
    · exact .inr (.inr (.inr h))
  · intro h
    by_cases hl : tx.locktime < 500000000
    · exact .inl hl
    · rcases h 0 0 (tx.locktime + 1) tx.locktime (le_refl _) (.inr (.inr (.inl ⟨by omega, by omega⟩))) with q | q | q | q
      · omega
      · omega
      · omega
      · exact .inr q

open ChainExample (raw0 raw1 raw2 raw3 cp) in
open TieExample (S) in
/-- **C128** (finality lost).  There is a collection in which a transaction is final for the block at height 1 of a chain and
not for that at height 3. -/
theorem C128_lost : ∃ (s : Headers) (c : Nat) (tx : Tx) (m m' : Int),
    Reachable toyHashes Bitcoin cp S s [raw0, raw1, raw2, raw3] ∧ s.median_time_past c 0 = .ok m ∧
    s.median_time_past c 2 = .ok m' ∧ tx.is_final_for_block 1 m = true ∧ tx.is_final_for_block 3 m' = false := by
  obtain ⟨s, c, h1, h2, h3⟩ := C126_falling
  exact ⟨s, c, { exampleTx with locktime := 1000000000 }, _, _, h1, h2, h3, by decide, by decide⟩

/-- A transaction locked by height, and one locked by time. -/
example : exampleTx.locktime < 500000000 ∧
    ¬ (({ exampleTx with locktime := 1000000000 } : Tx).locktime < 500000000 ∨
      ∀ i ∈ ({ exampleTx with locktime := 1000000000 } : Tx).inputs, i.sequence = 2 ^ 32 - 1) := by
  decide

/-- A chain that obeys the rule, and a transaction that is final for its block at height 2: what `C128_stays_final` asks for. -/
example : let ts : Nat → Int := fun k => [500000010, 500000030, 500000031, 500000040, 500000035].getD k 0
    let v := exView Bitcoin fun k => exHeader (ts k.toNat).toNat 0x1d00ffff
    v.median_time_past 1 = .ok 500000030 ∧ v.median_time_past 4 = .ok 500000031 ∧
    (∀ k : Nat, k < 4 → ∃ m, v.median_time_past k = .ok m ∧ m < ts (k + 1)) ∧
    ({ exampleTx with locktime := 500000020 } : Tx).is_final_for_block 2 500000030 = true := by
  intro ts v
  refine ⟨by decide +kernel, by decide +kernel, ?_, by decide⟩
  intro k hk
  interval_cases k
  · exact ⟨500000010, by decide +kernel, by decide⟩
  · exact ⟨500000030, by decide +kernel, by decide⟩
  · exact ⟨500000030, by decide +kernel, by decide⟩
  · exact ⟨500000031, by decide +kernel, by decide⟩

end Bitcoinx
