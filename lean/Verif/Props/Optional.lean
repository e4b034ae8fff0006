import Verif.Model.Optional
import Verif.Props.HistoryExample

/-! # C117: `required_bits` without a timestamp -/

namespace Bitcoinx
open Spec
variable {H : Hashes} {coin : Coin} {cp : CheckPoint} {S : Bytes → Prop} {s : Headers} {A : List Bytes}

/-- **C117** (mainnet).  The timestamp may be left out, and makes no difference. -/
theorem C117_mainnet (s : Headers) (hm : s.coin.required_bits = .mainnet) (c : Nat) (h : Int) :
    ∀ t, s.required_bits_opt c h none = s.required_bits c h t ∧ s.required_bits_opt c h (some t) = s.required_bits c h t := by
  intro t
  have hm' : (s.view c).coin.required_bits = .mainnet := hm
  simp only [Headers.required_bits_opt, ChainView.required_bits_opt, Headers.required_bits, ChainView.required_bits, hm',
    and_self]

/-- **C117** (testnets).  Without a timestamp there is never an answer: if the chain has a header at the height before, the
error is `TypeError`, also where the rule would not need the timestamp; otherwise it is the error of reading that header. -/
theorem C117_testnet (he : Env H cp S) (hr : Reachable H coin cp S s A) (hm : coin.required_bits ≠ .mainnet) (c : Nat)
    (hc : c < s.chains.length) (h : Int) :
    (∀ raw, s.raw_header_at_height c (h - 1) = .ok raw → s.required_bits_opt c h = .error .typeError) ∧
    (∀ e, s.raw_header_at_height c (h - 1) = .error e → s.required_bits_opt c h = .error e) := by
  obtain ⟨T, hI, rfl, rfl, rfl, hA⟩ := reachable_inv he hr
  have hm' : (s.view c).coin.required_bits ≠ .mainnet := hm
  have hd : s.required_bits_opt c h = (do
      let prior_raw_header ← s.raw_header_at_height c (h - 1)
      let _ ← header_timestamp prior_raw_header
      .error .typeError) := by
    unfold Headers.required_bits_opt ChainView.required_bits_opt
    cases hq : (s.view c).coin.required_bits with
    | mainnet => exact absurd hq hm'
    | testnet => rfl
    | scaling_testnet => rfl
  rw [hd]
  constructor
  · intro raw hraw
    have hch := List.getElem?_eq_getElem hc
    have hl : raw.length = 80 := by
      by_cases h0 : h - 1 < 0
      · rw [hI.toDesc.raw_neg hch h0] at hraw; cases hraw
      · by_cases h1 : h - 1 < s.checkpoint.height
        · obtain ⟨m, hm⟩ : ∃ m : Nat, h - 1 = m := ⟨(h - 1).toNat, by omega⟩
          rw [hm, hI.toDesc.raw_below hch (by omega)] at hraw
          obtain ⟨cap, hw⟩ := hI.wf
          exact (hw.get_length m raw hraw).1
        · obtain ⟨m, hm⟩ : ∃ m : Nat, h - 1 = ((s.checkpoint.height + m : Nat) : Int) :=
            ⟨(h - 1 - s.checkpoint.height).toNat, by omega⟩
          obtain ⟨t, N, base, own, hci⟩ := hI.toDesc.chain_at hch
          have hheight := (hI.toDesc.height_eq hci).1
          by_cases h2 : s.chains[c].height < h - 1
          · rw [(C24_outside he hr c _ hch (h - 1) (.inr h2)).2] at hraw; cases hraw
          · rw [hheight, nodeHeight] at h2
            have hpos := (hI.good.node t N hci.node).pos
            have hj := List.getElem?_eq_getElem (l := N.path) (i := m) (by omega)
            obtain ⟨M, hM, _⟩ := hI.good.path t N m _ hci.node hj
            rw [hm, hI.toDesc.raw_at hch hci hj hM] at hraw
            cases hraw
            exact (hI.toDesc.valid hM).length
    rw [hraw, ok_bind', (mkHeader_fields (H := s.H) 0 hl).2.2.2.2.1, ok_bind']
  · intro e hraw
    rw [hraw, error_bind']

/-- On the chains of the example, of a testnet: at the first height after the checkpoint. -/
example : ∃ s, Reachable toyHashes BitcoinTestnet ChainExample.cp ChainExample.S s [ChainExample.raw0] ∧
    s.required_bits_opt 0 1 = .error .typeError ∧ s.required_bits_opt 0 5 = .error .missingHeader := by
  obtain ⟨s, a1, a2, a3, a4, a5, a6⟩ := fresh_ok (coin := BitcoinTestnet) (file := none) ChainExample.env
    (work_of_target (raw := ChainExample.raw0) (b := 0x1d00ffff) (t := 0xffff <<< (8 * 26)) (by decide +kernel)
      (by decide +kernel)) (by simp) (by simp)
  have hr : Reachable toyHashes BitcoinTestnet ChainExample.cp ChainExample.S s [ChainExample.raw0] :=
    .start (by simp) (by simp) a1
  have hc : 0 < s.chains.length := List.length_pos_iff.2 (C32_reachable ChainExample.env hr)
  have hm : BitcoinTestnet.required_bits ≠ .mainnet := by decide +kernel
  refine ⟨s, hr, (C117_testnet ChainExample.env hr hm 0 hc 1).1 ChainExample.raw0 ?_,
    (C117_testnet ChainExample.env hr hm 0 hc 5).2 _ ?_⟩
  · have := raw_on_path a2 (i := 0) (k := 0) (j := 0) rfl rfl rfl
    rw [a5] at this
    exact this
  · have hch := List.getElem?_eq_getElem hc
    refine (C24_outside ChainExample.env hr 0 _ hch _ (.inr ?_)).2
    obtain ⟨t, N, base, own, hci⟩ := a2.toDesc.chain_at hch
    rw [(a2.toDesc.height_eq hci).1, nodeHeight]
    have hn := hci.node
    match t with
    | 0 =>
      simp only [List.getElem?_cons_zero, Option.some.injEq] at hn
      rw [← hn, a5]
      decide
    | t + 1 => simp at hn

end Bitcoinx
