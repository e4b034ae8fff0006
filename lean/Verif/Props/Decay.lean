import Mathlib.Order.Interval.Finset.Basic
import Mathlib.Data.Int.Interval
import Mathlib.Algebra.Order.BigOperators.Group.Finset
import Mathlib.Algebra.BigOperators.Intervals
import Mathlib.Algebra.BigOperators.Ring.Finset
import Verif.Props.HistoryExample
import Verif.Props.Daa
import Verif.Props.Work

/-! # C116: how fast the difficulty can fall -/

namespace Bitcoinx
open Spec

/-- The work of the header at a height of a chain; 0 if there is none. -/
def workAt (v : ChainView) (k : Int) : Nat :=
  match v.raw_header_at_height k with
  | .error _ => 0
  | .ok raw => match header_bits raw with
    | .error _ => 0
    | .ok bits => match bits_to_work bits with
      | .error _ => 0
      | .ok w => w

theorem workAt_eq {v : ChainView} {k : Int} {w : Nat}
    (h : (do let raw ← v.raw_header_at_height k
             header_work raw) = Except.ok w) : workAt v k = w := by
  obtain ⟨raw, h1, h⟩ := bind_eq_ok.mp h
  obtain ⟨bits, h2, h3⟩ := bind_eq_ok.mp h
  simp only [workAt, h1, h2, h3]

theorem sum_range_works (v : ChainView) (n : Nat) (a : Int) (works : List Nat)
    (h : List.Forall₂ (fun k w => (do let raw ← v.raw_header_at_height k
                                      header_work raw) = Except.ok w)
      ((List.range n).map fun (k : Nat) => a + (k : Int)) works) :
    works.sum = ∑ k ∈ Finset.Ico a (a + n), workAt v k := by
  induction n generalizing a works with
  | zero => simp at h; simp [h]
  | succ n ih =>
    rw [List.range_succ_eq_map, List.map_cons, List.map_map] at h
    cases h with
    | @cons _ w _ ws hw hws =>
      have := ih (a + 1) ws (by
        convert hws using 1
        apply List.map_congr_left
        intro x _
        simp only [Function.comp]
        push_cast; omega)
      rw [List.sum_cons, this, show Finset.Ico a (a + ((n + 1 : Nat) : Int)) = insert a (Finset.Ico (a + 1) (a + 1 + n)) from ?_,
        Finset.sum_insert (by simp)]
      · rw [workAt_eq (v := v) (k := a) (w := w) (by simpa using hw)]
      · ext x; simp only [Finset.mem_Ico, Finset.mem_insert]; omega

theorem chainwork_sum {v : ChainView} {a b : Int} {W : Nat} (h : v.chainwork_range a b = .ok W) (hab : a ≤ b) :
    W = ∑ k ∈ Finset.Ico a b, workAt v k := by
  obtain ⟨works, h1, h2⟩ := bind_eq_ok.mp h
  have := sum_range_works v _ a works (mapE_eq_ok h1)
  rw [pure_ok'] at h2
  rw [← Except.ok.inj h2, this]
  congr 2
  omega

theorem median_height {v : ChainView} {k : Int} {m : Header} (h : v.median_prior_header k = .ok m) :
    k - 3 ≤ m.height ∧ m.height ≤ k - 1 := by
  have h0 := h
  obtain ⟨a, ha, h⟩ := bind_eq_ok.mp h
  obtain ⟨b, hb, h⟩ := bind_eq_ok.mp h
  obtain ⟨c, hc, h⟩ := bind_eq_ok.mp h
  obtain ⟨m', h1, h2, _⟩ := C15_median v k a b c ha hb hc
  rw [h0] at h1
  cases h1
  have hh : ∀ (x : Header) (j : Int), v.header_at_height j = .ok x → x.height = j := by
    intro x j hx
    obtain ⟨raw, _, hx⟩ := bind_eq_ok.mp hx
    exact (deserialized_header_fields hx).2.2.1
  rcases h2 with rfl | rfl | rfl
  · rw [hh _ _ ha]; omega
  · rw [hh _ _ hb]; omega
  · rw [hh _ _ hc]; omega

/-- **C116** (one header).  What the DAA requires at a height, if it requires anything: the work `w` is at least about
the 288th part of the work of the headers 3 to 144 before, so not less than about half of their average; and unless it
is the least work that the coin allows, it is not more than about the 72nd part of the work of the 146 headers before,
so not more than about twice their average. -/
theorem C116_step (v : ChainView) (h b : Int) (hb : v.required_bits_DAA h = .ok b) :
    ∃ t w, bits_to_target b = .ok t ∧ bits_to_work b = .ok w ∧
      ∑ k ∈ Finset.Ico (h - 144) (h - 2), workAt v k < 288 * (w + 1) ∧
      (2 ^ 15 ≤ t → (∀ r, Representable r → r ≤ v.coin.max_target → r ≤ t) ∨
        72 * 32767 * w < 32769 * ∑ k ∈ Finset.Ico (h - 146) h, workAt v k) := by
  rw [ChainView.required_bits_DAA] at hb
  obtain ⟨s, hs, hb⟩ := bind_eq_ok.mp hb
  obtain ⟨e, he, hb⟩ := bind_eq_ok.mp hb
  obtain ⟨W, hW, hb⟩ := bind_eq_ok.mp hb
  have s1 := median_height hs
  have e1 := median_height he
  have hsum := chainwork_sum hW (by omega)
  have hlo : ∑ k ∈ Finset.Ico (h - 144) (h - 2), workAt v k ≤ W := by
    rw [hsum]
    apply Finset.sum_le_sum_of_subset
    intro x; simp only [Finset.mem_Ico]; omega
  have hhi : W ≤ ∑ k ∈ Finset.Ico (h - 146) h, workAt v k := by
    rw [hsum]
    apply Finset.sum_le_sum_of_subset
    intro x; simp only [Finset.mem_Ico]; omega
  have hcl := min_max_clamped 43200 172800 (e.timestamp - s.timestamp) (by norm_num)
  dsimp only at hb
  generalize min (max (e.timestamp - s.timestamp) 43200) 172800 = p at hcl hb
  have hp : 43200 ≤ p ∧ p ≤ 172800 := by unfold Clamped at hcl; omega
  have hfl := ediv_isFloorDiv ((W : Int) * 600) p (by omega)
  have hq0 : 0 ≤ ((W : Int) * 600) / p := Int.ediv_nonneg (by positivity) (by omega)
  generalize ((W : Int) * 600) / p = q at hfl hq0 hb
  obtain ⟨q, rfl⟩ := Int.eq_ofNat_of_zero_le hq0
  split at hb
  · cases hb
  next hne =>
  obtain ⟨b', hb', hb⟩ := bind_eq_ok.mp hb
  rw [pure_ok'] at hb
  cases Except.ok.inj hb
  have hfl2 := ediv_isFloorDiv (2 ^ 256) (q : Int) (by omega)
  have hQ0 : 0 ≤ (2 ^ 256 : Int) / q := Int.ediv_nonneg (by positivity) (by omega)
  generalize (2 ^ 256 : Int) / q = Q at hfl2 hQ0 hb'
  obtain ⟨Q, rfl⟩ := Int.eq_ofNat_of_zero_le hQ0
  obtain ⟨hrng, hno⟩ := C12_rounds_down (min ((Q : Int) - 1) v.coin.max_target)
  by_cases hr : 0 ≤ min ((Q : Int) - 1) (v.coin.max_target : Int) ∧ min ((Q : Int) - 1) (v.coin.max_target : Int) < 2 ^ 256
  · obtain ⟨b2, r, g1, g2, g3, _, g5, g6⟩ := hrng hr
    rw [hb'] at g1
    cases g1
    refine ⟨r, 2 ^ 256 / (r + 1), g2, by simp [bits_to_work, g2], ?_, ?_⟩
    · have hqW : W < 288 * (q + 1) := by
        unfold IsFloorDiv at hfl
        have h2 := hfl.2
        have : (W : Int) * 600 < (q + 1) * 172800 := by nlinarith
        omega
      have hqw : q ≤ 2 ^ 256 / (r + 1) := by
        rw [Nat.le_div_iff_mul_le (by omega)]
        unfold IsFloorDiv at hfl2
        have h1 := hfl2.1
        have h3 : r + 1 ≤ Q := by omega
        have h4 : q * Q ≤ 2 ^ 256 := by
          have : ((q * Q : Nat) : Int) ≤ 2 ^ 256 := by push_cast; linarith
          exact_mod_cast this
        exact le_trans (Nat.mul_le_mul_left q h3) h4
      omega
    · intro ht
      by_cases hmin : (Q : Int) - 1 ≤ v.coin.max_target
      · right
        rw [min_eq_left hmin] at g6 g3
        have hQ : 2 ^ 15 < Q := by omega
        have h15 : 32767 * Q < 2 ^ 15 * (r + 1) := by
          rcases g6 with g6 | g6
          · omega
          · omega
        have hqW : 72 * q ≤ W := by
          unfold IsFloorDiv at hfl
          have h2 := hfl.1
          have : (q : Int) * 43200 ≤ W * 600 := by nlinarith
          omega
        have hw := Nat.div_mul_le_self (2 ^ 256) (r + 1)
        generalize 2 ^ 256 / (r + 1) = w at hw
        have hlt : 2 ^ 256 < q * (Q + 1) := by
          unfold IsFloorDiv at hfl2
          have : (2 ^ 256 : Int) < ((q * (Q + 1) : Nat) : Int) := by push_cast; linarith [hfl2.2]
          exact_mod_cast this
        have hA : w * (r + 1) < q * (Q + 1) := lt_of_le_of_lt hw hlt
        have hqpos : 0 < q := Nat.pos_of_ne_zero fun h0 => by rw [h0, Nat.zero_mul] at hlt; exact absurd hlt (Nat.not_lt_zero _)
        have hB : w * 32767 < q * 32769 := by
          by_contra hc
          push Not at hc
          have c1 : q * 32769 * Q ≤ w * 32767 * Q := Nat.mul_le_mul_right _ hc
          have c2 : w * (32767 * Q) ≤ w * (2 ^ 15 * (r + 1)) := Nat.mul_le_mul_left _ (le_of_lt h15)
          have c3 : 2 ^ 15 * (w * (r + 1)) < 2 ^ 15 * (q * (Q + 1)) := Nat.mul_lt_mul_of_pos_left hA (by norm_num)
          have c4 : 2 ^ 15 * (q * (Q + 1)) ≤ q * 32769 * Q := by nlinarith
          nlinarith
        calc 72 * 32767 * w = 72 * (w * 32767) := by ring
          _ < 72 * (q * 32769) := by omega
          _ = 32769 * (72 * q) := by ring
          _ ≤ 32769 * W := Nat.mul_le_mul_left _ hqW
          _ ≤ _ := Nat.mul_le_mul_left _ hhi
      · left
        intro r' h1 h2
        apply g5 r' h1
        omega
  · rw [hno hr] at hb'
    cases hb'

/-- The constant of `C116_decay`: 142 headers, each of which has at least the work that falls by 0.9% from header to
header, suffice for the next one to have it too. -/
theorem decay_constant : 288 * 1000 ^ 144 ≤ ∑ t ∈ Finset.range 142, 1000 ^ t * 1009 ^ (144 - t) := by
  decide +kernel

/-- **C116** (many headers).  If from height `h0` on the headers of a chain have the bits that the DAA requires, and the
144 before have a work of at least `w0` each, the work of the following headers falls by at most 0.9% from header to
header, counted from the first of the 144: so by at most half in 77 headers. -/
theorem C116_decay (v : ChainView) (h0 h1 : Int) (w0 : Nat)
    (hold : ∀ k, h0 - 144 ≤ k → k < h0 → w0 ≤ workAt v k)
    (hnew : ∀ k, h0 ≤ k → k < h1 → ∃ raw bits, v.raw_header_at_height k = .ok raw ∧ header_bits raw = .ok bits ∧
      v.required_bits_DAA k = .ok bits) (n : Nat) (hn : h0 + n < h1) :
    (w0 + 2) * 1000 ^ (n + 144) ≤ (workAt v (h0 + n) + 2) * 1009 ^ (n + 144) := by
  have key : ∀ i : Nat, h0 - 144 + i < h1 → (w0 + 2) * 1000 ^ i ≤ (workAt v (h0 - 144 + i) + 2) * 1009 ^ i := by
    intro i
    induction i using Nat.strong_induction_on with
    | _ i ih =>
      intro hi
      by_cases h144 : i < 144
      · have := hold (h0 - 144 + i) (by omega) (by omega)
        exact Nat.mul_le_mul (by omega) (Nat.pow_le_pow_left (by norm_num) _)
      · obtain ⟨raw, bits, g1, g2, g3⟩ := hnew (h0 - 144 + i) (by omega) hi
        obtain ⟨t, w, _, hw, hlow, _⟩ := C116_step v _ _ g3
        have hwa : workAt v (h0 - 144 + i) = w := by simp only [workAt, g1, g2, hw]
        rw [hwa]
        obtain ⟨j, rfl⟩ : ∃ j, i = j + 144 := ⟨i - 144, by omega⟩
        have hre : ∑ k ∈ Finset.Ico (h0 - 144 + ((j + 144 : Nat) : Int) - 144) (h0 - 144 + ((j + 144 : Nat) : Int) - 2), workAt v k =
            ∑ t ∈ Finset.range 142, workAt v (h0 - 144 + ((j + t : Nat) : Int)) := by
          symm
          apply Finset.sum_bij (fun (t : Nat) _ => h0 - 144 + ((j + t : Nat) : Int))
          · intro a ha; simp only [Finset.mem_range, Finset.mem_Ico] at ha ⊢; omega
          · intro a _ b _ hab; omega
          · intro b hb
            simp only [Finset.mem_Ico] at hb
            refine ⟨(b - (h0 - 144) - j).toNat, ?_, ?_⟩
            · simp only [Finset.mem_range]; omega
            · omega
          · intro a _; rfl
        rw [hre] at hlow
        have hsum : ∑ t ∈ Finset.range 142, (workAt v (h0 - 144 + ((j + t : Nat) : Int)) + 2) ≤ 288 * (w + 2) := by
          rw [Finset.sum_add_distrib, Finset.sum_const, Finset.card_range, show (142 : Nat) • 2 = 284 from rfl]
          omega
        have hterm : ∑ t ∈ Finset.range 142, (w0 + 2) * 1000 ^ j * (1000 ^ t * 1009 ^ (144 - t)) ≤
            ∑ t ∈ Finset.range 142, (workAt v (h0 - 144 + ((j + t : Nat) : Int)) + 2) * 1009 ^ (j + 144) := by
          apply Finset.sum_le_sum
          intro t ht
          rw [Finset.mem_range] at ht
          have h1 := ih (j + t) (by omega) (by push_cast at hi ⊢; omega)
          calc (w0 + 2) * 1000 ^ j * (1000 ^ t * 1009 ^ (144 - t)) = (w0 + 2) * 1000 ^ (j + t) * 1009 ^ (144 - t) := by
                rw [pow_add]; ring
            _ ≤ (workAt v (h0 - 144 + ((j + t : Nat) : Int)) + 2) * 1009 ^ (j + t) * 1009 ^ (144 - t) :=
                Nat.mul_le_mul_right _ h1
            _ = _ := by rw [mul_assoc, ← pow_add]; congr 2; omega
        rw [← Finset.mul_sum, ← Finset.sum_mul] at hterm
        have hc := Nat.mul_le_mul_left ((w0 + 2) * 1000 ^ j) decay_constant
        have hd := Nat.mul_le_mul_right (1009 ^ (j + 144)) hsum
        have : 288 * ((w0 + 2) * 1000 ^ (j + 144)) ≤ 288 * ((w + 2) * 1009 ^ (j + 144)) := by
          calc 288 * ((w0 + 2) * 1000 ^ (j + 144)) = (w0 + 2) * 1000 ^ j * (288 * 1000 ^ 144) := by
                rw [pow_add]; ring
            _ ≤ 288 * (w + 2) * 1009 ^ (j + 144) := le_trans hc (le_trans hterm hd)
            _ = _ := by ring
        exact Nat.le_of_mul_le_mul_left this (by norm_num)
  have := key (n + 144) (by push_cast; omega)
  rwa [show h0 - 144 + ((n + 144 : Nat) : Int) = h0 + n by push_cast; ring] at this

/-- What the DAA requires at a height depends on the 147 headers before it only. -/
theorem C116_window (v w : ChainView) (h : Int) (hc : v.coin = w.coin) (hH : v.H = w.H)
    (heq : ∀ k, h - 147 ≤ k → k < h → v.raw_header_at_height k = w.raw_header_at_height k) :
    v.required_bits_DAA h = w.required_bits_DAA h := by
  have hh : ∀ k, h - 147 ≤ k → k < h → v.header_at_height k = w.header_at_height k := by
    intro k h1 h2
    simp only [ChainView.header_at_height, heq k h1 h2, hH]
  have m1 : v.median_prior_header (h - 144) = w.median_prior_header (h - 144) := by
    simp only [ChainView.median_prior_header]
    rw [hh (h - 144 - 3) (by omega) (by omega), hh (h - 144 - 2) (by omega) (by omega), hh (h - 144 - 1) (by omega) (by omega)]
  have m2 : v.median_prior_header h = w.median_prior_header h := by
    simp only [ChainView.median_prior_header]
    rw [hh (h - 3) (by omega) (by omega), hh (h - 2) (by omega) (by omega), hh (h - 1) (by omega) (by omega)]
  rw [ChainView.required_bits_DAA, ChainView.required_bits_DAA, ← m1, ← m2, hc]
  cases hs : v.median_prior_header (h - 144) with
  | error e => rfl
  | ok s =>
    cases he : v.median_prior_header h with
    | error e => rfl
    | ok e =>
      have s1 := median_height hs
      have e1 := median_height he
      have hw : v.chainwork_range (s.height + 1) (e.height + 1) = w.chainwork_range (s.height + 1) (e.height + 1) := by
        rw [ChainView.chainwork_range, ChainView.chainwork_range]
        congr 1
        apply mapE_congr
        intro k hk
        rw [mem_pyRange] at hk
        rw [heq k (by omega) (by omega)]
      simp only [ok_bind', hw]

section
variable {H : Hashes} {coin : Coin} {cp : CheckPoint} {S : Bytes → Prop} {s : Headers} {A : List Bytes}

/-- The histories in which the headers below the checkpoint are set before the first header is connected, if at all:
whatever leaves a collection with the checkpoint's header only, then any sequence of `connect` and reopening. -/
inductive Primed (H : Hashes) (coin : Coin) (cp : CheckPoint) (S : Bytes → Prop) : Headers → List Bytes → Prop
  | start {s : Headers} : Reachable H coin cp S s [cp.raw_header] → Primed H coin cp S s [cp.raw_header]
  | accept {s s' : Headers} {A : List Bytes} {raw : Bytes} {r : Header × Nat} :
      Primed H coin cp S s A → S raw → Room s → s.connect raw = (s', .ok r) → Primed H coin cp S s' (A ++ [raw])
  | reject {s s' : Headers} {A : List Bytes} {raw : Bytes} {e : Err} :
      Primed H coin cp S s A → S raw → Room s → s.connect raw = (s', .error e) → Primed H coin cp S s' A
  | reopen {s s' : Headers} {A : List Bytes} {f' : Option Bytes} :
      Primed H coin cp S s A →
      Headers.from_file H coin (some s.storage.file) cp = (f', .ok s') → Primed H coin cp S s' A

theorem primed_obey (he : Env H cp S) (h : Primed H coin cp S s A) :
    ∃ T, Inv S s T ∧ AllObey s T ∧ s.H = H ∧ s.coin = coin ∧ s.checkpoint = cp := by
  induction h with
  | start hr =>
    obtain ⟨T, hI, h1, h2, h3, hA⟩ := reachable_inv he hr
    refine ⟨T, hI, ?_, h1, h2, h3⟩
    intro i N hN hi
    have hm := (hA _).2 ⟨i, N, hN, rfl⟩
    rw [List.mem_singleton] at hm
    exact absurd (hI.good.raw_inj _ _ _ _ hN hI.good.root_node (by rw [hm, h3])) hi
  | accept _ hS hr hc ih =>
    obtain ⟨T, hI, hall, h1, h2, h3⟩ := ih
    obtain ⟨T', a1, a2, a3, a4, a5⟩ := allObey_connect hI hall hS hr hc
    exact ⟨T', a1, a2, by rw [a3, h1], by rw [a4, h2], by rw [a5, h3]⟩
  | reject _ hS hr hc ih =>
    obtain ⟨T, hI, hall, h1, h2, h3⟩ := ih
    obtain ⟨T', a1, a2, a3, a4, a5⟩ := allObey_connect hI hall hS hr hc
    exact ⟨T', a1, a2, by rw [a3, h1], by rw [a4, h2], by rw [a5, h3]⟩
  | @reopen s s' A f' _ hf ih =>
    obtain ⟨T, hI, hall, rfl, rfl, rfl⟩ := ih
    obtain ⟨s1, h1, h2, h3, h4, h5, h6, h7⟩ := hI.reopen s.coin
    rw [h1] at hf
    cases hf
    refine ⟨T, h2, ?_, h5, h6, h7⟩
    intro i N hN hi
    rw [h5, h7]
    exact obeys_extend (T' := []) hI (by simpa using h2) h5 h6 h7 (fun _ _ => by rw [h4]) hN (hall i N hN hi)

/-- Every header of a chain after the checkpoint obeys the rules as evaluated on that chain, also the headers that the
chain shares with the chain it forked from. -/
theorem C98_on_chain (he : Env H cp S) (h : Primed H coin cp S s A) (c : Nat) (ch : Chain) (hch : s.chains[c]? = some ch)
    (k : Int) (hk : cp.height < k) (hk' : k ≤ ch.height) :
    ∃ raw hd, s.raw_header_at_height c k = .ok raw ∧ deserialized_header H raw k = .ok hd ∧ Obeys s hd c := by
  obtain ⟨T, hI, hall, rfl, rfl, rfl⟩ := primed_obey he h
  obtain ⟨t, N, base, own, hci⟩ := hI.toDesc.chain_at hch
  have hpos := (hI.good.node t N hci.node).pos
  have hheight := (hI.toDesc.height_eq hci).1
  obtain ⟨m, rfl⟩ : ∃ m : Nat, k = ((s.checkpoint.height + m : Nat) : Int) := ⟨(k - s.checkpoint.height).toNat, by omega⟩
  rw [hheight, nodeHeight] at hk'
  have hm : m < N.path.length := by omega
  have hj := List.getElem?_eq_getElem hm
  obtain ⟨M, hM, hpath⟩ := hI.good.path t N m _ hci.node hj
  have hlen : M.path.length = m + 1 := by rw [hpath, List.length_take]; omega
  have hnh : nodeHeight s.checkpoint M = s.checkpoint.height + m := by rw [nodeHeight]; omega
  have hval := (hI.toDesc.valid hM).length
  refine ⟨M.raw, mkHeader s.H M.raw ((s.checkpoint.height + m : Nat) : Int), hI.toDesc.raw_at hch hci hj hM,
    mkHeader_ok _ hval, ?_⟩
  have hf := mkHeader_fields (H := s.H) ((s.checkpoint.height + m : Nat) : Int) hval
  have hob := hall _ M hM (by
    intro h0
    rw [h0, hI.good.root_node] at hM
    cases hM
    simp at hlen
    omega)
  rw [hnh] at hob
  refine ⟨?_, hob.2⟩
  have hsame := required_same (T' := []) hI (by simpa using hI) rfl rfl rfl (fun _ _ => rfl) hM
    (by simpa using hci.node) (rest := N.path.drop (m + 1)) (by rw [hpath, List.take_append_drop])
    (mkHeader s.H M.raw ((s.checkpoint.height + m : Nat) : Int)).height
    (mkHeader s.H M.raw ((s.checkpoint.height + m : Nat) : Int)).timestamp (by rw [hf.2.1, hnh]; omega)
  rw [hci.chain] at hsame
  rw [hsame]
  exact hob.1

/-- **C116** (collections).  On the chains of a collection of a coin that uses the DAA without the testnet's exception,
the work of the headers falls by at most 0.9% from header to header, whoever makes them and whatever time they give:
above the checkpoint and the height at which the DAA begins, and counted from 144 headers of work at least `w0`. -/
theorem C116_collection (he : Env H cp S) (h : Primed H coin cp S s A) (c : Nat) (ch : Chain)
    (hch : s.chains[c]? = some ch) (h0 : Int) (hcp : cp.height < h0)
    (hcoin : coin.required_bits = .mainnet ∧ 504031 < h0 ∨ coin.required_bits = .scaling_testnet ∧ 2200 < h0) (w0 : Nat)
    (hold : ∀ k, h0 - 144 ≤ k → k < h0 → w0 ≤ workAt (s.view c) k) (n : Nat) (hn : h0 + n ≤ ch.height) :
    (w0 + 2) * 1000 ^ (n + 144) ≤ (workAt (s.view c) (h0 + n) + 2) * 1009 ^ (n + 144) := by
  refine C116_decay (s.view c) h0 (ch.height + 1) w0 hold (fun k hk hk' => ?_) n (by omega)
  obtain ⟨raw, hd, h1, h2, h3, _⟩ := C98_on_chain he h c ch hch k (by omega) (by omega)
  have hf := deserialized_header_fields h2
  obtain ⟨_, _, _, _, hsc, _⟩ := primed_obey he h
  refine ⟨raw, hd.bits, h1, hf.2.2.2.2.2.2, ?_⟩
  rw [hf.2.2.1, Headers.required_bits, ChainView.required_bits] at h3
  rw [show (s.view c).coin = coin from hsc] at h3
  rcases hcoin with ⟨e, hh⟩ | ⟨e, hh⟩
  · rw [e] at h3
    simp only [ChainView.required_bits_mainnet] at h3
    rwa [if_neg (by omega), if_neg (by omega)] at h3
  · rw [e] at h3
    simp only [ChainView.required_bits_scaling_testnet, ChainView.required_bits_testnet_] at h3
    obtain ⟨_, _, h3⟩ := bind_eq_ok.mp h3
    obtain ⟨_, _, h3⟩ := bind_eq_ok.mp h3
    rw [if_neg (by omega)] at h3
    simpa using h3

theorem decay_sum (a : Nat → Nat) (w0 n : Nat) (h : ∀ i, i < n → w0 * 1000 ^ (i + 144) ≤ a i * 1009 ^ (i + 144)) :
    w0 * 1000 ^ 144 * 1009 ^ n ≤ 9 * 1009 ^ (n + 143) * ∑ i ∈ Finset.range n, a i + w0 * 1000 ^ (n + 144) := by
  induction n with
  | zero => simp
  | succ n ih =>
    have h1 := ih fun i hi => h i (by omega)
    have h2 := h n (by omega)
    rw [Finset.sum_range_succ]
    generalize ∑ i ∈ Finset.range n, a i = X at h1 ⊢
    have e1 : 1009 ^ (n + 1 + 143) = 1009 * 1009 ^ (n + 143) := by rw [← pow_succ']
    have e2 : 1009 ^ (n + 144) = 1009 * 1009 ^ (n + 143) := by rw [← pow_succ']
    have e3 : 1000 ^ (n + 1 + 144) = 1000 * 1000 ^ (n + 144) := by rw [← pow_succ']
    rw [e2] at h2
    rw [e1, e3, pow_succ' 1009 n]
    generalize 1009 ^ (n + 143) = q at *
    generalize 1000 ^ (n + 144) = r at *
    generalize 1009 ^ n = u at *
    generalize 1000 ^ 144 = c at *
    calc w0 * c * (1009 * u) = 1009 * (w0 * c * u) := by ring
      _ ≤ 1009 * (9 * q * X + w0 * r) := Nat.mul_le_mul_left _ h1
      _ = 9 * (1009 * q) * X + 9 * (w0 * r) + 1000 * (w0 * r) := by ring
      _ ≤ 9 * (1009 * q) * X + 9 * (a n * (1009 * q)) + 1000 * (w0 * r) := by
        have := Nat.mul_le_mul_left 9 h2
        omega
      _ = _ := by ring

/-- **C116** (cost).  The work of the first `n` headers after 144 of work at least `w0` each is, up to 2 for each header,
at least `w0 * (1000/1009)^144 * (1 - (1000/1009)^n) * 1009/9`: about 15 `w0` for 77 headers, and about 30 `w0` for many,
however low the difficulty may have become by then. -/
theorem C116_cost (he : Env H cp S) (h : Primed H coin cp S s A) (c : Nat) (ch : Chain)
    (hch : s.chains[c]? = some ch) (h0 : Int) (hcp : cp.height < h0)
    (hcoin : coin.required_bits = .mainnet ∧ 504031 < h0 ∨ coin.required_bits = .scaling_testnet ∧ 2200 < h0) (w0 : Nat)
    (hold : ∀ k, h0 - 144 ≤ k → k < h0 → w0 ≤ workAt (s.view c) k) (n : Nat) (hn : h0 + n ≤ ch.height + 1) (W : Nat)
    (hW : s.chainwork_range c h0 (h0 + n) = .ok W) :
    (w0 + 2) * 1000 ^ 144 * 1009 ^ n ≤ 9 * 1009 ^ (n + 143) * (W + 2 * n) + (w0 + 2) * 1000 ^ (n + 144) := by
  have hs : W + 2 * n = ∑ i ∈ Finset.range n, (workAt (s.view c) (h0 + i) + 2) := by
    rw [Finset.sum_add_distrib, Finset.sum_const, Finset.card_range, nsmul_eq_mul, chainwork_sum hW (by omega)]
    rw [show ∑ k ∈ Finset.Ico h0 (h0 + n), workAt (s.view c) k = ∑ i ∈ Finset.range n, workAt (s.view c) (h0 + i) from ?_]
    · simp only [Nat.cast_id]; omega
    · symm
      apply Finset.sum_bij (fun (t : Nat) _ => h0 + (t : Int))
      · intro a ha; simp only [Finset.mem_range, Finset.mem_Ico] at ha ⊢; omega
      · intro a _ b _ hab; omega
      · intro b hb
        simp only [Finset.mem_Ico] at hb
        exact ⟨(b - h0).toNat, by simp only [Finset.mem_range]; omega, by omega⟩
      · intro a _; rfl
  rw [hs]
  exact decay_sum _ (w0 + 2) n fun i hi => C116_collection he h c ch hch h0 hcp hcoin w0 hold i (by omega)

end

/-! ## Examples -/

/-- One header with the bits required, after 147 that took ten times as long as they should have: its work is half of
theirs. -/
example : let v := exView Bitcoin fun k => exHeader (6000 * (k.toNat - 599000)) (if k < 600000 then 0x1b00ffff else 0x1b01fffe)
    v.required_bits_DAA 600000 = .ok 0x1b01fffe ∧ workAt v 599999 = 281479271743489 ∧
      workAt v 600000 = 140739635871744 := by
  decide +kernel

namespace DecayExample

def f (k : Nat) : Bytes := exHeader (600 * k) 0x1d00ffff
@[irreducible] def rawA : Bytes := f 600000
@[irreducible] def rawB : Bytes := ChainExample.next rawA 1
def cp : CheckPoint := ⟨rawA, 600000, 0⟩
def S (x : Bytes) : Prop := x ∈ [rawA, rawB]

theorem env : Env toyHashes cp S := by
  refine ⟨?_, ?_, ?_, ?_, ?_, ?_, ?_⟩
  · have : ∀ a ∈ [rawA, rawB], ∀ b ∈ [rawA, rawB],
        header_hash toyHashes a = header_hash toyHashes b → a = b := by decide +kernel
    intro a b ha hb; exact this a ha b hb
  · show ∀ a ∈ [rawA, rawB], header_hash toyHashes a ≠ header_prev_hash cp.raw_header
    decide +kernel
  · decide +kernel
  · decide +kernel
  · exact List.mem_cons_self
  · decide +kernel
  · decide +kernel

theorem rawA_eq : rawA = f 600000 := by unfold rawA; rfl

theorem f_length (k : Nat) : (f k).length = 80 := by simp [f, exHeader, leBytes_length, zeros]

theorem f_bits (k : Nat) : header_bits (f k) = .ok 0x1d00ffff := by
  have : slice (f k) 72 76 = leBytes 4 0x1d00ffff := by
    simp [slice, f, exHeader, leBytes, zeros]
  rw [header_bits, this]
  decide +kernel

theorem f_ne (k : Nat) : f k ≠ zeros 80 := by
  intro h
  have := f_bits k
  rw [h, zeros_bits] at this
  simp at this

/-- A collection with the checkpoint and any number of headers before it. -/
theorem primed (j : Nat) (hj : j ≤ 600000) : ∃ s, Reachable toyHashes Bitcoin cp S s [rawA] ∧
    s.chains.length = 1 ∧ ∀ k : Nat, 600000 - j ≤ k → k < 600000 → s.raw_header_at_height 0 k = .ok (f k) := by
  induction j with
  | zero =>
    obtain ⟨s0, a1, a2, a3, a4, a5, a6⟩ := fresh_ok (coin := Bitcoin) (file := none) env
      (work_of_target (raw := rawA) (b := 0x1d00ffff) (t := 0xffff <<< (8 * 26)) (by decide +kernel) (by decide +kernel))
      (by simp) (by simp)
    exact ⟨s0, .start (by simp) (by simp) a1, by rw [a6]; rfl, fun k _ _ => by omega⟩
  | succ j ih =>
    obtain ⟨s, hr, hcl, hs⟩ := ih (by omega)
    have hne := List.length_pos_iff.2 (C32_reachable env hr)
    obtain ⟨s', h1, h2, _, _, h5, h6, _⟩ := C99_below env hr (600000 - (j + 1)) (f (600000 - (j + 1)))
      (by show _ < 600000; omega) (f_length _)
    refine ⟨s', .set_one hr (fun h => ?_) h1, by rw [h2, hcl], fun k hk hk' => ?_⟩
    · have : cp.height = 600000 := rfl
      omega
    · by_cases e : k = 600000 - (j + 1)
      · subst e
        rw [h6 0 hne, if_neg (f_ne _)]
      · rw [h5 0 k hne (by omega), hs k (by omega) hk']

/-- A header connected after a checkpoint at height 600000, before which 147 headers have been set. -/
example : ∃ s c ch, Primed toyHashes Bitcoin cp S s [rawA, rawB] ∧ s.chains[c]? = some ch ∧ (cp.height : Int) < 600001 ∧
    Bitcoin.required_bits = .mainnet ∧
    (∀ k, (600001 : Int) - 144 ≤ k → k < 600001 → 4295032833 ≤ workAt (s.view c) k) ∧ 600001 ≤ ch.height ∧
    s.chainwork_range c 600001 (600001 + (1 : Nat)) = .ok 4295032833 := by
  obtain ⟨s, hr, hcl, hs⟩ := primed 147 (by norm_num)
  obtain ⟨T, hI, h1, h2, h3, hA⟩ := reachable_inv env hr
  have hroot := hI.good.root_node
  rw [h3] at hroot
  have hrootraw : (⟨cp.raw_header, [0], 0⟩ : Node).raw = rawA := rfl
  have hT : T.length = 1 := by
    by_contra hc
    have hpos := hI.good.length_pos
    have g1 := List.getElem?_eq_getElem (l := T) (i := 1) (by omega)
    have hm := (hA _).2 ⟨1, _, g1, rfl⟩
    rw [List.mem_singleton] at hm
    have := hI.good.raw_inj _ _ _ _ g1 hroot (by rw [hm]; exact hrootraw.symm)
    omega
  have hT1 : T = [⟨rawA, [0], 0⟩] := by
    match T, hT with
    | [x], _ =>
      have e : x = ⟨cp.raw_header, [0], 0⟩ := by simpa using hroot
      rw [e]
      rfl
  subst hT1
  obtain ⟨ch, hch⟩ := hI.toDesc.chain_exists hroot
  have hch : s.chains[0]? = some ch := hch
  have hcph : s.checkpoint.height = 600000 := by rw [h3]; rfl
  have hSB : S rawB := by simp [S]
  have hl : rawB.length = 80 := by decide +kernel
  have hprev : header_prev_hash rawB = header_hash toyHashes rawA := by decide +kernel
  have hbits : header_bits rawB = .ok 0x1d00ffff := by decide +kernel
  have ht : bits_to_target 0x1d00ffff = .ok (0xffff <<< (8 * 26)) := by decide +kernel
  have hpow : hash_to_value (header_hash toyHashes rawB) ≤ 0xffff <<< (8 * 26) := by decide +kernel
  have hne : rawA ≠ rawB := by decide +kernel
  have hm : Bitcoin.required_bits = .mainnet := by decide +kernel
  have hA0 : s.raw_header_at_height 0 600000 = .ok rawA := by
    have := raw_on_path hI (i := 0) (k := 0) (j := 0) hroot rfl hroot
    rw [hcph] at this
    exact this
  have hreq : ∀ ts, s.required_bits 0 600001 ts = .ok 0x1d00ffff := by
    intro ts
    have hco : (s.view 0).coin.required_bits = .mainnet := by rw [← hm, ← h2]; rfl
    simp only [Headers.required_bits, ChainView.required_bits, hco, ChainView.required_bits_mainnet]
    rw [if_neg (by omega), if_neg (by omega),
      C116_window (s.view 0) (exView Bitcoin fun k => f k.toNat) 600001 (by simp only [Headers.view, exView, h2])
        (by simp only [Headers.view, exView, h1])]
    · decide +kernel
    · intro k hk hk'
      obtain ⟨m, rfl⟩ : ∃ m : Nat, k = m := ⟨k.toNat, by omega⟩
      have e1 : (exView Bitcoin fun k => f k.toNat).raw_header_at_height (m : Int) = .ok (f m) := by
        simp only [exView, Int.toNat_natCast]
      rw [e1]
      by_cases e : m = 600000
      · rw [e]
        exact hA0.trans (congrArg Except.ok rawA_eq)
      · exact hs m (by omega) (by omega)
  have hnh : nodeHeight s.checkpoint ⟨rawA, [0], 0⟩ = 600000 := by simp [nodeHeight, hcph]
  have hck := hI.connect_check_new hSB hl hroot (by rw [h1]; exact hprev) (by
    intro M hM
    rw [List.mem_singleton] at hM
    subst hM
    exact hne)
  have hf := mkHeader_fields (H := toyHashes) (600001 : Int) hl
  have hbd : (mkHeader toyHashes rawB (600001 : Int)).bits = 0x1d00ffff := by
    have := hf.2.2.2.2.2; rw [hbits] at this; exact (Except.ok.inj this).symm
  have hnh' : nodeHeight s.checkpoint ⟨cp.raw_header, [0], 0⟩ = 600000 := hnh
  have hng : ¬ hash_to_value (header_hash toyHashes rawB) > 0xffff <<< (8 * 26) := by omega
  simp only [hnh', Nat.reduceAdd, Nat.cast_ofNat] at hck
  rw [hreq, ok_bind', h1] at hck
  simp only [hbd, ne_eq, not_true_eq_false, if_false, Header.target, ht, ok_bind',
    Header.hash_value, hf.2.2.1, hng, pure_ok'] at hck
  have hv : Valid S rawB := hI.env.valid hSB hl (height := 600001) (t := 0xffff <<< (8 * 26))
    (by rw [h1, Header.target, hbd]; exact ht) (by rw [h1, Header.hash_value, hf.2.2.1]; exact hpow)
  obtain ⟨s', c, c1, c2, c3, c4, c5, c6, _, c8⟩ := hI.connect_accept hv hroot (by rw [h1]; exact hprev) (by
    intro M hM
    rw [List.mem_singleton] at hM
    subst hM
    exact hne) hck (by rw [hcph]; decide) (fun _ => by omega)
  have hroom : Room s := by
    refine ⟨by omega, fun n hn => ?_⟩
    rw [hI.len, hcph] at hn
    simp only [Except.ok.injEq, List.length_singleton] at hn
    omega
  have hN : ([⟨rawA, [0], 0⟩] ++ [⟨rawB, [0] ++ [1], c⟩] : Tree)[1]? = some ⟨rawB, [0] ++ [1], c⟩ := rfl
  obtain ⟨ch', hch'⟩ := c2.toDesc.chain_exists hN
  obtain ⟨t, N, base, own, hci⟩ := c2.toDesc.chain_at hch'
  obtain ⟨hpre, _⟩ := c2.good.prefix_tip hci hN rfl
  have hheight := (c2.toDesc.height_eq hci).1
  refine ⟨s', c, ch', .accept (.start hr) hSB hroom c1, hch', by decide, hm, ?_, ?_, ?_⟩
  · intro k hk hk'
    obtain ⟨m, rfl⟩ : ∃ m : Nat, k = m := ⟨k.toNat, by omega⟩
    have hraw : s'.raw_header_at_height c m = .ok (f m) := by
      by_cases e : m = 600000
      · subst e
        have := raw_on_path c2 (i := 1) (k := 0) (j := 0) hN rfl rfl
        rw [c5, hcph] at this
        exact this.trans (congrArg Except.ok rawA_eq)
      · rw [c2.toDesc.raw_below hch' (by rw [c5, hcph]; omega), c8 m (by rw [hcph]; omega),
          ← hI.toDesc.raw_below hch (by rw [hcph]; omega), hs m (by omega) (by omega)]
    have hb := f_bits m
    have hw : bits_to_work 0x1d00ffff = .ok 4295032833 := by decide +kernel
    simp only [workAt, Headers.view, hraw, hb, hw]
    exact le_refl _
  · have hle := congrArg List.length hpre
    rw [List.length_take] at hle
    simp only [List.length_append, List.length_singleton] at hle
    rw [hheight, nodeHeight, c5, hcph]
    omega
  · have hB := raw_on_path c2 (i := 1) (k := 1) (j := 1) hN rfl hN
    rw [c5, hcph] at hB
    have hB' : s'.raw_header_at_height c 600001 = .ok rawB := hB
    have hr1 : pyRange 600001 (600001 + ((1 : Nat) : Int)) = [600001] := by decide
    have hw : header_work rawB = .ok 4295032833 := by decide +kernel
    rw [Headers.chainwork_range, ChainView.chainwork_range, hr1]
    simp only [Headers.view, mapE, hB', hw, ok_bind', pure_ok',
      List.sum_cons, List.sum_nil, Nat.add_zero]

end DecayExample

end Bitcoinx
