import Verif.Lemmas.Daa
import Verif.Spec.Daa
import Verif.Props.Packing

/-! # Properties C14-C20: difficulty rules and header accessors -/

namespace Bitcoinx
open Spec

theorem min_max_clamped (lo hi x : Int) (h : lo ≤ hi) : Clamped lo hi x (min (max x lo) hi) := by
  unfold Clamped; omega

theorem ediv_isFloorDiv (a b : Int) (h : 0 < b) : IsFloorDiv a b (a / b) := by
  unfold IsFloorDiv
  have h1 := Int.mul_ediv_add_emod a b
  have h2 := Int.emod_nonneg a (by omega : b ≠ 0)
  have h3 := Int.emod_lt_of_pos a h
  constructor
  · nlinarith
  · nlinarith

/-! ## C14 -/

/-- At height 0 the genesis bits are required. -/
theorem C14_genesis (v : ChainView) : v.required_bits_fortnightly 0 = .ok v.coin.genesis_bits := by
  simp [ChainView.required_bits_fortnightly]

/-- Off the 2016 boundary the bits of the previous header are required, whatever the history; if
there is no previous header its exception propagates. -/
theorem C14_off_boundary (v : ChainView) (h : Int) (h0 : ¬ h % 2016 = 0) :
    (∀ raw bits, v.raw_header_at_height (h - 1) = .ok raw → raw.length = 80 →
      header_bits raw = .ok bits → v.required_bits_fortnightly h = .ok bits) ∧
    (∀ e, v.raw_header_at_height (h - 1) = .error e → v.required_bits_fortnightly h = .error e) := by
  have hz : h ≠ 0 := by rintro rfl; simp at h0
  constructor
  · intro raw bits hr hl hb
    obtain ⟨hd, h1, _, _, _, _, _, hb', _⟩ := deserialized_header_ok v.H raw (h - 1) hl
    rw [hb] at hb'; cases hb'
    simp [ChainView.required_bits_fortnightly, hz, ChainView.header_at_height, hr, h1, h0]
  · intro e he
    simp [ChainView.required_bits_fortnightly, hz, ChainView.header_at_height, he]

/-- On a boundary the required bits encode the retarget formula, and the new target is at most
`max_target`, at most four times the old one and, up to compact rounding, at least a quarter of it
(unless capped by `max_target`). -/
theorem C14_boundary (v : ChainView) (h : Int) (h0 : h ≠ 0) (hb : h % 2016 = 0)
    (prev_raw prior_raw : Bytes) (bits t1 t0 : Int) (T : Nat)
    (hp : v.raw_header_at_height (h - 1) = .ok prev_raw) (hpl : prev_raw.length = 80)
    (hq : v.raw_header_at_height (h - 2016) = .ok prior_raw) (hql : prior_raw.length = 80)
    (hbits : header_bits prev_raw = .ok bits) (hT : bits_to_target bits = .ok T)
    (ht1 : header_timestamp prev_raw = .ok t1) (ht0 : header_timestamp prior_raw = .ok t0)
    (hM : v.coin.max_target < 2 ^ 256) :
    ∃ (b r : Nat) (p q : Int), v.required_bits_fortnightly h = .ok (b : Int) ∧
      bits_to_target b = .ok r ∧ Clamped 302400 4838400 (t1 - t0) p ∧
      IsFloorDiv (T * p) 1209600 q ∧
      (r : Int) ≤ min q v.coin.max_target ∧
      (∀ r', Representable r' → (r' : Int) ≤ min q v.coin.max_target → r' ≤ r) ∧
      r ≤ v.coin.max_target ∧ r ≤ 4 * T ∧
      (∀ r', Representable r' → r' ≤ T / 4 → r' ≤ v.coin.max_target → r' ≤ r) := by
  obtain ⟨p1, e1, _, _, _, _, s1, b1, _⟩ := deserialized_header_ok v.H prev_raw (h - 1) hpl
  obtain ⟨p0, e0, _, _, _, _, s0, _, _⟩ := deserialized_header_ok v.H prior_raw (h - 2016) hql
  rw [ht1] at s1; rw [ht0] at s0; rw [hbits] at b1
  cases s1; cases s0; cases b1
  have hcl := min_max_clamped 302400 4838400 (p1.timestamp - p0.timestamp) (by norm_num)
  generalize hpp : min (max (p1.timestamp - p0.timestamp) 302400) 4838400 = p at hcl
  have hp2 : 302400 ≤ p ∧ p ≤ 4838400 := by omega
  have hfl := ediv_isFloorDiv (T * p) 1209600 (by norm_num)
  have hq0 : 0 ≤ (T * p) / 1209600 := Int.ediv_nonneg (by nlinarith) (by norm_num)
  obtain ⟨b, r, hr1, hr2, hr3, hr4⟩ := round_min _ _ hq0 hM
  refine ⟨b, r, p, (T * p) / 1209600, ?_, hr2, hcl, hfl, hr3, hr4, by omega, ?_, ?_⟩
  · simp [ChainView.required_bits_fortnightly, h0, hb, ChainView.header_at_height, hp, hq, e1, e0,
      hT, hpp, hr1]
  · have : (T * p) / 1209600 ≤ 4 * (T : Int) := by
      apply Int.ediv_le_of_le_mul (by norm_num); nlinarith
    omega
  · intro r' h1 h2 h3
    apply hr4 r' h1
    have : (r' : Int) ≤ (T * p) / 1209600 := by
      apply Int.le_ediv_of_mul_le (by norm_num)
      have : (r' : Int) * 4 ≤ T := by omega
      nlinarith
    omega

/-! ## C15 -/

theorem isMedian3 (x y z m : Int) : IsMedian [x, y, z] m ↔
    (m = x ∨ m = y ∨ m = z) ∧ (x ≤ m ∧ y ≤ m ∨ x ≤ m ∧ z ≤ m ∨ y ≤ m ∧ z ≤ m) ∧
      (m ≤ x ∧ m ≤ y ∨ m ≤ x ∧ m ≤ z ∨ m ≤ y ∧ m ≤ z) := by
  have key : ∀ p q r : Prop, ∀ [Decidable p] [Decidable q] [Decidable r],
      (3 ≤ 2 * ((if p then 1 else 0) + ((if q then 1 else 0) + (if r then 1 else 0)))) ↔
        (p ∧ q ∨ p ∧ r ∨ q ∧ r) := by
    intro p q r _ _ _
    by_cases hp : p <;> by_cases hq : q <;> by_cases hr : r <;> simp [hp, hq, hr]
  have len : ∀ f : Int → Bool, ([x, y, z].filter f).length =
      (if f x = true then 1 else 0) + ((if f y = true then 1 else 0) + (if f z = true then 1 else 0)) := by
    intro f
    by_cases h1 : f x <;> by_cases h2 : f y <;> by_cases h3 : f z <;> simp [List.filter, h1, h2, h3]
  unfold IsMedian
  rw [len, len]
  simp only [List.length_cons, List.length_nil, decide_eq_true_eq, key, List.mem_cons,
    List.not_mem_nil, or_false, Nat.zero_add, Nat.reduceAdd]

/-- The selected header is one of the three preceding ones and its timestamp is the median of
theirs; the tie-breaks are those of the consensus rule: the middle header if its time is the median
time; for equal outer times the older one if the middle one is earlier and the newer one if it is
later. -/
theorem C15_median (v : ChainView) (h : Int) (a b c : Header)
    (ha : v.header_at_height (h - 3) = .ok a) (hb : v.header_at_height (h - 2) = .ok b)
    (hc : v.header_at_height (h - 1) = .ok c) :
    ∃ m, v.median_prior_header h = .ok m ∧ (m = a ∨ m = b ∨ m = c) ∧
      IsMedian [a.timestamp, b.timestamp, c.timestamp] m.timestamp ∧
      (IsMedian [a.timestamp, b.timestamp, c.timestamp] b.timestamp → m = b) ∧
      (a.timestamp = c.timestamp → b.timestamp < a.timestamp → m = a) ∧
      (a.timestamp = c.timestamp → a.timestamp < b.timestamp → m = c) := by
  simp only [isMedian3]
  by_cases h1 : a.timestamp > c.timestamp
  · by_cases h2 : c.timestamp > b.timestamp
    · refine ⟨c, ?_, by simp, by omega, by omega, by omega, by omega⟩
      have h3 : ¬ c.timestamp > a.timestamp := by omega
      simp [ChainView.median_prior_header, ha, hb, hc, ChainView.maybe_swap, h1, h2, h3]
    · by_cases h3 : b.timestamp > a.timestamp
      · refine ⟨a, ?_, by simp, by omega, by omega, by omega, by omega⟩
        simp [ChainView.median_prior_header, ha, hb, hc, ChainView.maybe_swap, h1, h2, h3]
      · refine ⟨b, ?_, by simp, by omega, by simp, by omega, by omega⟩
        simp [ChainView.median_prior_header, ha, hb, hc, ChainView.maybe_swap, h1, h2, h3]
  · by_cases h2 : a.timestamp > b.timestamp
    · refine ⟨a, ?_, by simp, by omega, by omega, by simp, by omega⟩
      have h3 : ¬ a.timestamp > c.timestamp := by omega
      simp [ChainView.median_prior_header, ha, hb, hc, ChainView.maybe_swap, h1, h2]
    · by_cases h3 : b.timestamp > c.timestamp
      · refine ⟨c, ?_, by simp, by omega, by omega, by omega, by simp⟩
        simp [ChainView.median_prior_header, ha, hb, hc, ChainView.maybe_swap, h1, h2, h3]
      · refine ⟨b, ?_, by simp, by omega, by simp, by omega, by omega⟩
        simp [ChainView.median_prior_header, ha, hb, hc, ChainView.maybe_swap, h1, h2, h3]

/-! ## C16 -/

/-- The header at height `k` of the chain exists and its target `t` satisfies `P t`. -/
def HeaderAt (v : ChainView) (k : Int) (P : Nat → Prop) : Prop :=
  ∃ raw bits t, v.raw_header_at_height k = .ok raw ∧ raw.length = 80 ∧
    header_bits raw = .ok bits ∧ bits_to_target bits = .ok t ∧ P t

theorem sum_bounds {α : Type} (P : α → Nat → Prop) (lo hi : Nat) (l : List α) (ws : List Nat)
    (h : List.Forall₂ P l ws) (hb : ∀ a w, P a w → lo ≤ w ∧ w ≤ hi) :
    l.length * lo ≤ ws.sum ∧ ws.sum ≤ l.length * hi := by
  induction h with
  | nil => simp
  | cons hp _ ih =>
    have := hb _ _ hp
    simp only [List.length_cons, List.sum_cons, Nat.add_mul]
    omega

/-- If every header of the window exists and has a target in `[2, max_target]`, and `max_target` is
at most `2^254`, the rule never fails, and the bits it requires decode to a target that is at most
`max_target`; it is the compact rounding of the documented formula, where `s` and `e` are the median
headers and `W` the sum of the works in between. -/
theorem C16_daa (v : ChainView) (h : Int)
    (hw : ∀ k, h - 147 ≤ k → k < h → HeaderAt v k (fun t => 2 ≤ t ∧ t ≤ v.coin.max_target))
    (hM : v.coin.max_target ≤ 2 ^ 254) :
    ∃ (b r : Nat) (s e : Header) (works : List Nat) (p q Q : Int),
      v.required_bits_DAA h = .ok (b : Int) ∧ bits_to_target b = .ok r ∧ r ≤ v.coin.max_target ∧
      v.median_prior_header (h - 144) = .ok s ∧ v.median_prior_header h = .ok e ∧
      List.Forall₂ (fun k w => ∃ raw bits, v.raw_header_at_height k = .ok raw ∧
        header_bits raw = .ok bits ∧ bits_to_work bits = .ok w)
        (pyRange (s.height + 1) (e.height + 1)) works ∧
      Clamped 43200 172800 (e.timestamp - s.timestamp) p ∧
      IsFloorDiv (works.sum * 600) p q ∧ IsFloorDiv (2 ^ 256) q Q ∧ 0 < q ∧
      (r : Int) ≤ min (Q - 1) v.coin.max_target ∧
      (∀ r', Representable r' → (r' : Int) ≤ min (Q - 1) v.coin.max_target → r' ≤ r) := by
  have hget : ∀ k, h - 147 ≤ k → k < h → ∃ hd, v.header_at_height k = .ok hd ∧ hd.height = k := by
    intro k h1 h2
    obtain ⟨raw, bits, t, hr, hl, _⟩ := hw k h1 h2
    obtain ⟨hd, h3, _, h4, _⟩ := deserialized_header_ok v.H raw k hl
    exact ⟨hd, by simp [ChainView.header_at_height, hr, h3], h4⟩
  have hmed : ∀ k, h - 144 ≤ k → k ≤ h → ∃ m, v.median_prior_header k = .ok m ∧
      k - 3 ≤ m.height ∧ m.height ≤ k - 1 := by
    intro k h1 h2
    obtain ⟨a, ha, ha'⟩ := hget (k - 3) (by omega) (by omega)
    obtain ⟨b, hb, hb'⟩ := hget (k - 2) (by omega) (by omega)
    obtain ⟨c, hc, hc'⟩ := hget (k - 1) (by omega) (by omega)
    obtain ⟨m, hm, hm', _⟩ := C15_median v k a b c ha hb hc
    refine ⟨m, hm, ?_⟩
    rcases hm' with rfl | rfl | rfl <;> omega
  obtain ⟨s, hs, hs1, hs2⟩ := hmed (h - 144) (by omega) (by omega)
  obtain ⟨e, he, he1, he2⟩ := hmed h (by omega) (by omega)
  have hwk : ∀ k ∈ pyRange (s.height + 1) (e.height + 1), ∃ w,
      (do let raw ← v.raw_header_at_height k
          header_work raw) = Except.ok w ∧
      ((3 ≤ w ∧ w ≤ 2 ^ 256 / 3) ∧ ∃ raw bits, v.raw_header_at_height k = .ok raw ∧
        header_bits raw = .ok bits ∧ bits_to_work bits = .ok w) := by
    intro k hk
    rw [mem_pyRange] at hk
    obtain ⟨raw, bits, t, hr, hl, hb, ht, h1, h2⟩ := hw k (by omega) (by omega)
    refine ⟨2 ^ 256 / (t + 1), by simp [hr, header_work, hb, bits_to_work, ht], ⟨?_, ?_⟩,
      raw, bits, hr, hb, by simp [bits_to_work, ht]⟩
    · exact (Nat.le_div_iff_mul_le (by omega)).2 (by omega)
    · exact Nat.div_le_div_left (by omega) (by omega)
  obtain ⟨works, hwks, hall⟩ := mapE_ok hwk
  have hsum := sum_bounds _ 3 (2 ^ 256 / 3) _ _ hall (fun _ _ h => h.1)
  rw [pyRange_length] at hsum
  have hlen : 142 ≤ (e.height + 1 - (s.height + 1)).toNat ∧
      (e.height + 1 - (s.height + 1)).toNat ≤ 146 := by omega
  generalize (e.height + 1 - (s.height + 1)).toNat = n at hsum hlen
  have hlo : 426 ≤ works.sum := le_trans (by omega) hsum.1
  have hhi : works.sum ≤ 146 * (2 ^ 256 / 3) :=
    le_trans hsum.2 (Nat.mul_le_mul_right _ hlen.2)
  have hcl := min_max_clamped 43200 172800 (e.timestamp - s.timestamp) (by norm_num)
  generalize hpp : min (max (e.timestamp - s.timestamp) 43200) 172800 = p at hcl
  have hp : 43200 ≤ p ∧ p ≤ 172800 := by omega
  have hfl := ediv_isFloorDiv ((works.sum : Int) * 600) p (by omega)
  generalize hqq : ((works.sum : Int) * 600) / p = q at hfl
  have hq1 : 1 ≤ q := by
    rw [← hqq]; apply Int.le_ediv_of_mul_le (by omega); omega
  have hq2 : q ≤ 2 ^ 256 := by
    rw [← hqq]; apply Int.ediv_le_of_le_mul (by omega)
    have : (works.sum : Int) * 600 ≤ 2 ^ 256 * 43200 := by omega
    nlinarith
  have hfl2 := ediv_isFloorDiv (2 ^ 256) q (by omega)
  have hQ : 1 ≤ (2 ^ 256 : Int) / q := by
    apply Int.le_ediv_of_mul_le (by omega); omega
  obtain ⟨b, r, hr1, hr2, hr3, hr4⟩ := round_min ((2 ^ 256 : Int) / q - 1) v.coin.max_target
    (by omega) (by omega)
  refine ⟨b, r, s, e, works, p, q, (2 ^ 256 : Int) / q, ?_, hr2, by omega, hs, he,
    forall₂_imp hall (fun _ _ h => h.2), hcl, hfl, hfl2, by omega, hr3, hr4⟩
  have hq0 : ¬ q = 0 := by omega
  simp only [ChainView.required_bits_DAA, hs, he, ok_bind', ChainView.chainwork_range, hwks, hpp,
    pure_ok', hqq, hq0, if_false, hr1]

/-! Example headers and chains: `exHeader t b` has timestamp `t` and bits `b`. -/

def exHeader (t b : Nat) : Bytes := zeros 68 ++ leBytes 4 t ++ leBytes 4 b ++ zeros 4

def exView (coin : Coin) (f : Int → Bytes) : ChainView :=
  { coin, H := toyHashes, raw_header_at_height := fun h => .ok (f h) }

/-- The hypotheses of `C16_daa` are met by a chain of minimum difficulty. -/
example : (∀ k, (600000 : Int) - 147 ≤ k → k < 600000 →
      HeaderAt (exView Bitcoin (fun k => exHeader (600 * k.toNat) 0x1d00ffff)) k
        (fun t => 2 ≤ t ∧ t ≤ Bitcoin.max_target)) ∧ Bitcoin.max_target ≤ 2 ^ 254 := by
  have hM : Bitcoin.max_target = 0xffff * 2 ^ 208 := by decide +kernel
  refine ⟨fun k _ _ => ⟨_, 0x1d00ffff, 0xffff * 2 ^ 208, rfl, ?_, ?_, by decide +kernel, ?_, ?_⟩, ?_⟩
  · simp [exHeader, leBytes_length, zeros]
  · have : slice (exHeader (600 * k.toNat) 0x1d00ffff) 72 76 = leBytes 4 0x1d00ffff := by
      simp [slice, exHeader, leBytes, zeros]
    simp only [header_bits, this]
    decide +kernel
  · omega
  · rw [hM]
  · rw [hM]; omega

example : (exView Bitcoin (fun k => exHeader (600 * k.toNat) 0x1b00ffff)).required_bits_DAA 600000 =
    .ok 0x1b00ffff := by decide +kernel

/-- The bound `2 ≤ t` of `C16_daa` is needed: on a chain whose headers have target 0 (valid bits 0)
with equal timestamps the rule fails with `ValueError`. -/
theorem C16_tiny_target_fails :
    (exView Bitcoin (fun _ => exHeader 0 0)).required_bits_DAA 600000 = .error .valueError := by
  decide +kernel

/-- A boundary where the retarget is clamped to a factor of four, one capped by `max_target`, and a
tie of outer timestamps. -/
example : (exView Bitcoin (fun k => exHeader (6000 * k.toNat) 0x1b00ffff)).required_bits 4032 0 =
      .ok 0x1b03fffc ∧
    (exView Bitcoin (fun k => exHeader (6000 * k.toNat) 0x1d00ffff)).required_bits 4032 0 =
      .ok 0x1d00ffff ∧
    ((exView Bitcoin (fun k => exHeader (if k = 8 then 5 else 9) 0)).median_prior_header 10
      ).toOption.map (·.height) = some 7 := by decide +kernel

/-! ## C34 (on a chain view; lifted to the headers object in `Verif.Props.Chain`) -/

/-- With the headers at the last up to 11 heights present, `median_time_past` is the upper median of
their timestamps. -/
theorem C34_median_time_past (v : ChainView) (h : Nat) (raw : Nat → Bytes) (ts : Nat → Int)
    (hr : ∀ k : Nat, k ≤ h → h < k + 11 → v.raw_header_at_height k = .ok (raw k))
    (ht : ∀ k : Nat, k ≤ h → h < k + 11 → header_timestamp (raw k) = .ok (ts k)) :
    ∃ m, v.median_time_past h = .ok m ∧
      UpperMedian ((List.range (min 11 (h + 1))).map (fun i => ts (h - i))) m := by
  have hlist : mapE (fun k => do
      let raw ← v.raw_header_at_height k
      header_timestamp raw) (pyRangeDown h (max (-1) ((h : Int) - 11))) =
      .ok ((List.range (min 11 (h + 1))).map (fun i => ts (h - i))) := by
    have hn : ((h : Int) - max (-1) ((h : Int) - 11)).toNat = min 11 (h + 1) := by omega
    unfold pyRangeDown
    rw [hn]
    have : ∀ l : List Nat, (∀ i ∈ l, i < min 11 (h + 1)) →
        mapE (fun k => do
          let raw ← v.raw_header_at_height k
          header_timestamp raw) (l.map fun k : Nat => (h : Int) - (k : Int)) =
        .ok (l.map (fun i => ts (h - i))) := by
      intro l hl
      induction l with
      | nil => rfl
      | cons i l ih =>
        have hi := hl i (by simp)
        have hc : (h : Int) - (i : Int) = ((h - i : Nat) : Int) := by omega
        simp only [List.map_cons, mapE, hc, hr (h - i) (by omega) (by omega), ok_bind',
          ht (h - i) (by omega) (by omega), ih (fun j hj => hl j (by simp [hj])), pure_ok']
    exact this _ (fun i hi => List.mem_range.1 hi)
  obtain ⟨m, hm1, hm2⟩ := sorted_upperMedian
    ((List.range (min 11 (h + 1))).map (fun i => ts (h - i)))
    (by intro hc; have := congrArg List.length hc; simp at this)
  refine ⟨m, ?_, hm2⟩
  unfold ChainView.median_time_past
  rw [hlist]
  simp only [ok_bind', hm1, pure_ok']

/-- A negative height has no median time: the code raises `IndexError`. -/
theorem C34_negative (v : ChainView) (h : Int) (hneg : h < 0) :
    v.median_time_past h = .error .indexError := by
  unfold ChainView.median_time_past
  rw [pyRangeDown_nil _ _ (by omega)]
  rfl

/-- Upper medians are unique, so `C34_median_time_past` determines the result. -/
theorem C34_unique (xs : List Int) (m m' : Int) (h : UpperMedian xs m) (h' : UpperMedian xs m') :
    m = m' := by
  have key : ∀ a b, UpperMedian xs a → UpperMedian xs b → ¬ a < b := by
    intro a b ha hb hlt
    have h1 := ha.2.2
    have h2 := hb.2.1
    have : (xs.filter (fun x => decide (x ≤ a))).length ≤
        (xs.filter (fun x => decide (x < b))).length := by
      rw [← List.countP_eq_length_filter, ← List.countP_eq_length_filter]
      apply List.countP_mono_left
      intro x _ hx
      simp only [decide_eq_true_eq] at hx ⊢
      omega
    omega
  have := key _ _ h h'
  have := key _ _ h' h
  omega

example : (exView Bitcoin (fun k => exHeader (1000 - k.toNat) 0)).median_time_past 20 = .ok 985 ∧
    (exView Bitcoin (fun k => exHeader (1000 - k.toNat) 0)).median_time_past 1 = .ok 1000 := by
  decide +kernel

/-! ## C17 -/

/-- On 2016-boundaries the EDA value is the fortnightly value. -/
theorem C17_boundary (v : ChainView) (h : Int) (hb : h % 2016 = 0) :
    v.required_bits_EDA h = v.required_bits_fortnightly h := by
  unfold ChainView.required_bits_EDA
  simp only [hb, if_true]
  cases v.required_bits_fortnightly h <;> rfl

/-- Off a boundary: unchanged bits if the median time past of the last six blocks advanced by less
than twelve hours, else the target increased by a quarter, capped and rounded. -/
theorem C17_off_boundary (v : ChainView) (h : Int) (hb : ¬ h % 2016 = 0) (raw : Bytes)
    (bits mtp1 mtp7 : Int) (hr : v.raw_header_at_height (h - 1) = .ok raw) (hl : raw.length = 80)
    (hbits : header_bits raw = .ok bits)
    (h1 : v.median_time_past (h - 1) = .ok mtp1) (h7 : v.median_time_past (h - 7) = .ok mtp7) :
    (mtp1 - mtp7 < 43200 → v.required_bits_EDA h = .ok bits) ∧
    (43200 ≤ mtp1 - mtp7 → v.coin.max_target < 2 ^ 256 → ∀ T, bits_to_target bits = .ok T →
      ∃ (b r : Nat) (q : Int), v.required_bits_EDA h = .ok (b : Int) ∧ bits_to_target b = .ok r ∧
        IsFloorDiv T 4 q ∧ (r : Int) ≤ min (T + q) v.coin.max_target ∧
        (∀ r', Representable r' → (r' : Int) ≤ min (T + q) v.coin.max_target → r' ≤ r)) := by
  have hf := (C14_off_boundary v h hb).1 raw bits hr hl hbits
  constructor
  · intro hlt
    have hlt' : mtp1 - mtp7 < 12 * 3600 := by omega
    simp only [ChainView.required_bits_EDA, hf, ok_bind', hb, if_false, h1, h7, hlt', if_true, pure_ok']
  · intro hge hM T hT
    have hlt' : ¬ mtp1 - mtp7 < 12 * 3600 := by omega
    have e : ((T + T >>> 2 : Nat) : Int) = T + (T : Int) / 4 := by
      rw [Nat.shiftRight_eq_div_pow]; push_cast; norm_num
    obtain ⟨b, r, hr1, hr2, hr3, hr4⟩ := round_min ((T : Int) + (T : Int) / 4) v.coin.max_target
      (by omega) hM
    refine ⟨b, r, (T : Int) / 4, ?_, hr2, ediv_isFloorDiv _ _ (by norm_num), hr3, hr4⟩
    simp only [ChainView.required_bits_EDA, hf, ok_bind', hb, if_false, h1, h7, hlt', hT, e, hr1,
      pure_ok']

/-- Which rule applies at which height on mainnet. -/
theorem C17_mainnet_dispatch (v : ChainView) (h t : Int) (hv : v.coin.required_bits = .mainnet) :
    (h ≤ 478557 → v.required_bits h t = v.required_bits_fortnightly h) ∧
    (478558 ≤ h ∧ h ≤ 504031 → v.required_bits h t = v.required_bits_EDA h) ∧
    (504032 ≤ h → v.required_bits h t = v.required_bits_DAA h) := by
  refine ⟨fun h1 => ?_, fun h1 => ?_, fun h1 => ?_⟩ <;>
    simp only [ChainView.required_bits, hv, ChainView.required_bits_mainnet]
  · rw [if_pos (by omega)]
  · rw [if_neg (by omega), if_pos (by omega)]
  · rw [if_neg (by omega), if_neg (by omega)]

/-- Which rules each of the coins has. -/
theorem C17_coins : Bitcoin.required_bits = .mainnet ∧ BitcoinTestnet.required_bits = .testnet ∧
    BitcoinScalingTestnet.required_bits = .scaling_testnet ∧ BitcoinRegtest.required_bits = .testnet := by
  decide +kernel

/-- Two chains on which the two cases of `C17_off_boundary` apply. -/
example : (exView Bitcoin (fun k => exHeader (600 * k.toNat) 0x1b00ffff)).required_bits 480001 0 =
      .ok 0x1b00ffff ∧
    (exView Bitcoin (fun k => exHeader (7200 * k.toNat) 0x1b00ffff)).required_bits 480001 0 =
      .ok 0x1b013ffe := by decide +kernel

/-! ## C18 -/

/-- The bits selected by the look-back from height `h`: those of the nearest earlier header that is
at a multiple of 2016 or does not have the genesis bits. -/
def NearestNonSpecial (v : ChainView) (h : Int) (k bits : Int) : Prop :=
  0 ≤ k ∧ k < h ∧ (∃ raw, v.raw_header_at_height k = .ok raw ∧ header_bits raw = .ok bits) ∧
    (k % 2016 = 0 ∨ bits ≠ v.coin.genesis_bits) ∧
    ∀ j, k < j → j < h → ¬ j % 2016 = 0 ∧
      ∃ raw, v.raw_header_at_height j = .ok raw ∧ header_bits raw = .ok v.coin.genesis_bits

/-- With all earlier headers present the look-back always ends at a header (it never falls
through). -/
theorem C18_lookback (v : ChainView) (h : Int) (h0 : 0 < h)
    (hp : ∀ k, 0 ≤ k → k < h → ∃ raw, v.raw_header_at_height k = .ok raw ∧ raw.length = 80) :
    ∃ k bits, v.prior_non_special_bits h = .ok bits ∧ NearestNonSpecial v h k bits := by
  have key : ∀ n : Nat, ∀ m : Int, m = n → m < h →
      (∀ j, m < j → j < h → ¬ j % 2016 = 0 ∧
        ∃ raw, v.raw_header_at_height j = .ok raw ∧ header_bits raw = .ok v.coin.genesis_bits) →
      ∃ k bits, v.prior_non_special_loop (pyRangeDown m (-1)) = .ok bits ∧
        NearestNonSpecial v h k bits := by
    intro n
    induction n with
    | zero =>
      intro m hm hlt hj
      obtain ⟨raw, hr, hl⟩ := hp m (by omega) hlt
      obtain ⟨hd, _, _, _, _, _, _, hb, _⟩ := deserialized_header_ok v.H raw m hl
      have hm0 : m % 2016 = 0 := by omega
      refine ⟨m, hd.bits, ?_, by omega, hlt, ⟨raw, hr, hb⟩, Or.inl hm0, hj⟩
      rw [pyRangeDown_cons m (-1) (by omega)]
      simp only [ChainView.prior_non_special_loop, hr, hb, ok_bind', hm0, true_or, if_true, pure_ok']
    | succ n ih =>
      intro m hm hlt hj
      obtain ⟨raw, hr, hl⟩ := hp m (by omega) hlt
      obtain ⟨hd, _, _, _, _, _, _, hb, _⟩ := deserialized_header_ok v.H raw m hl
      rw [pyRangeDown_cons m (-1) (by omega)]
      by_cases hc : m % 2016 = 0 ∨ hd.bits ≠ v.coin.genesis_bits
      · refine ⟨m, hd.bits, ?_, by omega, hlt, ⟨raw, hr, hb⟩, hc, hj⟩
        simp only [ChainView.prior_non_special_loop, hr, hb, ok_bind', hc, if_true, pure_ok']
      · obtain ⟨k, bits, h1, h2⟩ := ih (m - 1) (by omega) (by omega) (by
          intro j hj1 hj2
          rcases lt_or_eq_of_le (by omega : m ≤ j) with hj3 | rfl
          · exact hj j hj3 hj2
          · push Not at hc
            exact ⟨hc.1, raw, hr, by rw [hb, hc.2]⟩)
        refine ⟨k, bits, ?_, h2⟩
        simp only [ChainView.prior_non_special_loop, hr, hb, ok_bind', hc, if_false, h1]
  exact key (h - 1).toNat (h - 1) (by omega) (by omega) (by intro j h1 h2; omega)

/-- The testnet rules.  `daa` is the last height of the old rule and `minpow` says whether the
20-minute rule survives it: `(1188697, true)` for testnet and regtest, `(2200, false)` for the
scaling testnet. -/
theorem C18_testnet (v : ChainView) (h t : Int) (raw : Bytes) (t1 daa : Int) (minpow : Bool)
    (hn : (v.coin.required_bits = .testnet ∧ daa = 1188697 ∧ minpow = true) ∨
      (v.coin.required_bits = .scaling_testnet ∧ daa = 2200 ∧ minpow = false))
    (hr : v.raw_header_at_height (h - 1) = .ok raw) (ht : header_timestamp raw = .ok t1) :
    (h ≤ daa → h % 2016 = 0 → v.required_bits h t = v.required_bits_fortnightly h) ∧
    (h ≤ daa → ¬ h % 2016 = 0 → t1 + 1200 < t → v.required_bits h t = .ok v.coin.genesis_bits) ∧
    (h ≤ daa → ¬ h % 2016 = 0 → t ≤ t1 + 1200 → 0 < h →
      (∀ k, 0 ≤ k → k < h → ∃ raw, v.raw_header_at_height k = .ok raw ∧ raw.length = 80) →
      ∃ k bits, v.required_bits h t = .ok bits ∧ NearestNonSpecial v h k bits) ∧
    (daa < h → t1 + 1200 < t → minpow = true → v.required_bits h t = .ok v.coin.genesis_bits) ∧
    (daa < h → (t ≤ t1 + 1200 ∨ minpow = false) → v.required_bits h t = v.required_bits_DAA h) := by
  have hreq : v.required_bits h t = v.required_bits_testnet_ h t daa minpow := by
    rcases hn with ⟨h1, rfl, rfl⟩ | ⟨h1, rfl, rfl⟩ <;>
      simp [ChainView.required_bits, h1, ChainView.required_bits_testnet,
        ChainView.required_bits_scaling_testnet]
  rw [hreq]
  clear hreq
  unfold ChainView.required_bits_testnet_
  simp only [hr, ht, ok_bind']
  refine ⟨fun h1 h2 => ?_, fun h1 h2 h3 => ?_, fun h1 h2 h3 h4 h5 => ?_, fun h1 h2 h3 => ?_,
    fun h1 h2 => ?_⟩
  · simp only [h1, h2, if_true]
  · have : t - t1 > 20 * 60 := by omega
    simp only [h1, h2, this, if_true, if_false, decide_true, pure_ok']
  · have : ¬ t - t1 > 20 * 60 := by omega
    simp only [h1, h2, this, if_true, if_false, decide_false, Bool.false_eq_true]
    exact C18_lookback v h h4 h5
  · have h4 : t - t1 > 20 * 60 := by omega
    have h5 : ¬ h ≤ daa := by omega
    simp only [h5, h4, h3, if_true, if_false, decide_true, Bool.and_self, pure_ok']
  · have h5 : ¬ h ≤ daa := by omega
    rcases h2 with h2 | h2
    · have h4 : ¬ t - t1 > 20 * 60 := by omega
      simp only [h5, h4, if_false, decide_false, Bool.and_false, Bool.false_eq_true]
    · simp only [h5, h2, if_false, Bool.false_and, Bool.false_eq_true]

/-- A chain on which the look-back passes two special headers. -/
example : (exView BitcoinTestnet (fun k => exHeader (600 * k.toNat)
      (if k < 2020 then 0x1b00ffff else 0x1d00ffff))).required_bits 2022 (600 * 2022) =
        .ok 0x1b00ffff ∧
    (exView BitcoinTestnet (fun k => exHeader (600 * k.toNat)
      (if k < 2020 then 0x1b00ffff else 0x1d00ffff))).required_bits 2022 (600 * 2024) =
        .ok 0x1d00ffff := by decide +kernel

/-! ## C19 -/

/-- Two chains (of whatever headers objects of one coin) with the same headers below `h` require
the same bits at `h`, with the same exceptions. -/
theorem C19_only_ancestors (v w : ChainView) (h t : Int) (hc : v.coin = w.coin) (hH : v.H = w.H)
    (heq : ∀ k, k < h → v.raw_header_at_height k = w.raw_header_at_height k) :
    v.required_bits h t = w.required_bits h t := by
  have hh : ∀ k, k < h → v.header_at_height k = w.header_at_height k := by
    intro k hk
    simp only [ChainView.header_at_height, heq k hk, hH]
  have hmed : ∀ k, k ≤ h → v.median_prior_header k = w.median_prior_header k := by
    intro k hk
    simp only [ChainView.median_prior_header, hh (k - 3) (by omega), hh (k - 2) (by omega),
      hh (k - 1) (by omega)]
  have hmedh : ∀ k m, v.median_prior_header k = .ok m → m.height < k := by
    intro k m hm
    simp only [ChainView.median_prior_header, bind_eq_ok] at hm
    obtain ⟨a, ha, b, hb, c, hc, hm⟩ := hm
    obtain ⟨m', hm', hm2, _⟩ := C15_median v k a b c ha hb hc
    have : m' = m := by
      have e : v.median_prior_header k = .ok m := by
        simp only [ChainView.median_prior_header, ha, hb, hc, ok_bind']; exact hm
      rw [hm'] at e; cases e; rfl
    subst this
    have hhe : ∀ j x, v.header_at_height j = .ok x → x.height = j := by
      intro j x hx
      simp only [ChainView.header_at_height, bind_eq_ok] at hx
      obtain ⟨raw, _, hd⟩ := hx
      exact (deserialized_header_fields hd).2.2.1
    have := hhe _ _ ha
    have := hhe _ _ hb
    have := hhe _ _ hc
    rcases hm2 with rfl | rfl | rfl <;> omega
  have hwork : ∀ a b, b ≤ h → v.chainwork_range a b = w.chainwork_range a b := by
    intro a b hb
    simp only [ChainView.chainwork_range]
    rw [mapE_congr (g := fun h => do
      let raw ← w.raw_header_at_height h
      header_work raw)]
    intro x hx
    rw [mem_pyRange] at hx
    rw [heq x (by omega)]
  have hmtp : ∀ k, k < h → v.median_time_past k = w.median_time_past k := by
    intro k hk
    simp only [ChainView.median_time_past]
    rw [mapE_congr (g := fun h => do
      let raw ← w.raw_header_at_height h
      header_timestamp raw)]
    intro x hx
    rw [mem_pyRangeDown] at hx
    rw [heq x (by omega)]
  have hfort : v.required_bits_fortnightly h = w.required_bits_fortnightly h := by
    simp only [ChainView.required_bits_fortnightly, hc, hh (h - 1) (by omega),
      hh (h - 2016) (by omega)]
  have hdaa : v.required_bits_DAA h = w.required_bits_DAA h := by
    simp only [ChainView.required_bits_DAA, hc, ← hmed (h - 144) (by omega), ← hmed h (by omega)]
    cases hs : v.median_prior_header (h - 144) with
    | error e => rfl
    | ok s =>
      cases he : v.median_prior_header h with
      | error e => rfl
      | ok e =>
        have := hmedh _ _ he
        simp only [ok_bind', hwork (s.height + 1) (e.height + 1) (by omega)]
  have heda : v.required_bits_EDA h = w.required_bits_EDA h := by
    simp only [ChainView.required_bits_EDA, hfort, hc, hmtp (h - 1) (by omega),
      hmtp (h - 7) (by omega)]
  have hloop : ∀ l : List Int, (∀ x ∈ l, x < h) →
      v.prior_non_special_loop l = w.prior_non_special_loop l := by
    intro l
    induction l with
    | nil => intro _; rfl
    | cons x l ih =>
      intro hl
      simp only [ChainView.prior_non_special_loop, heq x (hl x (by simp)), hc,
        ih (fun y hy => hl y (by simp [hy]))]
  have hprior : v.prior_non_special_bits h = w.prior_non_special_bits h := by
    apply hloop
    intro x hx
    rw [mem_pyRangeDown] at hx
    omega
  unfold ChainView.required_bits
  rw [hc]
  cases w.coin.required_bits with
  | mainnet => simp only [ChainView.required_bits_mainnet, hfort, heda, hdaa]
  | testnet =>
    simp only [ChainView.required_bits_testnet, ChainView.required_bits_testnet_,
      heq (h - 1) (by omega), hc, hfort, hdaa, hprior]
  | scaling_testnet =>
    simp only [ChainView.required_bits_scaling_testnet, ChainView.required_bits_testnet_,
      heq (h - 1) (by omega), hc, hfort, hdaa, hprior]

/-- Two views that differ at and above height 100 only. -/
example : let v := exView Bitcoin (fun k => exHeader k.toNat (if k < 100 then 0x1b00ffff else 7))
    let w := exView Bitcoin (fun k => exHeader k.toNat 0x1b00ffff)
    (∀ k, k < 100 → v.raw_header_at_height k = w.raw_header_at_height k) ∧
      v.raw_header_at_height 100 ≠ w.raw_header_at_height 100 := by
  refine ⟨fun k hk => by simp [exView, hk], by decide +kernel⟩

/-! ## C20 -/

/-- The accessors agree with the deserialized header, and the six fields packed again in order give
the same bytes. -/
theorem C20_fields (H : Hashes) (raw : Bytes) (height : Int) (h : raw.length = 80) :
    ∃ (hd : Header) (v t b n : Bytes), deserialized_header H raw height = .ok hd ∧
      hd.raw = raw ∧ hd.height = height ∧ hd.hash = H.sha256 (H.sha256 raw) ∧
      hd.prev_hash = header_prev_hash raw ∧ header_timestamp raw = .ok hd.timestamp ∧
      header_bits raw = .ok hd.bits ∧
      pack_le_int32 hd.version = .ok v ∧ pack_le_uint32 hd.timestamp = .ok t ∧
      pack_le_uint32 hd.bits = .ok b ∧ pack_le_uint32 hd.nonce = .ok n ∧
      v ++ hd.prev_hash ++ hd.merkle_root ++ t ++ b ++ n = raw ∧
      hd.prev_hash.length = 32 ∧ hd.merkle_root.length = 32 := by
  obtain ⟨hd, h1, h2, h3, h4, h5, h6, h7, h8, h9, h10⟩ := deserialized_header_ok H raw height h
  obtain ⟨c1, _, _, c2, _⟩ := C02_struct_codecs
  have hl : ∀ i j, i ≤ j → j ≤ 80 → (slice raw i j).length = j - i := by
    intro i j hij hj
    simp only [slice, List.length_drop, List.length_take]; omega
  obtain ⟨x1, _, _, u1, p1, _⟩ := c1.unpack_ok _ (hl 0 4 (by omega) (by omega))
  obtain ⟨x2, _, _, u2, p2, _⟩ := c2.unpack_ok _ (hl 68 72 (by omega) (by omega))
  obtain ⟨x3, _, _, u3, p3, _⟩ := c2.unpack_ok _ (hl 72 76 (by omega) (by omega))
  obtain ⟨x4, _, _, u4, p4, _⟩ := c2.unpack_ok _ (hl 76 80 (by omega) (by omega))
  rw [h9] at u1; cases u1
  have e2 : x2 = hd.timestamp := by
    have := h6; simp only [header_timestamp] at this; rw [u2] at this; cases this; rfl
  have e3 : x3 = hd.bits := by
    have := h7; simp only [header_bits] at this; rw [u3] at this; cases this; rfl
  have e4 : x4 = hd.nonce := by rw [h10] at u4; cases u4; rfl
  subst e2 e3 e4
  refine ⟨hd, _, _, _, _, h1, h2, h3, h4, h5, h6, h7, p1, p2, p3, p4, ?_, ?_, ?_⟩
  · have hs : ∀ i j k, i ≤ j → j ≤ k → slice raw i j ++ slice raw j k = slice raw i k := by
      intro i j k hij hjk
      have : raw.take j = (raw.take k).take j := by rw [List.take_take, min_eq_left hjk]
      simp only [slice, this]
      conv => lhs; rw [show j = i + (j - i) by omega, ← List.drop_drop]
      rw [← List.take_drop, List.take_append_drop]
    rw [h5, h8, header_prev_hash, hs 0 4 36 (by omega) (by omega), hs 0 36 68 (by omega) (by omega),
      hs 0 68 72 (by omega) (by omega), hs 0 72 76 (by omega) (by omega),
      hs 0 76 80 (by omega) (by omega)]
    simp [slice, ← h]
  · rw [h5]; exact hl 4 36 (by omega) (by omega)
  · rw [h8]; exact hl 36 68 (by omega) (by omega)

example : (deserialized_header toyHashes (exHeader 5 7) 3).toOption.map (fun h => (h.timestamp, h.bits)) =
    some (5, 7) := by decide +kernel

/-- Any other length raises `struct.error`. -/
theorem C20_length (H : Hashes) (raw : Bytes) (height : Int) (h : raw.length ≠ 80) :
    deserialized_header H raw height = .error .structError := deserialized_header_err H raw height h

end Bitcoinx
