import Verif.Props.History
import Verif.Spec.Concurrent

/-! # The moments of a `Headers` object during `connect` -/

namespace Bitcoinx
open Spec

namespace Moment

theorem last_append (m : Moment) (a b : List Moment) : m.last (a ++ b) = (m.last a).last b := by
  unfold last
  rw [List.getLast?_append]
  cases b.getLast? <;> simp

theorem last_cons (m x : Moment) (a : List Moment) : m.last (x :: a) = x.last a := by
  rw [show x :: a = [x] ++ a from rfl, last_append]; rfl

theorem last_nil (m : Moment) : m.last [] = m := rfl

theorem last_mem (m : Moment) (a : List Moment) : m.last a = m ∨ m.last a ∈ a := by
  unfold last
  cases h : a.getLast? with
  | none => exact .inl rfl
  | some x => exact .inr (List.mem_of_getLast? h)

/-! ## The last moment is the state afterwards -/

theorem append_last (m : Moment) (raw : Bytes) :
    (m.last (m.append_moments raw)).state = { m.state with storage := (m.state.storage.append raw).1 } ∧
      (m.last (m.append_moments raw)).closed = m.closed := by
  unfold append_moments Storage.append
  simp only
  cases hn : m.state.storage.len with
  | error e => exact ⟨rfl, rfl⟩
  | ok n =>
    simp only [Storage.set_raw_header]
    by_cases hl : raw.length ≠ 80
    · rw [if_pos hl, if_pos hl]; exact ⟨rfl, rfl⟩
    rw [if_neg hl, if_neg hl]
    by_cases hg : m.state.storage.offset n.toNat ≥ m.state.storage.file.length
    · simp only [if_pos hg]
      cases (m.state.storage.grow n.toNat).bump_count n.toNat with
      | error e => exact ⟨rfl, rfl⟩
      | ok st1 =>
        simp only
        cases st1.write_header n.toNat raw with
        | error e => exact ⟨rfl, rfl⟩
        | ok st2 => exact ⟨rfl, rfl⟩
    · simp only [if_neg hg]
      have : m.state.storage.grow n.toNat = m.state.storage := by simp only [Storage.grow, if_neg hg]
      rw [this]
      cases m.state.storage.bump_count n.toNat with
      | error e => exact ⟨rfl, rfl⟩
      | ok st1 =>
        simp only
        cases st1.write_header n.toNat raw with
        | error e => exact ⟨rfl, rfl⟩
        | ok st2 => exact ⟨rfl, rfl⟩

theorem cache_last (cache : List (Bytes × Header × Nat)) (chains : List Chain) (header : Header) (index : Nat) :
    (cache_moments cache chains header index).getLast? = some (Headers.cache_add cache chains header index) := by
  unfold cache_moments Headers.cache_add
  simp only
  split
  · rw [List.getLast?_append]; rfl
  · rfl

theorem tip_last (m : Moment) (chain : Chain) (index : Nat) :
    (m.last (m.tip_moments chain index)).state = (m.state.add_chain_tip chain index).1 ∧
      (m.last (m.tip_moments chain index)).closed = m.closed := by
  rw [tip_moments, Headers.add_chain_tip]
  generalize arrayAppend 4 m.state.heights chain.tip.height = r1
  generalize arrayAppend 2 m.state.chain_indices index = r2
  cases r1 with
  | error e => exact ⟨rfl, rfl⟩
  | ok heights =>
    cases r2 with
    | error e => exact ⟨rfl, rfl⟩
    | ok chain_indices =>
      simp only [tip_moments_arrays, last, List.getLast?_append, List.getLast?_map, cache_last]
      exact ⟨rfl, rfl⟩

theorem extend_last (m : Moment) (c : Nat) (chain : Chain) (header : Header) (i : Nat) :
    (m.last (m.extend_moments c chain header i)) =
      { m with state := { m.state with chains := m.state.chains.set c (chain.append header i).1 } } := by
  rw [extend_moments, Chain.append]
  generalize arrayAppend 4 chain.header_indices i = r1
  cases r1 with
  | error e => rfl
  | ok hs =>
    simp only [extend_moments_indices, Chain.append_indices]
    cases header.work with
    | error e => rfl
    | ok w => rfl

theorem fork_last (m : Moment) (ch : Chain) :
    (m.last (m.fork_moments ch)).state = (m.state.add_chain ch).1 ∧ (m.last (m.fork_moments ch)).closed = m.closed := by
  rw [fork_moments, last_cons, Headers.add_chain]
  exact tip_last { m with state := { m.state with chains := m.state.chains ++ [ch] } } ch m.state.chains.length

theorem tip_after_last (m : Moment) (c : Nat) (r : Chain × Res Unit) :
    (({ m with state := { m.state with chains := m.state.chains.set c r.1 } } : Moment).last
        (m.tip_moments_after c r)).state =
      (match r with
        | (chain, .error _) => { m.state with chains := m.state.chains.set c chain }
        | (chain, .ok ()) => (Headers.add_chain_tip { m.state with chains := m.state.chains.set c chain } chain c).1) ∧
    (({ m with state := { m.state with chains := m.state.chains.set c r.1 } } : Moment).last
        (m.tip_moments_after c r)).closed = m.closed := by
  obtain ⟨ch, e | u⟩ := r
  · exact ⟨rfl, rfl⟩
  · rw [tip_moments_after]
    exact tip_last { m with state := { m.state with chains := m.state.chains.set c ch } } ch c

theorem extended_last (m : Moment) (c : Nat) (chain : Chain) (new_tip : Header) (i : Nat) :
    (m.last (m.extended_moments c chain new_tip i)).state =
      (match chain.append new_tip i with
        | (chain, .error _) => { m.state with chains := m.state.chains.set c chain }
        | (chain, .ok ()) => (Headers.add_chain_tip { m.state with chains := m.state.chains.set c chain } chain c).1) ∧
      (m.last (m.extended_moments c chain new_tip i)).closed = m.closed := by
  rw [extended_moments, last_append, extend_last]
  generalize chain.append new_tip i = r
  exact tip_after_last m c r

theorem read_last (m : Moment) (i : Nat) :
    (m.last (m.read_moments i)).state = (m.state.read_header i).1 ∧
      (m.last (m.read_moments i)).closed = m.closed := by
  rcases h0 : m.state.read_prev i with e | ⟨new_tip, prev, c⟩
  · simp only [read_moments, Headers.read_header, h0]
    exact ⟨rfl, rfl⟩
  · rcases h1 : m.state.chains[c]? with _ | chain
    · simp only [read_moments, Headers.read_header, h0, h1]
      exact ⟨rfl, rfl⟩
    · by_cases ht : chain.tip.hash = prev.hash
      · have := extended_last m c chain new_tip i
        rcases h2 : chain.append new_tip i with ⟨ch, e | u⟩
        · simp only [h2] at this
          simp only [read_moments, Headers.read_header, h0, h1, ht, if_true, h2, this]
          exact ⟨trivial, trivial⟩
        · rcases h3 : Headers.add_chain_tip { m.state with chains := m.state.chains.set c ch } ch c with ⟨s', e | v⟩
          all_goals
            simp only [h2, h3] at this
            simp only [read_moments, Headers.read_header, h0, h1, ht, if_true, h2, this, h3]
            exact ⟨trivial, trivial⟩
      · rcases h2 : m.state.chainwork_to_height c prev.height with e | pw
        · simp only [read_moments, Headers.read_header, h0, h1, ht, if_false, h2]
          exact ⟨rfl, rfl⟩
        · rcases h3 : Chain.new (some c) new_tip i pw with e | ch
          · simp only [read_moments, Headers.read_header, h0, h1, ht, if_false, h2, h3]
            exact ⟨rfl, rfl⟩
          · have := fork_last m ch
            rcases h4 : Headers.add_chain m.state ch with ⟨s', er | v⟩
            all_goals
              simp only [h4] at this
              simp only [read_moments, Headers.read_header, h0, h1, ht, if_false, h2, h3, this, h4]
              exact ⟨trivial, trivial⟩

theorem connect_last (m : Moment) (raw : Bytes) :
    (m.last (m.connect_moments raw)).state = (m.state.connect raw).1 ∧
      (m.last (m.connect_moments raw)).closed = m.closed := by
  unfold connect_moments Headers.connect
  cases m.state.connect_check raw with
  | error e => exact ⟨rfl, rfl⟩
  | ok x =>
    cases x with
    | inl r => exact ⟨rfl, rfl⟩
    | inr header =>
      simp only [last_append]
      have ha := append_last m raw
      rcases hap : m.state.storage.append raw with ⟨st, r⟩
      rw [hap] at ha
      cases r with
      | error e => exact ha
      | ok i =>
        simp only
        have := read_last (m.last (m.append_moments raw)) i
        rw [ha.1, ha.2] at this
        refine ⟨this.1.trans ?_, this.2⟩
        rcases Headers.read_header _ i with ⟨s', r'⟩
        cases r' <;> rfl

/-! ## What can be seen at a moment -/

theorem append_moments_mem {m x : Moment} {raw : Bytes} {n cap : Nat} (hw : m.state.storage.WF n cap)
    (hl : raw.length = 80) (hlt : n + 1 < 2 ^ 32) (hx : x ∈ m.append_moments raw) :
    ∃ st, x.state = { m.state with storage := st } ∧ (∀ i : Nat, i ≠ n → st.get i = m.state.storage.get i) ∧
      (st.get n = m.state.storage.get n ∨ st.get n = .error .missingHeader ∨ st.get n = .ok raw) := by
  obtain ⟨cap', h1, h2, h3, h4, h5⟩ := hw.grow n
  obtain ⟨st1, h6, h7, h8⟩ := h1.bump n h3 hlt
  obtain ⟨st2, h9, h10, h11, h12⟩ := h7.write n raw h3 hl
  have get_same : ∀ {st : Storage} {k : Nat}, st.WF k cap' →
      (∀ i : Nat, i ≠ n → i < cap → st.slot i = m.state.storage.slot i) →
      (∀ i : Nat, i ≠ n → cap ≤ i → i < cap' → st.slot i = empty_header) →
      ∀ i : Nat, i ≠ n → st.get i = m.state.storage.get i := by
    intro st k hst a b i hi
    rw [Storage.get_nat, Storage.get_nat]
    rcases Nat.lt_or_ge i cap with hc | hc
    · rw [hst.header_lt i (by omega), hw.header_lt i hc, a i hi hc]
    · rw [hw.header_ge i hc]
      rcases Nat.lt_or_ge i cap' with hc' | hc'
      · rw [hst.header_lt i hc', b i hi hc hc', if_pos rfl]
      · rw [hst.header_ge i hc']
  have key : ∀ {st : Storage} {k : Nat}, st.WF k cap' → (∀ i : Nat, i < cap → st.slot i = m.state.storage.slot i) →
      (∀ i : Nat, cap ≤ i → i < cap' → st.slot i = empty_header) →
      ∀ i : Nat, st.get i = m.state.storage.get i := by
    intro st k hst a b i
    rw [Storage.get_nat, Storage.get_nat]
    rcases Nat.lt_or_ge i cap with hc | hc
    · rw [hst.header_lt i (by omega), hw.header_lt i hc, a i hc]
    · rw [hw.header_ge i hc]
      rcases Nat.lt_or_ge i cap' with hc' | hc'
      · rw [hst.header_lt i hc', b i hc hc', if_pos rfl]
      · rw [hst.header_ge i hc']
  have g1 := key h1 h4 h5
  have g2 := key h7 (fun i hi => by rw [h8, h4 i hi]) (fun i a b => by rw [h8, h5 i a b])
  have g3 := get_same h10 (fun i hn hi => by rw [h12 i hn, h8, h4 i hi]) (fun i hn a b => by rw [h12 i hn, h8, h5 i a b])
  have g4 : st2.get n = .error .missingHeader ∨ st2.get n = .ok raw := by
    rw [Storage.get_nat, h10.header_lt n h3, h11]
    split
    · exact .inl rfl
    · exact .inr rfl
  have r0 : ∃ st, m.state = { m.state with storage := st } ∧ (∀ i : Nat, i ≠ n → st.get i = m.state.storage.get i) ∧
      (st.get n = m.state.storage.get n ∨ st.get n = .error .missingHeader ∨ st.get n = .ok raw) :=
    ⟨m.state.storage, rfl, fun _ _ => rfl, .inl rfl⟩
  have hn : ¬ raw.length ≠ 80 := by omega
  simp only [append_moments, hw.len, Int.toNat_natCast, hn, if_false, h6, h9] at hx
  have hmem : (m.state.storage.offset n ≥ m.state.storage.file.length ∧
        (x.state = m.state ∨ x.state = { m.state with storage := m.state.storage.grow n })) ∨
      x.state = { m.state with storage := st1 } ∨ x.state = { m.state with storage := st2 } := by
    by_cases hg : m.state.storage.offset n ≥ m.state.storage.file.length
    · simp only [if_pos hg, List.cons_append, List.nil_append, List.mem_cons, List.not_mem_nil, or_false] at hx
      rcases hx with rfl | rfl | rfl | rfl
      · exact .inl ⟨hg, .inl rfl⟩
      · exact .inl ⟨hg, .inr rfl⟩
      · exact .inr (.inl rfl)
      · exact .inr (.inr rfl)
    · simp only [if_neg hg, List.nil_append, List.mem_cons, List.not_mem_nil, or_false] at hx
      rcases hx with rfl | rfl
      · exact .inr (.inl rfl)
      · exact .inr (.inr rfl)
  rcases hmem with ⟨_, e | e⟩ | e | e <;> rw [e]
  · exact r0
  · exact ⟨_, rfl, fun i _ => g1 i, .inl (g1 n)⟩
  · exact ⟨_, rfl, fun i _ => g2 i, .inl (g2 n)⟩
  · exact ⟨_, rfl, g3, .inr g4⟩

theorem cache_moments_mem {cache cache' : List (Bytes × Header × Nat)} {chains : List Chain} {header : Header} {index : Nat}
    (h : cache' ∈ cache_moments cache chains header index) :
    (∀ e ∈ cache', e ∈ cache ∨ e = (header.hash, header, index)) ∨
      cache' = Headers.cache_add cache chains header index := by
  have hset : ∀ e ∈ dictSet cache header.hash (header, index), e ∈ cache ∨ e = (header.hash, header, index) := by
    intro e he
    rcases mem_dictSet he with rfl | he
    · exact .inr rfl
    · exact .inl he
  unfold cache_moments at h
  unfold Headers.cache_add
  simp only at h ⊢
  split at h
  · next hlt =>
    rw [if_pos hlt]
    rcases List.mem_append.1 h with h | h
    · obtain ⟨n, _, rfl⟩ := List.mem_map.1 h
      exact .inl fun e he => hset e (List.mem_of_mem_drop he)
    · exact .inr (List.mem_singleton.1 h)
  · rw [List.mem_singleton] at h
    subst h
    exact .inl hset

/-- The moments of `_add_chain_tip` when it succeeds. -/
theorem tip_moments_mem {m x : Moment} {chain : Chain} {index : Nat} {s' : Headers}
    (h : m.state.add_chain_tip chain index = (s', .ok ())) (hx : x ∈ m.tip_moments chain index) :
    x.state.H = m.state.H ∧ x.state.checkpoint = m.state.checkpoint ∧ x.state.storage = m.state.storage ∧
      x.state.chains = m.state.chains ∧ s'.chains = m.state.chains ∧
      x.state.short_hashes = s'.short_hashes ∧
      (x.state.heights = m.state.heights ∨ x.state.heights = s'.heights) ∧
      (x.state.chain_indices = m.state.chain_indices ∨ x.state.chain_indices = s'.chain_indices) ∧
      ((∀ e ∈ x.state.cache, e ∈ m.state.cache ∨ e = (chain.tip.hash, chain.tip, index)) ∨ x.state.cache = s'.cache) ∧
      m.state.short_hashes <+: s'.short_hashes ∧ m.state.heights <+: s'.heights ∧
      m.state.chain_indices <+: s'.chain_indices := by
  rw [Headers.add_chain_tip] at h
  rw [tip_moments] at hx
  have p1 : ∀ hs, arrayAppend 4 m.state.heights chain.tip.height = .ok hs → m.state.heights <+: hs := by
    intro hs h
    unfold arrayAppend at h
    split at h
    · injection h with h; rw [← h]; exact List.prefix_append _ _
    · cases h
  have p2 : ∀ hs, arrayAppend 2 m.state.chain_indices index = .ok hs → m.state.chain_indices <+: hs := by
    intro hs h
    unfold arrayAppend at h
    split at h
    · injection h with h; rw [← h]; exact List.prefix_append _ _
    · cases h
  generalize arrayAppend 4 m.state.heights chain.tip.height = r1 at h hx p1
  generalize arrayAppend 2 m.state.chain_indices index = r2 at h hx p2
  cases r1 with
  | error e => cases h
  | ok hs =>
    cases r2 with
    | error e => cases h
    | ok ci =>
      cases h
      simp only [tip_moments_arrays, List.mem_append, List.mem_cons, List.not_mem_nil, or_false, List.mem_map] at hx
      have q1 := p1 hs rfl
      have q2 := p2 ci rfl
      rcases hx with (rfl | rfl | rfl) | ⟨cache, hc, rfl⟩
      · exact ⟨rfl, rfl, rfl, rfl, rfl, rfl, .inl rfl, .inl rfl, .inl fun e he => .inl he,
          List.prefix_append _ _, q1, q2⟩
      · exact ⟨rfl, rfl, rfl, rfl, rfl, rfl, .inr rfl, .inl rfl, .inl fun e he => .inl he,
          List.prefix_append _ _, q1, q2⟩
      · exact ⟨rfl, rfl, rfl, rfl, rfl, rfl, .inr rfl, .inr rfl, .inl fun e he => .inl he,
          List.prefix_append _ _, q1, q2⟩
      · exact ⟨rfl, rfl, rfl, rfl, rfl, rfl, .inr rfl, .inr rfl, cache_moments_mem hc,
          List.prefix_append _ _, q1, q2⟩

/-- The chain has the same beginning and perhaps more headers. -/
def Grown (ch ch' : Chain) : Prop :=
  ch'.parent = ch.parent ∧ ch'.first_height = ch.first_height ∧ ch.header_indices <+: ch'.header_indices

/-- The first chains are among the second, at the same places, perhaps with more headers. -/
def ChainsUpTo (a b : List Chain) : Prop :=
  ∀ (c : Nat) (ch : Chain), a[c]? = some ch → ∃ ch' : Chain, b[c]? = some ch' ∧ Grown ch ch'

theorem ChainsUpTo.refl (a : List Chain) : ChainsUpTo a a :=
  fun _ ch h => ⟨ch, h, rfl, rfl, List.prefix_rfl⟩

theorem ChainsUpTo.trans {a b c : List Chain} (h1 : ChainsUpTo a b) (h2 : ChainsUpTo b c) : ChainsUpTo a c := by
  intro k ch h
  obtain ⟨ch1, a1, a2, a3, a4⟩ := h1 k ch h
  obtain ⟨ch2, b1, b2, b3, b4⟩ := h2 k ch1 a1
  exact ⟨ch2, b1, b2.trans a2, b3.trans a3, a4.trans b4⟩

theorem ChainsUpTo.set {a : List Chain} {c : Nat} {ch ch' : Chain} (h : a[c]? = some ch) (hg : Grown ch ch') :
    ChainsUpTo a (a.set c ch') := by
  intro k x hx
  by_cases e : c = k
  · subst e
    rw [h] at hx; cases hx
    exact ⟨ch', List.getElem?_set_self (getElem?_lt h), hg⟩
  · exact ⟨x, by rw [List.getElem?_set_ne e]; exact hx, rfl, rfl, List.prefix_rfl⟩

theorem ChainsUpTo.append (a b : List Chain) : ChainsUpTo a (a ++ b) := by
  intro k x hx
  exact ⟨x, by rw [List.getElem?_append_left (getElem?_lt hx)]; exact hx, rfl, rfl, List.prefix_rfl⟩

theorem arrayAppend_prefix {w : Nat} {a r : List Nat} {v : Int} (h : arrayAppend w a v = .ok r) : a <+: r := by
  unfold arrayAppend at h
  split at h
  · injection h with h; rw [← h]; exact List.prefix_append _ _
  · cases h

theorem extend_moments_mem {m x : Moment} {c : Nat} {chain : Chain} {header : Header} {i : Nat}
    (hx : x ∈ m.extend_moments c chain header i) :
    ∃ ch', x.state = { m.state with chains := m.state.chains.set c ch' } ∧ Grown chain ch' := by
  rw [extend_moments] at hx
  have p1 : ∀ hs, arrayAppend 4 chain.header_indices i = .ok hs → chain.header_indices <+: hs :=
    fun hs h => arrayAppend_prefix h
  generalize arrayAppend 4 chain.header_indices i = r1 at hx p1
  cases r1 with
  | error e =>
    simp only [extend_moments_indices, List.mem_singleton] at hx
    subst hx
    exact ⟨_, rfl, rfl, rfl, List.prefix_rfl⟩
  | ok hs =>
    have q := p1 hs rfl
    simp only [extend_moments_indices] at hx
    cases hw : header.work with
    | error e =>
      simp only [hw, List.mem_cons, List.not_mem_nil, or_false] at hx
      rcases hx with rfl | rfl
      · exact ⟨_, rfl, rfl, rfl, List.prefix_rfl⟩
      · exact ⟨_, rfl, rfl, rfl, q⟩
    | ok w =>
      simp only [hw, List.mem_cons, List.not_mem_nil, or_false] at hx
      rcases hx with rfl | rfl | rfl
      · exact ⟨_, rfl, rfl, rfl, List.prefix_rfl⟩
      · exact ⟨_, rfl, rfl, rfl, q⟩
      · exact ⟨_, rfl, rfl, rfl, q⟩

theorem append_grown {chain ch' : Chain} {header : Header} {i : Nat} {r : Res Unit}
    (h : chain.append header i = (ch', r)) : Grown chain ch' := by
  rw [Chain.append] at h
  have p1 : ∀ hs, arrayAppend 4 chain.header_indices i = .ok hs → chain.header_indices <+: hs :=
    fun hs h => arrayAppend_prefix h
  generalize arrayAppend 4 chain.header_indices i = r1 at h p1
  cases r1 with
  | error e => cases h; exact ⟨rfl, rfl, List.prefix_rfl⟩
  | ok hs =>
    have q := p1 hs rfl
    simp only [Chain.append_indices] at h
    cases hw : header.work with
    | error e => rw [hw] at h; cases h; exact ⟨rfl, rfl, q⟩
    | ok w => rw [hw] at h; cases h; exact ⟨rfl, rfl, q⟩

/-- The moment is between the two states. -/
structure Mid (s s' x : Headers) : Prop where
  H : x.H = s.H
  checkpoint : x.checkpoint = s.checkpoint
  chains : ChainsUpTo s.chains x.chains
  chains_length : x.chains.length ≤ s'.chains.length
  short : x.short_hashes = s.short_hashes ∨ x.short_hashes = s'.short_hashes
  heights : x.heights = s.heights ∨ x.heights = s'.heights
  chain_indices : x.chain_indices = s.chain_indices ∨ x.chain_indices = s'.chain_indices
  short' : s.short_hashes <+: s'.short_hashes
  heights' : s.heights <+: s'.heights
  chain_indices' : s.chain_indices <+: s'.chain_indices
  cache : (∀ e ∈ x.cache, e ∈ s.cache ∨ ∃ (c : Nat) (ch : Chain), s'.chains[c]? = some ch ∧ e = (ch.tip.hash, ch.tip, c)) ∨
    x.cache = s'.cache

theorem tip_mid {m x : Moment} {chain : Chain} {index : Nat} {s' : Headers} {s : Headers}
    (h : m.state.add_chain_tip chain index = (s', .ok ())) (hx : x ∈ m.tip_moments chain index)
    (hm : ∃ chains, m.state = { s with chains } ∧ ChainsUpTo s.chains chains ∧ chains[index]? = some chain) :
    Mid s s' x.state ∧ x.state.storage = s.storage := by
  obtain ⟨a1, a2, a3, a4, a5, a6, a7, a8, a9, a10, a11, a12⟩ := tip_moments_mem h hx
  obtain ⟨chains, hms, hup, hc⟩ := hm
  rw [hms] at a1 a2 a3 a4 a5 a7 a8 a9 a10 a11 a12
  refine ⟨⟨a1, a2, by rw [a4]; exact hup, by rw [a4, a5], .inr a6, a7, a8, a10, a11, a12, ?_⟩, a3⟩
  rcases a9 with a9 | a9
  · left
    intro e he
    rcases a9 e he with h | h
    · exact .inl h
    · exact .inr ⟨index, chain, by rw [a5]; exact hc, h⟩
  · exact .inr a9

theorem tip_moments_arrays_ne (m : Moment) (chain : Chain) (index : Nat) (r1 r2 : Res (List Nat)) :
    ∃ y, y ∈ m.tip_moments_arrays chain index r1 r2 := by
  cases r1 with
  | error e => exact ⟨_, List.mem_singleton.2 rfl⟩
  | ok hs =>
    cases r2 with
    | error e => exact ⟨_, List.mem_cons_self⟩
    | ok ci => exact ⟨_, List.mem_append.2 (.inl List.mem_cons_self)⟩

theorem tip_moments_ne (m : Moment) (chain : Chain) (index : Nat) : ∃ y, y ∈ m.tip_moments chain index := by
  rw [tip_moments]
  exact tip_moments_arrays_ne m chain index _ _

theorem extended_mid {m x : Moment} {c : Nat} {chain ch : Chain} {new_tip : Header} {i : Nat} {s' : Headers}
    (h1 : m.state.chains[c]? = some chain) (h2 : chain.append new_tip i = (ch, .ok ()))
    (h3 : Headers.add_chain_tip { m.state with chains := m.state.chains.set c ch } ch c = (s', .ok ()))
    (hx : x ∈ m.extended_moments c chain new_tip i) : Mid m.state s' x.state ∧ x.state.storage = m.state.storage := by
  rw [extended_moments, h2, List.mem_append, tip_moments_after] at hx
  have hg := append_grown h2
  have hset : (m.state.chains.set c ch)[c]? = some ch := List.getElem?_set_self (getElem?_lt h1)
  rcases hx with hx | hx
  · obtain ⟨ch', e1, e2⟩ := extend_moments_mem hx
    obtain ⟨y, hy⟩ := tip_moments_ne { m with state := { m.state with chains := m.state.chains.set c ch } } ch c
    obtain ⟨b1, b2, b3, b4, b5, b6, b7, b8, b9, b10, b11, b12⟩ := tip_moments_mem h3 hy
    rw [e1]
    exact ⟨⟨rfl, rfl, .set h1 e2, by simp [b5], .inl rfl, .inl rfl, .inl rfl, b10, b11, b12,
      .inl fun e he => .inl he⟩, rfl⟩
  · exact tip_mid h3 hx ⟨_, rfl, .set h1 hg, hset⟩

theorem fork_mid {m x : Moment} {ch : Chain} {s' : Headers} (h4 : Headers.add_chain m.state ch = (s', .ok ()))
    (hx : x ∈ m.fork_moments ch) : Mid m.state s' x.state ∧ x.state.storage = m.state.storage := by
  rw [fork_moments, List.mem_cons] at hx
  rw [Headers.add_chain] at h4
  have hset : (m.state.chains ++ [ch])[m.state.chains.length]? = some ch := by simp
  rcases hx with rfl | hx
  · obtain ⟨y, hy⟩ := tip_moments_ne { m with state := { m.state with chains := m.state.chains ++ [ch] } } ch
      m.state.chains.length
    obtain ⟨b1, b2, b3, b4, b5, b6, b7, b8, b9, b10, b11, b12⟩ := tip_moments_mem h4 hy
    exact ⟨⟨rfl, rfl, .append _ _, by simp [b5], .inl rfl, .inl rfl, .inl rfl, b10, b11, b12,
      .inl fun e he => .inl he⟩, rfl⟩
  · exact tip_mid h4 hx ⟨_, rfl, .append _ _, hset⟩

/-- The two ways in which `_read_header` succeeds. -/
theorem read_cases {m : Moment} {i c' : Nat} {s' : Headers} (h : m.state.read_header i = (s', .ok c')) :
    (∃ c chain ch new_tip, m.state.chains[c]? = some chain ∧ chain.append new_tip i = (ch, .ok ()) ∧
      Headers.add_chain_tip { m.state with chains := m.state.chains.set c ch } ch c = (s', .ok ()) ∧
      m.read_moments i = m.extended_moments c chain new_tip i ∧ c' = c) ∨
    (∃ ch, Headers.add_chain m.state ch = (s', .ok ()) ∧ m.read_moments i = m.fork_moments ch ∧
      c' = m.state.chains.length) := by
  rcases h0 : m.state.read_prev i with e | ⟨new_tip, prev, c⟩
  · simp only [Headers.read_header, h0] at h; cases h
  rcases h1 : m.state.chains[c]? with _ | chain
  · simp only [Headers.read_header, h0, h1] at h; cases h
  by_cases ht : chain.tip.hash = prev.hash
  · left
    rcases h2 : chain.append new_tip i with ⟨ch, e | u⟩
    · simp only [Headers.read_header, h0, h1, ht, if_true, h2] at h; cases h
    rcases h3 : Headers.add_chain_tip { m.state with chains := m.state.chains.set c ch } ch c with ⟨s2, e | v⟩
    · simp only [Headers.read_header, h0, h1, ht, if_true, h2, h3] at h; cases h
    simp only [Headers.read_header, h0, h1, ht, if_true, h2, h3] at h
    have e : s2 = s' := congrArg Prod.fst h
    subst e
    have e' : (Except.ok c : Res Nat) = .ok c' := congrArg Prod.snd h
    injection e' with e'
    refine ⟨c, chain, ch, new_tip, h1, h2, h3, ?_, e'.symm⟩
    simp only [read_moments, h0, h1, ht, if_true]
  · right
    rcases h2 : m.state.chainwork_to_height c prev.height with e | pw
    · simp only [Headers.read_header, h0, h1, ht, if_false, h2] at h; cases h
    rcases h3 : Chain.new (some c) new_tip i pw with e | ch
    · simp only [Headers.read_header, h0, h1, ht, if_false, h2, h3] at h; cases h
    rcases h4 : Headers.add_chain m.state ch with ⟨s2, er | v⟩
    · simp only [Headers.read_header, h0, h1, ht, if_false, h2, h3, h4] at h; cases h
    simp only [Headers.read_header, h0, h1, ht, if_false, h2, h3, h4] at h
    have e : s2 = s' := congrArg Prod.fst h
    subst e
    have e' : (Except.ok m.state.chains.length : Res Nat) = .ok c' := congrArg Prod.snd h
    injection e' with e'
    refine ⟨ch, h4, ?_, e'.symm⟩
    simp only [read_moments, h0, h1, ht, if_false, h2, h3]

/-- The moments of `_read_header` when it succeeds. -/
theorem read_mid {m x : Moment} {i c' : Nat} {s' : Headers} (h : m.state.read_header i = (s', .ok c'))
    (hx : x ∈ m.read_moments i) : Mid m.state s' x.state ∧ x.state.storage = m.state.storage := by
  rcases read_cases h with ⟨c, chain, ch, nt, h1, h2, h3, e, _⟩ | ⟨ch, h4, e, _⟩
  · rw [e] at hx; exact extended_mid h1 h2 h3 hx
  · rw [e] at hx; exact fork_mid h4 hx

end Moment

/-! ## Moments and trees -/

open Moment

/-- What was held in the state `s`, with the tree `T`, is in `x`. -/
structure Shows (s : Headers) (T : Tree) (x : Headers) : Prop where
  H : x.H = s.H
  checkpoint : x.checkpoint = s.checkpoint
  short : s.short_hashes <+: x.short_hashes
  heights : s.heights <+: x.heights
  chain_indices : s.chain_indices <+: x.chain_indices
  chains : ChainsUpTo s.chains x.chains
  stored : ∀ (i : Nat) (N : Node), T[i]? = some N → x.storage.get ((i : Int) + s.checkpoint.height) = .ok N.raw

/-- What is in `x` is held in the state `s'`, with the tree `T'`. -/
structure Upto (x s' : Headers) (T' : Tree) : Prop where
  H : x.H = s'.H
  checkpoint : x.checkpoint = s'.checkpoint
  short : x.short_hashes <+: s'.short_hashes
  heights : x.heights <+: s'.heights
  chain_indices : x.chain_indices <+: s'.chain_indices
  held : ∀ (i : Nat) (raw : Bytes), x.storage.get ((i : Int) + s'.checkpoint.height) = .ok raw →
    ∃ N, T'[i]? = some N ∧ N.raw = raw
  cache : ∀ e ∈ x.cache, ∃ (i : Nat) (M : Node), T'[i]? = some M ∧
    e = (header_hash s'.H M.raw, mkHeader s'.H M.raw (nodeHeight s'.checkpoint M), M.chain)

variable {S : Bytes → Prop} {s s' : Headers} {T T' T2 : Tree}

theorem Inv.prefixes (h : Inv S s T) (h' : Inv S s' (T ++ T2)) (hH : s'.H = s.H) (hcp : s'.checkpoint = s.checkpoint) :
    s.short_hashes <+: s'.short_hashes ∧ s.heights <+: s'.heights ∧ s.chain_indices <+: s'.chain_indices := by
  rw [h.short, h'.short, h.heights, h'.heights, h.chain_indices, h'.chain_indices, hH, hcp]
  simp only [List.flatMap_append, List.map_append]
  exact ⟨List.prefix_append _ _, List.prefix_append _ _, List.prefix_append _ _⟩

theorem Inv.held (h : Inv S s T) (i : Nat) (raw : Bytes)
    (hg : s.storage.get ((i : Int) + s.checkpoint.height) = .ok raw) : ∃ N, T[i]? = some N ∧ N.raw = raw := by
  rcases Nat.lt_or_ge i T.length with hi | hi
  · have hN : T[i]? = some T[i] := List.getElem?_eq_getElem hi
    have := h.stored i _ hN
    rw [hg] at this
    injection this with this
    exact ⟨_, hN, this.symm⟩
  · have := h.rest (i + s.checkpoint.height) (by omega)
    rw [Int.natCast_add, hg] at this
    cases this

theorem Inv.upto (h : Inv S s T) : Upto s s T :=
  ⟨rfl, rfl, List.prefix_rfl, List.prefix_rfl, List.prefix_rfl, h.held, h.cache⟩

theorem Inv.shows (h : Inv S s T) : Shows s T s :=
  ⟨rfl, rfl, List.prefix_rfl, List.prefix_rfl, List.prefix_rfl, .refl _, h.stored⟩

theorem Shows.trans {x : Headers} (h1 : Shows s T s') (h2 : Shows s' (T ++ T2) x) : Shows s T x :=
  ⟨h2.H.trans h1.H, h2.checkpoint.trans h1.checkpoint, h1.short.trans h2.short, h1.heights.trans h2.heights,
    h1.chain_indices.trans h2.chain_indices, h1.chains.trans h2.chains,
    fun i N hN => by have := h2.stored i N (getElem?_append_some hN); rwa [h1.checkpoint] at this⟩

theorem Upto.mono {x s'' : Headers} (h1 : Upto x s' T') (h2 : Shows s' T' s'') : Upto x s'' (T' ++ T2) :=
  ⟨h1.H.trans h2.H.symm, h1.checkpoint.trans h2.checkpoint.symm, h1.short.trans h2.short, h1.heights.trans h2.heights,
    h1.chain_indices.trans h2.chain_indices,
    fun i raw hg => by
      rw [h2.checkpoint] at hg
      obtain ⟨N, a, b⟩ := h1.held i raw hg
      exact ⟨N, getElem?_append_some a, b⟩,
    fun e he => by
      obtain ⟨i, M, a, b⟩ := h1.cache e he
      exact ⟨i, M, getElem?_append_some a, by rw [h2.H, h2.checkpoint]; exact b⟩⟩

/-- `connect` up to its result. -/
theorem connect_parts {s s' : Headers} {raw : Bytes} {hd : Header} {r : Header × Nat}
    (hck : s.connect_check raw = .ok (.inr hd)) (hc : s.connect raw = (s', .ok r)) :
    ∃ st i, s.storage.append raw = (st, .ok i) ∧ Headers.read_header { s with storage := st } i = (s', .ok r.2) := by
  rw [Headers.connect, hck] at hc
  simp only at hc
  rcases hap : s.storage.append raw with ⟨st, e | i⟩
  · rw [hap] at hc; cases hc
  rw [hap] at hc
  simp only at hc
  rcases hrd : Headers.read_header { s with storage := st } i with ⟨s2, e | c⟩
  · rw [hrd] at hc; cases hc
  rw [hrd] at hc
  have e : s2 = s' := congrArg Prod.fst hc
  subst e
  have e' : (Except.ok (hd, c) : Res (Header × Nat)) = .ok r := congrArg Prod.snd hc
  injection e' with e'
  rw [← e']
  exact ⟨st, i, rfl, hrd⟩

/-- Every moment of a call of `connect` is between the state before and the state after. -/
theorem connect_moments_mem (h : Inv S s T) (h' : Inv S s' T') {raw : Bytes} {r : Res (Header × Nat)} (hr : Room s)
    (hcon : Connected s T raw s' T' r) (hc : s.connect raw = (s', r)) {b : Bool} {g : Nat} {x : Moment}
    (hx : x ∈ Moment.connect_moments ⟨s, b, g⟩ raw) : Shows s T x.state ∧ Upto x.state s' T' := by
  cases hcon with
  | malformed hl _ _ =>
    have : s.connect_check raw = .error .structError := by
      simp [Headers.connect_check, deserialized_header_err s.H raw _ hl]
    simp only [Moment.connect_moments, this] at hx
    cases hx
  | missing hl hno _ _ =>
    simp only [Moment.connect_moments, h.connect_check_missing raw hl hno] at hx
    cases hx
  | existing i M hM hi hraw _ _ =>
    subst hraw
    simp only [Moment.connect_moments, h.connect_check_existing hM hi] at hx
    cases hx
  | rejected p P e hl hp hprev hnew hck _ _ =>
    simp only [Moment.connect_moments, hck] at hx
    cases hx
  | accepted p P c hl hp hprev hnew hck e1 e2 e3 hadd e4 e5 hT =>
    subst hT
    have hroom := hr.2 _ h.len
    obtain ⟨cap, hw⟩ := h.wf
    obtain ⟨q1, q2, q3⟩ := h.prefixes h' e1 e3
    obtain ⟨st, i, ha, hrd⟩ := connect_parts hck hc
    simp only [Moment.connect_moments, hck, ha, List.mem_append] at hx
    have hcache : ∀ e ∈ s.cache, ∃ (i : Nat) (M : Node), (T ++ [⟨raw, P.path ++ [T.length], c⟩])[i]? = some M ∧
        e = (header_hash s'.H M.raw, mkHeader s'.H M.raw (nodeHeight s'.checkpoint M), M.chain) := by
      intro e he
      obtain ⟨i, M, a, b⟩ := h.cache e he
      exact ⟨i, M, getElem?_append_some a, by rw [e1, e3]; exact b⟩
    rcases hx with hx | hx
    · obtain ⟨st', f1, f2, f3⟩ := append_moments_mem (m := ⟨s, b, g⟩) hw hl (by omega) hx
      rw [f1]
      simp only at f2 f3
      refine ⟨⟨rfl, rfl, List.prefix_rfl, List.prefix_rfl, List.prefix_rfl, .refl _, ?_⟩,
        ⟨e1.symm, e3.symm, q1, q2, q3, ?_, hcache⟩⟩
      · intro j N hN
        have hj := getElem?_lt hN
        have := f2 (j + s.checkpoint.height) (by omega)
        rw [Int.natCast_add, h.stored j N hN] at this
        exact this
      · intro j rw' hg
        rw [e3] at hg
        simp only at hg
        by_cases hj : j = T.length
        · subst hj
          refine ⟨_, getElem?_snoc.2 (.inr ⟨rfl, rfl⟩), ?_⟩
          rw [show ((T.length : Int) + s.checkpoint.height) = ((s.checkpoint.height + T.length : Nat) : Int) by omega] at hg
          rw [h.rest _ (le_refl _), hg] at f3
          rcases f3 with f3 | f3 | f3
          · cases f3
          · cases f3
          · injection f3 with f3; exact f3.symm
        · rw [← Int.natCast_add, f2 (j + s.checkpoint.height) (by omega), Int.natCast_add] at hg
          obtain ⟨N, a, b⟩ := h.held j rw' hg
          exact ⟨N, getElem?_append_some a, b⟩
    · have hal := (append_last ⟨s, b, g⟩ raw).1
      rw [ha] at hal
      simp only at hal
      obtain ⟨hm, hst⟩ := read_mid (by rw [hal]; exact hrd) hx
      rw [hal] at hm hst
      have hs' : s'.storage = st := by rw [e4, ha]
      simp only at hst
      have pref : ∀ {α : Type} {a b y : List α}, a <+: b → y = a ∨ y = b → a <+: y ∧ y <+: b := by
        intro α a b y hab hy
        rcases hy with rfl | rfl
        · exact ⟨List.prefix_rfl, hab⟩
        · exact ⟨hab, List.prefix_rfl⟩
      have p1 := pref q1 hm.short
      have p2 := pref q2 hm.heights
      have p3 := pref q3 hm.chain_indices
      refine ⟨⟨hm.H, hm.checkpoint, p1.1, p2.1, p3.1, hm.chains, ?_⟩,
        ⟨hm.H.trans e1.symm, hm.checkpoint.trans e3.symm, p1.2, p2.2, p3.2, ?_, ?_⟩⟩
      · intro j N hN
        rw [hst, ← hs', ← e3]
        exact h'.stored j N (getElem?_append_some hN)
      · intro j rw' hg
        rw [hst, ← hs'] at hg
        exact h'.held j rw' hg
      · intro e he
        rcases hm.cache with hm | hm
        · rcases hm e he with hm | ⟨k, ch, hch, rfl⟩
          · exact hcache e hm
          · obtain ⟨t, N, base, own, hci⟩ := h'.toDesc.chain_at hch
            refine ⟨t, N, hci.node, ?_⟩
            have hl := (h'.good.node t N hci.node).valid.length
            rw [hci.tip, (mkHeader_fields (H := s'.H) _ hl).2.2.1, hci.chain]
        · rw [hm] at he
          exact h'.cache e he

theorem connect_shows (h : Inv S s T) (h' : Inv S s' T') {raw : Bytes} {r : Res (Header × Nat)}
    (hcon : Connected s T raw s' T' r) : (∃ T2, T' = T ++ T2) ∧ Shows s T s' := by
  have same : s' = s → Shows s T s' := fun e => by subst e; exact h.shows
  cases hcon with
  | malformed _ e e' => exact ⟨⟨[], by simp [e']⟩, same e⟩
  | missing _ _ e e' => exact ⟨⟨[], by simp [e']⟩, same e⟩
  | existing _ _ _ _ _ e e' => exact ⟨⟨[], by simp [e']⟩, same e⟩
  | rejected _ _ _ _ _ _ _ _ e e' => exact ⟨⟨[], by simp [e']⟩, same e⟩
  | accepted p P c hl hp hprev hnew hck e1 e2 e3 hadd e4 e5 hT =>
    subst hT
    obtain ⟨q1, q2, q3⟩ := h.prefixes h' e1 e3
    refine ⟨⟨_, rfl⟩, e1, e3, q1, q2, q3, ?_, ?_⟩
    · cases hadd with
      | extended ch hnc hcc hch hs' =>
        rw [hs']
        exact .set hch ⟨rfl, rfl, List.prefix_append _ _⟩
      | forked hhc hcc hs' =>
        rw [hs']
        exact .append _ _
    · intro j N hN
      rw [← e3]
      exact h'.stored j N (getElem?_append_some hN)

theorem trace_seen {ms : List Moment} {m : Moment} (h : Inv S s T) (ht : Trace s.checkpoint S s ms m) :
    ∃ T2, Inv S m.state (T ++ T2) ∧ m.closed = false ∧ Shows s T m.state ∧
      ∀ x ∈ ms, Shows s T x.state ∧ Upto x.state m.state (T ++ T2) := by
  induction ht with
  | now g =>
    refine ⟨[], by simpa using h, rfl, h.shows, ?_⟩
    intro x hx
    rw [List.mem_singleton] at hx
    subst hx
    exact ⟨h.shows, by simpa using h.upto⟩
  | @connect ms m raw _ hS hr ih =>
    obtain ⟨T2, h1, h2, h3, h4⟩ := ih
    obtain ⟨l1, l2⟩ := connect_last m raw
    rcases hc : m.state.connect raw with ⟨s2, r⟩
    rw [hc] at l1
    obtain ⟨T3, hcon, hI⟩ := h1.connected hS hr hc
    obtain ⟨⟨T4, hT⟩, hsh⟩ := connect_shows h1 hI hcon
    subst hT
    rw [l1]
    rw [List.append_assoc] at hI
    refine ⟨T2 ++ T4, hI, l2.trans h2, h3.trans hsh, ?_⟩
    intro x hx
    rw [List.mem_append] at hx
    rcases hx with hx | hx
    · have := (h4 x hx).2.mono (T2 := T4) hsh
      rw [List.append_assoc] at this
      exact ⟨(h4 x hx).1, this⟩
    · rw [← List.append_assoc] at hI
      have := connect_moments_mem h1 hI hr hcon hc (b := m.closed) (g := m.mapping) hx
      rw [← List.append_assoc]
      exact ⟨h3.trans this.1, this.2⟩
  | @set_one ms m height raw _ hh ih =>
    obtain ⟨T2, h1, h2, h3, h4⟩ := ih
    have := h1.set_one height raw (by rw [h3.checkpoint]; exact hh)
    rcases hs : m.state.set_one height raw with ⟨s2, r⟩
    rw [hs] at this
    obtain ⟨a1, a2, a3, a4, a5⟩ := this
    simp only at a1 a2 a3 a4 a5 ⊢
    have a1' : Inv S s2 ((T ++ T2) ++ []) := by simpa using a1
    obtain ⟨q1, q2, q3⟩ := h1.prefixes a1' a3 a5
    have hsh : Shows m.state (T ++ T2) s2 :=
      ⟨a3, a5, q1, q2, q3, by rw [a2]; exact .refl _, fun i N hN => by rw [← a5]; exact a1.stored i N hN⟩
    refine ⟨T2, a1, h2, h3.trans hsh, ?_⟩
    intro x hx
    rw [List.mem_append, List.mem_singleton] at hx
    rcases hx with hx | rfl
    · have := (h4 x hx).2.mono (T2 := []) hsh
      rw [List.append_nil] at this
      exact ⟨(h4 x hx).1, this⟩
    · exact ⟨h3.trans hsh, a1.upto⟩

end Bitcoinx
