import Verif.Lemmas.Concurrent
import Verif.Props.ChainExample

/-! # C112: reading headers while another thread connects -/

namespace Bitcoinx
open Spec

section
variable {H : Hashes} {coin : Coin} {cp : CheckPoint} {S : Bytes → Prop} {s s' : Headers} {A : List Bytes}
  {T T' : Tree} {ms : List Moment} {m : Moment} {w : Nat → Moment}

/-- The moments end with the state after `connect`, with the file mapped. -/
theorem C112_connect (m : Moment) (raw : Bytes) :
    (m.last (m.connect_moments raw)).state = (m.state.connect raw).1 ∧
      (m.last (m.connect_moments raw)).closed = m.closed :=
  Moment.connect_last m raw

/-! ## Runs of the readers -/

theorem prefix_getElem? {α : Type} {a b : List α} (h : a <+: b) {i : Nat} {x : α} (hx : a[i]? = some x) :
    b[i]? = some x := by
  obtain ⟨t, rfl⟩ := h
  rw [List.getElem?_append_left (getElem?_lt hx)]; exact hx

theorem slice_prefix {α : Type} {a b : List α} (h : a <+: b) {i j : Nat} (hj : j ≤ a.length) :
    slice b i j = slice a i j := by
  obtain ⟨t, rfl⟩ := h
  exact slice_append_left _ _ _ _ hj

theorem storage_run_cases (w : Nat → Moment) (k : Nat) (key : Int) :
    (storage_run w k key = .error .valueError ∧ Enlarged w) ∨
      storage_run w k key = (do return (← (w (k + 1)).state.storage.get key, k + 2)) := by
  unfold storage_run
  split
  · next h =>
    left
    refine ⟨rfl, ?_⟩
    rcases h with h | h | h
    · exact ⟨k, .inl h⟩
    · exact ⟨k + 1, .inl h⟩
    · exact ⟨k, .inr h⟩
  · exact .inr rfl

theorem storage_run_still (x : Moment) (hx : x.closed = false) (k : Nat) (key : Int) :
    storage_run (fun _ => x) k key = (do return (← x.state.storage.get key, k + 2)) := by
  unfold storage_run
  simp [hx]

/-- The header can be found at every moment. -/
structure Findable (s : Headers) (T : Tree) (x : Headers) : Prop where
  H : x.H = s.H
  checkpoint : x.checkpoint = s.checkpoint
  short : s.short_hashes <+: x.short_hashes
  stored : ∀ (i : Nat) (N : Node), T[i]? = some N → x.storage.get ((i : Int) + s.checkpoint.height) = .ok N.raw

theorem Shows.findable {x : Headers} (h : Shows s T x) : Findable s T x := ⟨h.H, h.checkpoint, h.short, h.stored⟩

theorem slow_run_found (h : Desc S s T) (hi : Inj s.H S) (hw : ∀ k, Findable s T (w k).state) {i : Nat} {N : Node}
    (hN : T[i]? = some N) (fuel start k : Nat) (h1 : start ≤ 4 * i) (h2 : 4 * i < start + fuel) :
    (∃ k', slow_run w (header_hash s.H N.raw) fuel start k = some (.ok (N.raw, i, k'))) ∨
      (slow_run w (header_hash s.H N.raw) fuel start k = some (.error .valueError) ∧ Enlarged w) := by
  induction fuel generalizing start k with
  | zero => omega
  | succ fuel ih =>
    have hkl : ((header_hash s.H N.raw).take 4).length = 4 := h.chunk_length N (List.mem_of_getElem? hN)
    have hlen := h.short_length
    have hil := getElem?_lt hN
    have hpl := (hw k).short.length_le
    obtain ⟨j, hj1, hj2⟩ := bytesFindLoop_exists (b := (w k).state.short_hashes)
      (key := (header_hash s.H N.raw).take 4) (n := (w k).state.short_hashes.length + 1 - start) (i := start)
      (j := 4 * i) h1 (by omega) (by
        rw [hkl, slice_prefix (hw k).short (by omega)]
        exact h.short_slice hN)
    have hj3 := bytesFindLoop_some hj1
    have hfind : bytesFind (w k).state.short_hashes ((header_hash s.H N.raw).take 4) start = some j := hj1
    simp only [slow_run, hfind]
    have hrec : ∀ k', start < 4 * i →
        (∃ k'', slow_run w (header_hash s.H N.raw) fuel (start + 1) k' = some (.ok (N.raw, i, k''))) ∨
        (slow_run w (header_hash s.H N.raw) fuel (start + 1) k' = some (.error .valueError) ∧ Enlarged w) :=
      fun k' hlt => ih (start + 1) k' (by omega) (by omega)
    by_cases hm : j % 4 = 0
    · simp only [hm, if_true]
      obtain ⟨M, hM⟩ : ∃ M, T[j / 4]? = some M := ⟨_, List.getElem?_eq_getElem (by omega)⟩
      rcases storage_run_cases w (k + 1) (((j / 4 : Nat) : Int) + (w k).state.checkpoint.height) with ⟨e, he⟩ | e
      · right
        simp only [e]
        exact ⟨trivial, he⟩
      · rw [(hw k).checkpoint] at e ⊢
        rw [(hw (k + 1 + 1)).stored _ M hM] at e
        simp only [e, ok_bind', pure_ok', (hw k).H]
        by_cases heq : header_hash s.H M.raw = header_hash s.H N.raw
        · have hraw := hi _ _ (h.valid hM).mem (h.valid hN).mem heq
          have := h.good.raw_inj _ _ M N hM hN hraw
          left
          exact ⟨k + 1 + 2, by simp only [hraw, if_true, this]⟩
        · simp only [heq, if_false]
          apply hrec
          by_contra hc
          have e : j = 4 * i := by omega
          rw [e, show 4 * i / 4 = i by omega, hN] at hM
          cases hM
          exact heq rfl
    · simp only [hm, if_false]
      apply hrec
      omega

theorem slow_run_ok (hw : ∀ k, Upto (w k).state s' T') {hash : Bytes} (fuel start k : Nat) {raw : Bytes} {i k' : Nat}
    (h : slow_run w hash fuel start k = some (.ok (raw, i, k'))) :
    ∃ N, T'[i]? = some N ∧ N.raw = raw ∧ header_hash s'.H raw = hash := by
  induction fuel generalizing start k with
  | zero => cases h
  | succ fuel ih =>
    simp only [slow_run] at h
    split at h
    · cases h
    · next index hf =>
      split at h
      · rcases storage_run_cases w (k + 1) (((index / 4 : Nat) : Int) + (w k).state.checkpoint.height) with ⟨e, he⟩ | e
        · simp only [e] at h; cases h
        · simp only [e] at h
          cases hg : (w (k + 1 + 1)).state.storage.get (((index / 4 : Nat) : Int) + (w k).state.checkpoint.height) with
          | error e' => simp only [hg, error_bind'] at h; cases h
          | ok r =>
            simp only [hg, ok_bind', pure_ok'] at h
            split at h
            · next hh =>
              simp only [Option.some.injEq, Except.ok.injEq, Prod.mk.injEq] at h
              obtain ⟨rfl, rfl, rfl⟩ := h
              rw [(hw k).checkpoint] at hg
              obtain ⟨N, a, b⟩ := (hw _).held _ _ hg
              exact ⟨N, a, b, by rw [← (hw k).H]; exact hh⟩
            · exact ih _ _ h
      · exact ih _ _ h

theorem get_error {st : Storage} {i : Nat} {e : Err} (h : st.get i = .error e) : e = .missingHeader := by
  rw [Storage.get_nat] at h
  unfold Storage.header at h
  simp only at h
  split at h
  · injection h with h; exact h.symm
  · cases h

theorem slow_run_error {hash : Bytes} (fuel start k : Nat) {e : Err}
    (h : slow_run w hash fuel start k = some (.error e)) :
    e = .missingHeader ∨ (e = .valueError ∧ Enlarged w) := by
  induction fuel generalizing start k with
  | zero => cases h
  | succ fuel ih =>
    simp only [slow_run] at h
    split at h
    · simp only [Option.some.injEq, Except.error.injEq] at h
      exact .inl h.symm
    · next index hf =>
      split at h
      · rcases storage_run_cases w (k + 1) (((index / 4 : Nat) : Int) + (w k).state.checkpoint.height) with ⟨e', he⟩ | e'
        · simp only [e', Option.some.injEq, Except.error.injEq] at h
          exact .inr ⟨h.symm, he⟩
        · simp only [e'] at h
          cases hg : (w (k + 1 + 1)).state.storage.get (((index / 4 : Nat) : Int) + (w k).state.checkpoint.height) with
          | error e' =>
            simp only [hg, error_bind', Option.some.injEq, Except.error.injEq] at h
            rw [← Int.natCast_add] at hg
            rw [← h]
            exact .inl (get_error hg)
          | ok r =>
            simp only [hg, ok_bind', pure_ok'] at h
            split at h
            · cases h
            · exact ih _ _ h
      · exact ih _ _ h

theorem slow_run_ends {n : Nat} (hw : ∀ k, (w k).state.short_hashes.length ≤ n) {hash : Bytes} (fuel start k : Nat)
    (hf : n + 2 ≤ start + fuel) (hf0 : 0 < fuel) : slow_run w hash fuel start k ≠ none := by
  induction fuel generalizing start k with
  | zero => omega
  | succ fuel ih =>
    simp only [slow_run]
    have hrec : ∀ k', start ≤ n → slow_run w hash fuel (start + 1) k' ≠ none := by
      intro k' hle
      exact ih _ _ (by omega) (by omega)
    split
    · simp
    · next index hfd =>
      have hle : start ≤ n := by
        by_contra hc
        rw [bytesFind_none (by have := hw k; omega)] at hfd
        cases hfd
      split
      · split
        · simp
        · split
          · simp
          · exact hrec _ hle
      · exact hrec _ hle

/-! ## C112 -/

theorem trace_moments (he : Env H cp S) (hr : Reachable H coin cp S s A) (ht : Trace cp S s ms m) :
    ∃ T T2, Inv S s T ∧ s.H = H ∧ s.checkpoint = cp ∧ (∀ x, x ∈ A ↔ ∃ (i : Nat) (N : Node), T[i]? = some N ∧ N.raw = x) ∧
      Inv S m.state (T ++ T2) ∧ m.closed = false ∧ Shows s T m.state ∧
      ∀ x ∈ ms, Shows s T x.state ∧ Upto x.state m.state (T ++ T2) := by
  obtain ⟨T, hI, rfl, rfl, rfl, hA⟩ := reachable_inv he hr
  obtain ⟨T2, h1, h2, h3, h4⟩ := trace_seen hI ht
  exact ⟨T, T2, hI, rfl, rfl, hA, h1, h2, h3, h4⟩

/-- A header that was held before is found, as the same header on the same chain, whatever the other thread does in
the meantime and at whatever moments the accesses are made; or `ValueError` is raised, which only happens if the file is enlarged
in the meantime. -/
theorem C112_lookup (he : Env H cp S) (hr : Reachable H coin cp S s A) (ht : Trace cp S s ms m)
    (hw : ∀ k, w k ∈ ms) {raw : Bytes} (hraw : raw ∈ A) {fuel : Nat} (hf : s.short_hashes.length ≤ fuel) :
    (∃ r, s.lookup (header_hash H raw) = .ok r ∧ lookup_run w (header_hash H raw) fuel = some (.ok r)) ∨
      (lookup_run w (header_hash H raw) fuel = some (.error .valueError) ∧ Enlarged w) := by
  obtain ⟨T, T2, hI, rfl, rfl, hA, h1, h2, h3, h4⟩ := trace_moments he hr ht
  obtain ⟨i, N, hN, rfl⟩ := (hA raw).1 hraw
  have hlook := hI.toDesc.lookup_found hI.env.inj hN
  have hN' : (T ++ T2)[i]? = some N := getElem?_append_some hN
  unfold lookup_run
  cases hc : dictGet (w 0).state.cache (header_hash s.H N.raw) with
  | some v =>
    left
    obtain ⟨j, M, hM, heq⟩ := (h4 _ (hw 0)).2.cache _ (dictGet_mem hc)
    simp only [Prod.mk.injEq, h3.H] at heq
    have hr := hI.env.inj _ _ (h1.toDesc.valid hN').mem (h1.toDesc.valid hM).mem heq.1
    have := h1.good.raw_inj _ _ N M hN' hM hr
    subst this
    rw [hN'] at hM; cases hM
    refine ⟨_, hlook, ?_⟩
    simp only [heq.2, h3.checkpoint]
  | none =>
    have hil := getElem?_lt hN
    have hlen := hI.toDesc.short_length
    rcases slow_run_found hI.toDesc hI.env.inj (fun k => (h4 _ (hw k)).1.findable) hN fuel 0 1 (by omega) (by omega)
      with ⟨k', e⟩ | ⟨e, hen⟩
    · left
      refine ⟨_, hlook, ?_⟩
      have e1 : (w k').state.heights[i]? = some (nodeHeight s.checkpoint N) := by
        apply prefix_getElem? (h4 _ (hw k')).1.heights
        rw [hI.heights, List.getElem?_map, hN]; rfl
      have e2 : (w (k' + 1)).state.chain_indices[i]? = some N.chain := by
        apply prefix_getElem? (h4 _ (hw (k' + 1))).1.chain_indices
        rw [hI.chain_indices, List.getElem?_map, hN]; rfl
      have e3 : N.chain < (w (k' + 2)).state.chains.length := by
        obtain ⟨ch, hch⟩ := hI.toDesc.chain_exists hN
        obtain ⟨ch', hch', _⟩ := (h4 _ (hw (k' + 2))).1.chains _ _ hch
        exact getElem?_lt hch'
      simp only [e, e1, (h4 _ (hw k')).1.H, mkHeader_ok _ (hI.toDesc.valid hN).length, ok_bind', e2, e3, if_true, pure_ok']
    · right
      simp only [e]
      exact ⟨trivial, hen⟩

/-- Whatever is found is right: it is what is found in the end. -/
theorem C112_answer (he : Env H cp S) (hr : Reachable H coin cp S s A) (ht : Trace cp S s ms m)
    (hw : ∀ k, w k ∈ ms) {hash : Bytes} {fuel : Nat} {r : Header × Nat} (h : lookup_run w hash fuel = some (.ok r)) :
    m.state.lookup hash = .ok r := by
  obtain ⟨T, T2, hI, rfl, rfl, hA, h1, h2, h3, h4⟩ := trace_moments he hr ht
  unfold lookup_run at h
  cases hc : dictGet (w 0).state.cache hash with
  | some v =>
    rw [hc] at h
    simp only [Option.some.injEq, Except.ok.injEq] at h
    subst h
    obtain ⟨j, M, hM, heq⟩ := (h4 _ (hw 0)).2.cache _ (dictGet_mem hc)
    simp only [Prod.mk.injEq] at heq
    rw [heq.1, heq.2]
    exact h1.toDesc.lookup_found h1.env.inj hM
  | none =>
    rw [hc] at h
    simp only at h
    rcases hs : slow_run w hash fuel 0 1 with _ | e | ⟨raw, i, k⟩
    · rw [hs] at h; cases h
    · rw [hs] at h; cases h
    rw [hs] at h
    simp only [Option.some.injEq] at h
    obtain ⟨N, hN, rfl, rfl⟩ := slow_run_ok (fun k => (h4 _ (hw k)).2) _ _ _ hs
    rw [h1.toDesc.lookup_found h1.env.inj hN]
    cases e1 : (w k).state.heights[i]? with
    | none => rw [e1] at h; cases h
    | some ht =>
      have f1 := prefix_getElem? (h4 _ (hw k)).2.heights e1
      rw [h1.heights, List.getElem?_map, hN] at f1
      simp only [Option.map_some, Option.some.injEq] at f1
      simp only [e1, (h4 _ (hw k)).2.H, mkHeader_ok _ (h1.toDesc.valid hN).length, ok_bind'] at h
      cases e2 : (w (k + 1)).state.chain_indices[i]? with
      | none => rw [e2] at h; cases h
      | some c =>
        have f2 := prefix_getElem? (h4 _ (hw (k + 1))).2.chain_indices e2
        rw [h1.chain_indices, List.getElem?_map, hN] at f2
        simp only [Option.map_some, Option.some.injEq] at f2
        simp only [e2] at h
        split at h
        · rw [← h, f1, f2]; rfl
        · cases h

/-- The search ends, and only these exceptions are raised. -/
theorem C112_errors (he : Env H cp S) (hr : Reachable H coin cp S s A) (ht : Trace cp S s ms m)
    (hw : ∀ k, w k ∈ ms) (hash : Bytes) {fuel : Nat} (hf : m.state.short_hashes.length + 2 ≤ fuel) :
    ∃ r, lookup_run w hash fuel = some r ∧ ∀ e, r = .error e →
      e = .missingHeader ∨ e = .indexError ∨ (e = .valueError ∧ Enlarged w) := by
  obtain ⟨T, T2, hI, rfl, rfl, hA, h1, h2, h3, h4⟩ := trace_moments he hr ht
  unfold lookup_run
  cases hc : dictGet (w 0).state.cache hash with
  | some v => exact ⟨_, rfl, fun e h => by cases h⟩
  | none =>
    simp only
    rcases hs : slow_run w hash fuel 0 1 with _ | e | ⟨raw, i, k⟩
    · exact absurd hs (slow_run_ends (fun k => (h4 _ (hw k)).2.short.length_le) fuel 0 1 (by omega) (by omega))
    · refine ⟨_, rfl, fun e' h => ?_⟩
      injection h with h
      subst h
      rcases slow_run_error _ _ _ hs with h | h
      · exact .inl h
      · exact .inr (.inr h)
    · refine ⟨_, rfl, fun e' h => ?_⟩
      obtain ⟨N, hN, rfl, rfl⟩ := slow_run_ok (fun k => (h4 _ (hw k)).2) _ _ _ hs
      cases e1 : (w k).state.heights[i]? with
      | none => rw [e1] at h; cases h; exact .inr (.inl rfl)
      | some ht =>
        simp only [e1, mkHeader_ok _ (h1.toDesc.valid hN).length, ok_bind'] at h
        cases e2 : (w (k + 1)).state.chain_indices[i]? with
        | none => rw [e2] at h; cases h; exact .inr (.inl rfl)
        | some c =>
          simp only [e2] at h
          split at h
          · cases h
          · cases h; exact .inr (.inl rfl)

theorem header_index_run_ok (hw : ∀ k, Moment.ChainsUpTo s.chains (w k).state.chains) (fuel : Nat) {fuel' : Nat} {c i : Nat}
    {h : Int} (hf : fuel ≤ fuel') (hok : Chain.header_index s.chains fuel c h = .ok i) (k : Nat) :
    ∃ k', header_index_run w fuel' k c h = .ok (i, k') := by
  induction fuel generalizing fuel' c k with
  | zero => cases hok
  | succ fuel ih =>
    obtain ⟨fuel', rfl⟩ : ∃ f, fuel' = f + 1 := ⟨fuel' - 1, by omega⟩
    unfold Chain.header_index at hok
    unfold header_index_run
    cases hc : s.chains[c]? with
    | none => rw [hc] at hok; cases hok
    | some ch =>
      obtain ⟨ch', e1, e2, e3, e4⟩ := hw k c ch hc
      simp only [hc] at hok
      simp only [e1, e2, e3]
      by_cases hge : h ≥ ch.first_height
      · simp only [if_pos hge] at hok ⊢
        cases hx : ch.header_indices[(h - ch.first_height).toNat]? with
        | none => rw [hx] at hok; cases hok
        | some j =>
          rw [hx] at hok
          injection hok with hok
          subst hok
          simp only [prefix_getElem? e4 hx]
          exact ⟨_, rfl⟩
      · simp only [if_neg hge] at hok ⊢
        cases hp : ch.parent with
        | none =>
          simp only [hp] at hok ⊢
          by_cases h0 : h ≥ 0
          · simp only [if_pos h0] at hok ⊢
            injection hok with hok
            subst hok
            exact ⟨_, rfl⟩
          · simp only [if_neg h0] at hok; cases hok
        | some p =>
          simp only [hp] at hok ⊢
          exact ih (by omega) hok (k + 1)

/-- The header of a chain at a height from the checkpoint on is read as before, or `ValueError` is raised, which only happens if
the file is enlarged in the meantime. -/
theorem C112_height (he : Env H cp S) (hr : Reachable H coin cp S s A) (ht : Trace cp S s ms m)
    (hw : ∀ k, w k ∈ ms) {c : Nat} {h : Int} {raw : Bytes} (hh : cp.height ≤ h)
    (hs : s.raw_header_at_height c h = .ok raw) :
    raw_header_run w c h = .ok raw ∨ (raw_header_run w c h = .error .valueError ∧ Enlarged w) := by
  obtain ⟨T, T2, hI, rfl, rfl, hA, h1, h2, h3, h4⟩ := trace_moments he hr ht
  unfold Headers.raw_header_at_height at hs
  simp only [bind_eq_ok] at hs
  obtain ⟨i, hi, hget⟩ := hs
  have hcs : ∃ ch, s.chains[c]? = some ch := by
    unfold Headers.header_index at hi
    cases hl : s.chains.length with
    | zero => rw [hl] at hi; cases hi
    | succ n =>
      rw [hl] at hi
      unfold Chain.header_index at hi
      cases hc : s.chains[c]? with
      | none => rw [hc] at hi; cases hi
      | some ch => exact ⟨ch, rfl⟩
  obtain ⟨ch, hch⟩ := hcs
  obtain ⟨t, N, base, own, hci⟩ := hI.toDesc.chain_at hch
  have hix := hI.good.header_index _ c ch t N base own hch hci (getElem?_lt hch) h
  rw [Headers.header_index, hix] at hi
  have n1 : ¬ h < 0 := by omega
  have n2 : ¬ h < (s.checkpoint.height : Int) := by omega
  simp only [n1, n2, if_false] at hi hix
  cases hp : N.path[(h - s.checkpoint.height).toNat]? with
  | none => rw [hp] at hi; cases hi
  | some j =>
    rw [hp] at hi hix
    simp only [Except.ok.injEq] at hi
    subst hi
    have hlen : s.chains.length ≤ (w 0).state.chains.length := by
      by_contra hc
      obtain ⟨x, hx, _⟩ := (h4 _ (hw 0)).1.chains (w 0).state.chains.length _
        (List.getElem?_eq_getElem (by omega))
      have := getElem?_lt hx
      omega
    obtain ⟨k', e⟩ := header_index_run_ok (fun k => (h4 _ (hw k)).1.chains) _ hlen hix 0
    unfold raw_header_run
    simp only [e, ok_bind']
    rw [Int.natCast_add] at hget
    obtain ⟨M, hM, rfl⟩ := hI.held j raw hget
    rcases storage_run_cases w k' ((j + s.checkpoint.height : Nat) : Int) with ⟨e, hen⟩ | e
    · right
      simp only [e, error_bind']
      exact ⟨trivial, hen⟩
    · left
      have := (h4 _ (hw (k' + 1))).1.stored j M hM
      rw [← Int.natCast_add] at this
      simp only [e, this, ok_bind', pure_ok']

/-! ## What readers must not rely on -/

namespace Moment

theorem tip_moments_first (m : Moment) (chain : Chain) (index : Nat) :
    ({ m with state := { m.state with short_hashes := m.state.short_hashes ++ chain.tip.hash.take 4 } } : Moment) ∈
      m.tip_moments chain index := by
  rw [tip_moments]
  generalize arrayAppend 4 m.state.heights chain.tip.height = r1
  generalize arrayAppend 2 m.state.chain_indices index = r2
  cases r1 with
  | error e => exact List.mem_singleton.2 rfl
  | ok hs =>
    cases r2 with
    | error e => exact List.mem_cons_self
    | ok ci => exact List.mem_append.2 (.inl List.mem_cons_self)

theorem tip_first_eq (m : Moment) (chain : Chain) (index : Nat) {s' : Headers}
    (h : m.state.add_chain_tip chain index = (s', .ok ())) :
    ∃ x ∈ m.tip_moments chain index, x.closed = m.closed ∧ x.state.H = m.state.H ∧
      x.state.checkpoint = m.state.checkpoint ∧ x.state.short_hashes = s'.short_hashes ∧
      x.state.storage = m.state.storage ∧ x.state.heights = m.state.heights ∧ x.state.cache = m.state.cache := by
  have h1 := tip_moments_first m chain index
  obtain ⟨a1, a2, a3, a4, a5, a6, _⟩ := tip_moments_mem h h1
  exact ⟨_, h1, rfl, a1, a2, a6, rfl, rfl, rfl⟩

/-- The moment of `_read_header` between the extension of the short hashes and that of the heights. -/
theorem read_early {m : Moment} {i c' : Nat} {s' : Headers} (h : m.state.read_header i = (s', .ok c')) :
    ∃ x ∈ m.read_moments i, x.closed = m.closed ∧ x.state.H = m.state.H ∧ x.state.checkpoint = m.state.checkpoint ∧
      x.state.short_hashes = s'.short_hashes ∧ x.state.storage = m.state.storage ∧
      x.state.heights = m.state.heights ∧ x.state.cache = m.state.cache := by
  rcases read_cases h with ⟨c, chain, ch, nt, h1, h2, h3, e, _⟩ | ⟨ch, h4, e, _⟩
  · obtain ⟨x, hx, hr⟩ := tip_first_eq { m with state := { m.state with chains := m.state.chains.set c ch } } ch c h3
    refine ⟨x, ?_, hr⟩
    rw [e, extended_moments, h2, tip_moments_after, List.mem_append]
    exact .inr hx
  · rw [Headers.add_chain] at h4
    obtain ⟨x, hx, hr⟩ := tip_first_eq { m with state := { m.state with chains := m.state.chains ++ [ch] } } ch
      m.state.chains.length h4
    refine ⟨x, ?_, hr⟩
    rw [e, fork_moments, List.mem_cons]
    exact .inr hx

theorem append_tip (chain : Chain) (header : Header) (i : Nat) : (chain.append header i).1.tip = header := by
  rw [Chain.append]
  generalize arrayAppend 4 chain.header_indices i = r1
  cases r1 with
  | error e => rfl
  | ok hs =>
    simp only [Chain.append_indices]
    cases header.work <;> rfl

theorem extend_first (m : Moment) (c : Nat) (chain : Chain) (header : Header) (i : Nat) :
    ({ m with state := { m.state with chains := m.state.chains.set c { chain with tip := header } } } : Moment) ∈
      m.extend_moments c chain header i := by
  rw [extend_moments]
  generalize arrayAppend 4 chain.header_indices i = r1
  cases r1 with
  | error e => exact List.mem_singleton.2 rfl
  | ok hs =>
    simp only [extend_moments_indices]
    cases header.work <;> exact List.mem_cons_self

end Moment

/-- While a new header is connected there is a moment at which looking it up raises `IndexError`, and not
`MissingHeader`: its short hash is there, its height is not. -/
theorem C112_early (he : Env H cp S) (hr : Reachable H coin cp S s A) {raw : Bytes} (hS : S raw) (hroom : Room s)
    (hnew : raw ∉ A) {s' : Headers} {r : Header × Nat} (hc : s.connect raw = (s', .ok r)) (g : Nat) :
    ∃ x ∈ Moment.connect_moments ⟨s, false, g⟩ raw, x.closed = false ∧
      ∀ fuel, s'.short_hashes.length ≤ fuel →
        lookup_run (fun _ => x) (header_hash H raw) fuel = some (.error .indexError) := by
  obtain ⟨T, hI, rfl, rfl, rfl, hA⟩ := reachable_inv he hr
  obtain ⟨T', hcon, hI'⟩ := hI.connected hS hroom hc
  cases hcon with
  | existing i M hM hi hraw _ _ => exact absurd ((hA raw).2 ⟨i, M, hM, hraw⟩) hnew
  | accepted p P c hl hp hprev hnew' hck e1 e2 e3 hadd e4 e5 hT =>
    subst hT
    obtain ⟨st, i, ha, hrd⟩ := connect_parts hck hc
    have hal := Moment.append_last ⟨s, false, g⟩ raw
    rw [ha] at hal
    simp only at hal
    obtain ⟨x, hx, x1, x2, x3, x4, x5, x6, x7⟩ := Moment.read_early (m := Moment.last ⟨s, false, g⟩
      (Moment.append_moments ⟨s, false, g⟩ raw)) (by rw [hal.1]; exact hrd)
    rw [hal.1] at x2 x3 x5 x6 x7
    rw [hal.2] at x1
    simp only at x2 x3 x5 x6 x7
    refine ⟨x, ?_, x1, ?_⟩
    · simp only [Moment.connect_moments, hck, ha, List.mem_append]
      exact .inr hx
    · intro fuel hf
      have hN : (T ++ [(⟨raw, P.path ++ [T.length], c⟩ : Node)])[T.length]? = some ⟨raw, P.path ++ [T.length], c⟩ :=
        getElem?_snoc.2 (.inr ⟨rfl, rfl⟩)
      have hfind : Findable s' (T ++ [⟨raw, P.path ++ [T.length], c⟩]) x.state := by
        refine ⟨x2.trans e1.symm, x3.trans e3.symm, by rw [x4]; exact List.prefix_rfl, fun j N hN => ?_⟩
        rw [x5]
        have : s'.storage = st := by rw [e4, ha]
        rw [← this]
        exact hI'.stored j N hN
      have hlen := hI'.toDesc.short_length
      have hlen2 : (T ++ [(⟨raw, P.path ++ [T.length], c⟩ : Node)]).length = T.length + 1 := by simp
      have hrun := slow_run_found (w := fun _ => x) hI'.toDesc hI'.env.inj (fun _ => hfind) hN fuel 0 1 (by omega)
        (by omega)
      rw [e1] at hrun
      simp only at hrun
      have hcache : dictGet x.state.cache (header_hash s.H raw) = none := by
        cases hd : dictGet x.state.cache (header_hash s.H raw) with
        | none => rfl
        | some v =>
          have := dictGet_mem hd
          rw [x7] at this
          obtain ⟨j, M, hM, heq⟩ := hI.cache _ this
          simp only [Prod.mk.injEq] at heq
          have hraw := hI.env.inj _ _ hS (hI.toDesc.valid hM).mem heq.1
          exact absurd hraw.symm (hnew' M (List.mem_of_getElem? hM))
      rcases hrun with ⟨k', e⟩ | ⟨_, hen⟩
      · unfold lookup_run
        have hh : x.state.heights[T.length]? = none := by
          rw [x6, hI.heights]; simp
        simp only [hcache, e, hh]
      · obtain ⟨k, hk | hk⟩ := hen
        · rw [x1] at hk; cases hk
        · exact absurd rfl hk

/-- While a header that extends a chain is connected there is a moment at which the tip of the chain is above its
height, and no header is found at the height of the tip. -/
theorem C112_tip (he : Env H cp S) (hr : Reachable H coin cp S s A) {raw : Bytes} (hS : S raw) (hroom : Room s)
    (hnew : raw ∉ A) {s' : Headers} {hd : Header} {c : Nat} (hc : s.connect raw = (s', .ok (hd, c)))
    (hlt : c < s.chains.length) (g : Nat) :
    ∃ x ∈ Moment.connect_moments ⟨s, false, g⟩ raw, ∃ ch, x.state.chains[c]? = some ch ∧ x.closed = false ∧
      ch.tip = hd ∧ ch.tip.height = ch.height + 1 ∧
      raw_header_run (fun _ => x) c ch.tip.height = .error .missingHeader := by
  obtain ⟨T, hI, rfl, rfl, rfl, hA⟩ := reachable_inv he hr
  obtain ⟨T', hcon, hI'⟩ := hI.connected hS hroom hc
  cases hcon with
  | existing i M hM hi hraw _ _ => exact absurd ((hA raw).2 ⟨i, M, hM, hraw⟩) hnew
  | accepted p P c hl hp hprev hnew' hck e1 e2 e3 hadd e4 e5 hT =>
    subst hT
    obtain ⟨st, i, ha, hrd⟩ := connect_parts hck hc
    have hal := Moment.append_last ⟨s, false, g⟩ raw
    rw [ha] at hal
    simp only at hal
    obtain ⟨ch0, hch0, hs'⟩ : ∃ ch0, s.chains[c]? = some ch0 ∧
        s'.chains[c]? = some (extendedChain s.H s.checkpoint T.length P raw ch0) := by
      cases hadd with
      | extended ch hnc hcc hch hs' =>
        subst hcc
        exact ⟨ch, hch, by rw [hs']; exact List.getElem?_set_self (getElem?_lt hch)⟩
      | forked hhc hcc hs' => omega
    obtain ⟨t, N, base, own, hci⟩ := hI'.toDesc.chain_at hs'
    have hht := (hI'.toDesc.height_eq hci).2
    rcases Moment.read_cases (m := Moment.last ⟨s, false, g⟩ (Moment.append_moments ⟨s, false, g⟩ raw))
      (by rw [hal.1]; exact hrd) with ⟨c2, chain, ch, nt, h1, h2, h3, e, e'⟩ | ⟨ch, h4, e, e'⟩
    · simp only at e'
      subst e'
      obtain ⟨y, hy⟩ := Moment.tip_moments_ne _ ch c
      obtain ⟨_, _, _, _, b5, _⟩ := Moment.tip_moments_mem (m := { Moment.last ⟨s, false, g⟩
        (Moment.append_moments ⟨s, false, g⟩ raw) with state := _ }) h3 hy
      rw [hal.1] at h1
      simp only at h1
      rw [hch0] at h1
      cases h1
      have hch : ch = extendedChain s.H s.checkpoint T.length P raw ch0 := by
        rw [b5, hal.1] at hs'
        simp only at hs'
        rw [List.getElem?_set_self hlt] at hs'
        exact Option.some.inj hs'
      have hnt : nt = mkHeader s.H raw ((nodeHeight s.checkpoint P + 1 : Nat) : Int) := by
        have := Moment.append_tip ch0 nt i
        rw [h2] at this
        rw [← this]
        simp only [hch]
        rfl
      have hx := Moment.extend_first (Moment.last ⟨s, false, g⟩ (Moment.append_moments ⟨s, false, g⟩ raw)) c ch0 nt i
      rw [hal.1] at hx
      have hheight : nt.height = ch0.height + 1 := by
        rw [hnt]
        have : (extendedChain s.H s.checkpoint T.length P raw ch0).height = ch0.height + 1 := by
          simp only [Chain.height, extendedChain, List.length_append, List.length_singleton]
          push_cast
          ring
        rw [← this, ← hht]
        rfl
      refine ⟨{ Moment.last ⟨s, false, g⟩ (Moment.append_moments ⟨s, false, g⟩ raw) with
          state := { s with storage := st, chains := s.chains.set c { ch0 with tip := nt } } },
        ?_, { ch0 with tip := nt }, List.getElem?_set_self hlt, hal.2, hnt, hheight, ?_⟩
      · simp only [Moment.connect_moments, hck, ha, List.mem_append]
        right
        rw [e, Moment.extended_moments, List.mem_append]
        exact .inl hx
      · unfold raw_header_run
        have hlen : (s.chains.set c { ch0 with tip := nt }).length = (s.chains.length - 1) + 1 := by
          rw [List.length_set]; omega
        simp only [hlen, header_index_run, List.getElem?_set_self hlt, hheight]
        have hge : ch0.height + 1 ≥ ch0.first_height := by simp only [Chain.height]; omega
        have hnone : ch0.header_indices[(ch0.height + 1 - ch0.first_height).toNat]? = none := by
          rw [List.getElem?_eq_none]; simp only [Chain.height]; omega
        simp only [hge, if_true, hnone, error_bind']
    · rw [hal.1] at e'
      simp only at e'
      omega

/-- The hypotheses are met: a first header is connected. -/
example : ∃ s ms m raw fuel, Reachable toyHashes Bitcoin ChainExample.cp ChainExample.S s [ChainExample.raw0] ∧
    Trace ChainExample.cp ChainExample.S s ms m ∧ raw ∉ [ChainExample.raw0] ∧ ChainExample.S raw ∧
    (∃ r, s.connect raw = (m.state, .ok r)) ∧ ∃ x ∈ ms, lookup_run (fun _ => x) (header_hash toyHashes raw) fuel =
      some (.error .indexError) := by
  obtain ⟨s, s', r, hr, hroom, hc⟩ := ChainExample.first
  have hnot : ChainExample.raw1 ∉ [ChainExample.raw0] := by decide +kernel
  have hS : ChainExample.S ChainExample.raw1 := by simp [ChainExample.S]
  obtain ⟨x, hx, _, hl⟩ := C112_early ChainExample.env hr hS hroom hnot hc 0
  obtain ⟨hst, _⟩ := C112_connect ⟨s, false, 0⟩ ChainExample.raw1
  simp only [hc] at hst
  exact ⟨s, _, _, ChainExample.raw1, _, hr, .connect (.now 0) hS hroom, hnot, hS, ⟨r, by rw [hst]; exact hc⟩,
    x, List.mem_append.2 (.inr hx), hl _ (le_refl _)⟩

end

namespace ConcurrentExample
open ChainExample

/-- A headers file as `_set_raw_header` leaves it when it has been enlarged: one header, and room for three. -/
def file : Bytes := [8, 0, 0, 0, 1, 0, 0, 0] ++ raw0 ++ zeros 240

/-- The collection read from it. -/
def opened : Res Headers := (Headers.from_file toyHashes Bitcoin (some file) cp).2

theorem holds : Holds cp S file [] := by
  refine ⟨⟨1, 4, ?_, by decide, rfl⟩, by decide +kernel, by simp, by simp⟩
  refine ⟨by decide +kernel, by decide +kernel, by decide +kernel, by decide, ?_⟩
  intro i h1 h2
  have : ∀ i, i < 4 → 1 ≤ i → storedAt file i = zeros 80 := by decide +kernel
  exact this i h2 h1

theorem reachable {s : Headers} (h : opened = .ok s) : Reachable toyHashes Bitcoin cp S s [raw0] := by
  unfold opened at h
  rcases hf : Headers.from_file toyHashes Bitcoin (some file) cp with ⟨f', r⟩
  rw [hf] at h
  simp only at h
  rw [h] at hf
  exact .opened holds hf

/-- Two threads connect `r1` and `r2` as follows: the first makes its checks and stores its header, then the second does
all of its call, then the first reads its header. -/
def two_writers (s : Headers) (r1 r2 : Bytes) : Res Headers :=
  match s.connect_check r1 with
  | .ok (.inr _) =>
    match s.storage.append r1 with
    | (st, .ok i1) =>
      match Headers.connect { s with storage := st } r2 with
      | (s, .ok _) =>
        match s.read_header i1 with
        | (s, .ok _) => .ok s
        | (_, .error e) => .error e
      | (_, .error e) => .error e
    | (_, .error e) => .error e
  | _ => .error .runtimeError

def after (r1 r2 : Bytes) : Res Headers := do two_writers (← opened) r1 r2

/-- The hypotheses of `C112_tip`, `C112_lookup` and `C112_height` are met. -/
example : ∃ s s' hd c ms m, Reachable toyHashes Bitcoin cp S s [raw0] ∧ Room s ∧ S raw1 ∧ raw1 ∉ [raw0] ∧
    s.connect raw1 = (s', .ok (hd, c)) ∧ c < s.chains.length ∧ Trace cp S s ms m ∧ m.state = s' ∧
    s.raw_header_at_height 0 0 = .ok raw0 := by
  have h : (match opened with
      | .ok s => decide (s.chains.length = 1 ∧ s.len = .ok 1 ∧ s.raw_header_at_height 0 0 = .ok raw0 ∧
          ((s.connect raw1).2.toOption.map (·.2)) = some 0)
      | .error _ => false) = true := by decide +kernel
  cases h1 : opened with
  | error e => rw [h1] at h; cases h
  | ok s =>
    rw [h1] at h
    simp only [decide_eq_true_eq] at h
    obtain ⟨a1, a2, a3, a5⟩ := h
    have hroom : Room s := ⟨by omega, fun n hn => by rw [a2] at hn; cases hn; decide⟩
    have hS : S raw1 := by simp [S]
    rcases hc : s.connect raw1 with ⟨s', e | ⟨hd, c⟩⟩
    · rw [hc] at a5; cases a5
    · rw [hc] at a5
      have hc0 : c = 0 := by simpa [Except.toOption] using a5
      refine ⟨s, s', hd, c, _, _, reachable h1, hroom, hS, by decide +kernel, hc, by omega, .connect (.now 0) hS hroom,
        ?_, a3⟩
      obtain ⟨hst, _⟩ := C112_connect ⟨s, false, 0⟩ raw1
      simp only [hc] at hst
      rw [hst]

/-- Afterwards both headers are there. -/
theorem both : (match after raw1 raw2 with
    | .ok s => decide (s.chains.length = 2 ∧ (s.storage.get 1, s.storage.get 2) = (.ok raw1, .ok raw2) ∧
        (∀ raw ∈ [raw1, raw2], ((dictGet s.cache (header_hash toyHashes raw)).map (·.1.hash)) =
          some (header_hash toyHashes raw)))
    | .error _ => false) = true := by decide +kernel

end ConcurrentExample

theorem slow_loop_cache (s : Headers) (cache : List (Bytes × Header × Nat)) (hash : Bytes) (fuel start : Nat) :
    Headers.header_index_slow_loop { s with cache } hash fuel start = s.header_index_slow_loop hash fuel start := by
  induction fuel generalizing start with
  | zero => rfl
  | succ fuel ih => simp only [Headers.header_index_slow_loop, ih]

open ConcurrentExample ChainExample in
/-- Two threads that connect headers can corrupt the collection: the entries of two headers are swapped, so that
neither is found any more once the cache has dropped them. -/
theorem C112_two_writers : ∃ s s', Reachable toyHashes Bitcoin cp S s [raw0] ∧ two_writers s raw1 raw2 = .ok s' ∧
    ∀ cache, (∀ raw ∈ [raw1, raw2], dictGet cache (header_hash toyHashes raw) = none) →
      ∀ raw ∈ [raw1, raw2], Headers.lookup { s' with cache } (header_hash toyHashes raw) = .error .missingHeader := by
  have h : (match opened with
      | .ok s => (match two_writers s raw1 raw2 with
        | .ok s' => decide (∀ raw ∈ [raw1, raw2],
            s'.header_index_slow (header_hash toyHashes raw) = .error .missingHeader)
        | .error _ => false)
      | .error _ => false) = true := by decide +kernel
  cases h1 : opened with
  | error e => rw [h1] at h; cases h
  | ok s =>
    rw [h1] at h
    simp only at h
    cases h2 : two_writers s raw1 raw2 with
    | error e => rw [h2] at h; cases h
    | ok s' =>
      rw [h2] at h
      simp only [decide_eq_true_eq] at h
      refine ⟨s, s', reachable h1, h2, fun cache hcache raw hraw => ?_⟩
      have hs := h raw hraw
      rw [Headers.header_index_slow] at hs
      simp only [Headers.lookup, hcache raw hraw, Headers.header_index_slow, slow_loop_cache, hs, error_bind']

open ConcurrentExample ChainExample in
/-- Two threads that connect the same header can store it twice, as the tip of two chains. -/
theorem C112_same_header : ∃ s s' ch ch', Reachable toyHashes Bitcoin cp S s [raw0] ∧ two_writers s raw1 raw1 = .ok s' ∧
    s'.chains[0]? = some ch ∧ s'.chains[1]? = some ch' ∧ ch.tip = ch'.tip ∧ s'.chains.length = 2 ∧
    s'.storage.get 1 = .ok raw1 ∧ s'.storage.get 2 = .ok raw1 := by
  have h : (match opened with
      | .ok s => (match two_writers s raw1 raw1 with
        | .ok s' => decide (s'.chains.length = 2 ∧ (s'.chains[0]?).map (·.tip) = (s'.chains[1]?).map (·.tip) ∧
            s'.storage.get 1 = .ok raw1 ∧ s'.storage.get 2 = .ok raw1)
        | .error _ => false)
      | .error _ => false) = true := by decide +kernel
  cases h1 : opened with
  | error e => rw [h1] at h; cases h
  | ok s =>
    rw [h1] at h
    simp only at h
    cases h2 : two_writers s raw1 raw1 with
    | error e => rw [h2] at h; cases h
    | ok s' =>
      rw [h2] at h
      simp only [decide_eq_true_eq] at h
      obtain ⟨a1, a2, a3, a4⟩ := h
      refine ⟨s, s', s'.chains[0], s'.chains[1], reachable h1, h2, List.getElem?_eq_getElem _, List.getElem?_eq_getElem _, ?_,
        a1, a3, a4⟩
      rw [List.getElem?_eq_getElem (by omega), List.getElem?_eq_getElem (by omega)] at a2
      simpa using a2

end Bitcoinx
