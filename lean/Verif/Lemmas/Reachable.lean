import Verif.Lemmas.OpenFile

/-! # Reachable states satisfy the invariant -/

namespace Bitcoinx
open Spec

/-- What `connect` does in a state satisfying the invariant. -/
inductive Connected (s : Headers) (T : Tree) (raw : Bytes) (s' : Headers) (T' : Tree) :
    Res (Header × Nat) → Prop
  | malformed : raw.length ≠ 80 → s' = s → T' = T → Connected s T raw s' T' (.error .structError)
  | missing : raw.length = 80 →
      (∀ (i : Nat) (N : Node), T[i]? = some N → header_hash s.H N.raw ≠ header_prev_hash raw) →
      s' = s → T' = T → Connected s T raw s' T' (.error .missingHeader)
  | existing (i : Nat) (M : Node) : T[i]? = some M → i ≠ 0 → M.raw = raw → s' = s → T' = T →
      Connected s T raw s' T' (.ok (mkHeader s.H raw (nodeHeight s.checkpoint M), M.chain))
  | rejected (p : Nat) (P : Node) (e : Err) : raw.length = 80 → T[p]? = some P →
      header_prev_hash raw = header_hash s.H P.raw → (∀ M ∈ T, M.raw ≠ raw) →
      s.connect_check raw = .error e → s' = s → T' = T → Connected s T raw s' T' (.error e)
  | accepted (p : Nat) (P : Node) (c : Nat) : raw.length = 80 → T[p]? = some P →
      header_prev_hash raw = header_hash s.H P.raw → (∀ M ∈ T, M.raw ≠ raw) →
      s.connect_check raw = .ok (.inr (mkHeader s.H raw (nodeHeight s.checkpoint P + 1 : Nat))) →
      s'.H = s.H → s'.coin = s.coin → s'.checkpoint = s.checkpoint → Added s T P raw s' c →
      s'.storage = (s.storage.append raw).1 →
      (∀ i : Nat, i ≠ T.length + s.checkpoint.height → s'.storage.get i = s.storage.get i) →
      T' = T ++ [⟨raw, P.path ++ [T.length], c⟩] →
      Connected s T raw s' T' (.ok (mkHeader s.H raw (nodeHeight s.checkpoint P + 1 : Nat), c))

namespace Inv
variable {S : Bytes → Prop} {s : Headers} {T : Tree}

theorem len (h : Inv S s T) : s.len = .ok ((s.checkpoint.height + T.length : Nat) : Int) := by
  obtain ⟨cap, hw⟩ := h.wf
  exact hw.len

/-- A header that is in the tree and has a predecessor in it is not the checkpoint's. -/
theorem not_root (h : Inv S s T) {i p : Nat} {M P : Node} (hM : T[i]? = some M) (hp : T[p]? = some P)
    (hprev : header_prev_hash M.raw = header_hash s.H P.raw) : i ≠ 0 := by
  rintro rfl
  rw [h.good.root_node] at hM; cases hM
  exact h.env.noroot _ (h.toDesc.valid hp).mem hprev.symm

theorem connected (h : Inv S s T) {raw : Bytes} (hS : S raw) (hr : Room s) {s' : Headers}
    {r : Res (Header × Nat)} (hc : s.connect raw = (s', r)) :
    ∃ T', Connected s T raw s' T' r ∧ Inv S s' T' := by
  have hroom := hr.2 _ h.len
  by_cases hl : raw.length = 80
  · by_cases hp : ∃ (p : Nat) (P : Node), T[p]? = some P ∧ header_hash s.H P.raw = header_prev_hash raw
    · obtain ⟨p, P, hp, hprev⟩ := hp
      by_cases hex : ∃ (i : Nat) (M : Node), T[i]? = some M ∧ M.raw = raw
      · obtain ⟨i, M, hM, rfl⟩ := hex
        have hi := h.not_root hM hp hprev.symm
        rw [h.connect_existing hM hi] at hc
        cases hc
        exact ⟨T, .existing i M hM hi rfl rfl rfl, h⟩
      · have hnew : ∀ M ∈ T, M.raw ≠ raw := by
          intro M hM he
          obtain ⟨i, hi⟩ := List.mem_iff_getElem?.1 hM
          exact hex ⟨i, M, hi, he⟩
        have hck := h.connect_check_new hS hl hp hprev.symm hnew
        cases hres : s.connect_check raw with
        | error e =>
          rw [Headers.connect, hres] at hc
          cases hc
          exact ⟨T, .rejected p P e hl hp hprev.symm hnew hres rfl rfl, h⟩
        | ok x =>
          have hx : x = .inr (mkHeader s.H raw (nodeHeight s.checkpoint P + 1 : Nat)) ∧
              ∃ t, (mkHeader s.H raw (nodeHeight s.checkpoint P + 1 : Nat)).target = .ok t ∧
                (mkHeader s.H raw (nodeHeight s.checkpoint P + 1 : Nat)).hash_value ≤ t := by
            rw [hres] at hck
            have hck := hck.symm
            simp only [bind_eq_ok] at hck
            obtain ⟨rb, _, hck⟩ := hck
            split at hck
            · cases hck
            · simp only [bind_eq_ok] at hck
              obtain ⟨t, ht, hck⟩ := hck
              split at hck
              · cases hck
              · next hle =>
                cases hck
                exact ⟨rfl, t, ht, by omega⟩
          obtain ⟨rfl, t, ht, hle⟩ := hx
          have hv := h.env.valid hS hl ht hle
          obtain ⟨s1, c, c1, c2, c3, c4, c5, c6, c7, c8⟩ :=
            h.connect_accept hv hp hprev.symm hnew hres (by omega) (fun _ => hr.1)
          rw [c1] at hc
          cases hc
          exact ⟨_, .accepted p P c hl hp hprev.symm hnew hres c3 c4 c5 c6 c7 c8 rfl, c2⟩
    · have hno : ∀ (i : Nat) (N : Node), T[i]? = some N → header_hash s.H N.raw ≠ header_prev_hash raw :=
        fun i N hN he => hp ⟨i, N, hN, he⟩
      rw [h.connect_missing raw hl hno] at hc
      cases hc
      exact ⟨T, .missing hl hno rfl rfl, h⟩
  · rw [connect_malformed raw hl] at hc
    cases hc
    exact ⟨T, .malformed hl rfl rfl, h⟩

end Inv

theorem reachable_inv {H : Hashes} {coin : Coin} {cp : CheckPoint} {S : Bytes → Prop} (he : Env H cp S)
    {s : Headers} {A : List Bytes} (h : Reachable H coin cp S s A) :
    ∃ T, Inv S s T ∧ s.H = H ∧ s.coin = coin ∧ s.checkpoint = cp ∧
      ∀ x, x ∈ A ↔ ∃ (i : Nat) (N : Node), T[i]? = some N ∧ N.raw = x := by
  induction h with
  | start hf hm h =>
    obtain ⟨h1, h2, h3, h4, _⟩ := fresh_inv he hf hm h
    refine ⟨_, h1, h2, h3, h4, fun x => ?_⟩
    constructor
    · intro hx
      simp only [List.mem_singleton] at hx
      exact ⟨0, _, rfl, hx.symm⟩
    · rintro ⟨i, N, hN, rfl⟩
      match i with
      | 0 => simp at hN; subst hN; simp
      | i + 1 => simp at hN
  | opened hf h =>
    obtain ⟨_, _, T, hI, hR, _, h1, h2, h3⟩ := opened_inv he hf h
    refine ⟨T, hI, h1, h2, h3, fun x => ?_⟩
    have := mem_raw_iff hR.2.1 x
    rw [h3] at this
    exact this
  | @accept s s' A raw r _ hS hr hc ih =>
    obtain ⟨T, hI, hH, hco, hcp, hA⟩ := ih
    obtain ⟨T', hcon, hI'⟩ := hI.connected hS hr hc
    cases hcon with
    | existing i M hM hi hraw hs hT =>
      subst hs hT
      refine ⟨_, hI, hH, hco, hcp, fun x => ?_⟩
      rw [List.mem_append, List.mem_singleton, ← hA]
      constructor
      · rintro (h | rfl)
        · exact h
        · exact (hA _).2 ⟨i, M, hM, hraw⟩
      · exact .inl
    | accepted p P c hl hp hprev hnew hck e1 e2 e3 _ _ _ hT =>
      subst hT
      refine ⟨_, hI', by rw [e1, hH], by rw [e2, hco], by rw [e3, hcp], fun x => ?_⟩
      rw [List.mem_append, List.mem_singleton, hA]
      constructor
      · rintro (⟨i, N, hN, rfl⟩ | rfl)
        · exact ⟨i, N, getElem?_snoc.2 (.inl hN), rfl⟩
        · exact ⟨T.length, _, getElem?_snoc.2 (.inr ⟨rfl, rfl⟩), rfl⟩
      · rintro ⟨i, N, hN, rfl⟩
        rcases getElem?_snoc.1 hN with hN | ⟨_, rfl⟩
        · exact .inl ⟨i, N, hN, rfl⟩
        · exact .inr rfl
  | @reject s s' A raw e _ hS hr hc ih =>
    obtain ⟨T, hI, hH, hco, hcp, hA⟩ := ih
    obtain ⟨T', hcon, hI'⟩ := hI.connected hS hr hc
    have : s' = s := by cases hcon <;> assumption
    subst this
    exact ⟨_, hI, hH, hco, hcp, hA⟩
  | @set_one s s' A height raw r _ hh hs ih =>
    obtain ⟨T, hI, hH, hco, hcp, hA⟩ := ih
    have := hI.set_one height raw (by rw [hcp]; exact hh)
    rw [hs] at this
    obtain ⟨h1, _, h3, h4, h5⟩ := this
    exact ⟨T, h1, by rw [h3, hH], by rw [h4, hco], by rw [h5, hcp], hA⟩
  | @reopen s s' A f' _ hf ih =>
    obtain ⟨T, hI, hH, hco, hcp, hA⟩ := ih
    obtain ⟨s1, h1, h2, h3, h4, h5, h6, h7⟩ := hI.reopen coin
    subst hH hcp
    rw [h1] at hf
    cases hf
    exact ⟨T, h2, h5, h6, h7, hA⟩

end Bitcoinx
