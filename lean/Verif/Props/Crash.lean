import Verif.Model.Crash
import Verif.Props.ChainExample

/-! # C35: the process dies during `connect` -/

namespace Bitcoinx
open Spec

/-- Two collections answer every question about their headers alike. -/
structure Spec.SameHeaders (s s' : Headers) : Prop where
  chains : s.chains = s'.chains
  len : s.len = s'.len
  lookup : ∀ hash, s.lookup hash = s'.lookup hash
  raw_header : ∀ c h, s.raw_header_at_height c h = s'.raw_header_at_height c h

/-- Two states with the same tree. -/
theorem Inv.same {S : Bytes → Prop} {s s' : Headers} {T : Tree} (h : Inv S s T) (h' : Inv S s' T)
    (hH : s.H = s'.H) (hcp : s.checkpoint = s'.checkpoint) (hch : s.chains = s'.chains)
    (hst : ∀ i : Nat, s.storage.get i = s'.storage.get i) : SameHeaders s s' := by
  refine ⟨hch, ?_, ?_, ?_⟩
  · rw [h.len, h'.len, hcp]
  · intro hash
    by_cases hx : ∃ (i : Nat) (N : Node), T[i]? = some N ∧ header_hash s.H N.raw = hash
    · obtain ⟨i, N, hN, rfl⟩ := hx
      have := h'.toDesc.lookup_found h'.env.inj hN
      rw [← hH, ← hcp] at this
      rw [this, h.toDesc.lookup_found h.env.inj hN]
    · by_cases hn : hash = []
      · rw [hn, h.lookup_nil, h'.lookup_nil]
      · rw [h.toDesc.lookup_missing hn (fun i N hN hh => hx ⟨i, N, hN, hh⟩),
          h'.toDesc.lookup_missing hn (fun i N hN hh => hx ⟨i, N, hN, by rw [hH]; exact hh⟩)]
  · intro c k
    simp only [Headers.raw_header_at_height, Headers.header_index, hch, hst]

/-- The files of a `connect` that stores a header. -/
theorem Inv.crash {S : Bytes → Prop} {s : Headers} {T : Tree} (h : Inv S s T) {raw : Bytes}
    (hl : raw.length = 80) (hb : s.checkpoint.height + T.length + 1 < 2 ^ 32) :
    ∃ grown counted written, s.storage.append_steps raw = [s.storage, grown, counted, written] ∧
      (s.storage.append raw).1 = written ∧
      (∃ cap, grown.WF (s.checkpoint.height + T.length) cap) ∧
      (∃ cap, counted.WF (s.checkpoint.height + T.length + 1) cap) ∧
      (∀ i : Nat, grown.get i = s.storage.get i) ∧ (∀ i : Nat, counted.get i = s.storage.get i) := by
  obtain ⟨cap, hw⟩ := h.wf
  obtain ⟨cap', h1, h2, h3, h4, h5⟩ := hw.grow (s.checkpoint.height + T.length)
  obtain ⟨st2, h6, h7, h8⟩ := h1.bump _ h3 hb
  obtain ⟨st3, h9, h10, h11, h12⟩ := h7.write _ raw h3 hl
  have hl' : ¬ raw.length ≠ 80 := by omega
  have hget : ∀ i : Nat, (s.storage.grow (s.checkpoint.height + T.length)).get i = s.storage.get i := by
    intro i
    rw [Storage.get_nat, Storage.get_nat]
    rcases Nat.lt_or_ge i cap with hc | hc
    · rw [h1.header_lt i (by omega), hw.header_lt i hc, h4 i hc]
    · rw [hw.header_ge i hc]
      rcases Nat.lt_or_ge i cap' with hc' | hc'
      · rw [h1.header_lt i hc', h5 i hc hc', if_pos rfl]
      · rw [h1.header_ge i hc']
  refine ⟨_, st2, st3, ?_, ?_, ⟨cap', h1⟩, ⟨cap', ?_⟩, hget, ?_⟩
  · simp only [Storage.append_steps, hw.len, Int.toNat_natCast, Storage.set_raw_header_steps, hl',
      if_false, h6, h9]
  · simp only [Storage.append, hw.len, Int.toNat_natCast, Storage.set_raw_header, hl', if_false, h6, h9]
  · rw [max_eq_right (by omega)] at h7; exact h7
  · intro i
    rw [← hget i, Storage.get_nat, Storage.get_nat]
    rcases Nat.lt_or_ge i cap' with hc' | hc'
    · rw [h7.header_lt i hc', h1.header_lt i hc', h8]
    · rw [h7.header_ge i hc', h1.header_ge i hc']

section
variable {H : Hashes} {coin : Coin} {cp : CheckPoint} {S : Bytes → Prop} {s : Headers} {A : List Bytes}

/-- The list of file contents starts with the file before `connect` and ends with the one after. -/
theorem C35_steps (he : Env H cp S) (hr : Reachable H coin cp S s A) (hroom : Room s) (raw : Bytes)
    (hS : S raw) (s1 : Headers) (r : Res (Header × Nat)) (hc : s.connect raw = (s1, r)) :
    (s.connect_files raw).head? = some s.storage.file ∧
      (s.connect_files raw).getLast? = some s1.storage.file := by
  obtain ⟨T, hI, rfl, rfl, rfl, hA⟩ := reachable_inv he hr
  have hb := hroom.2 _ hI.len
  obtain ⟨T', hcon, hI'⟩ := hI.connected hS hroom hc
  have hsame : s1 = s → (∀ x, s.connect_check raw ≠ .ok (.inr x)) →
      (s.connect_files raw).head? = some s.storage.file ∧
      (s.connect_files raw).getLast? = some s1.storage.file := by
    intro h1 h2
    have : s.connect_files raw = [s.storage.file] := by
      unfold Headers.connect_files
      split
      · next hd hx => exact absurd hx (h2 hd)
      · rfl
    rw [this, h1]; exact ⟨rfl, rfl⟩
  cases hcon with
  | accepted p P c hl hp hprev hnew hck a1 a2 a3 a4 a5 a6 a7 =>
    obtain ⟨g, cn, w, e1, e2, _⟩ := hI.crash hl (by omega)
    simp only [Headers.connect_files, hck, e1, a5, e2, List.map_cons, List.map_nil]
    exact ⟨rfl, rfl⟩
  | malformed hl h1 _ =>
    refine hsame h1 (fun x hx => ?_)
    simp [Headers.connect_check, deserialized_header_err s.H raw _ hl] at hx
  | missing hl hno h1 _ =>
    exact hsame h1 (fun x hx => by rw [hI.connect_check_missing raw hl hno] at hx; cases hx)
  | existing i M hM hi hraw h1 _ =>
    exact hsame h1 (fun x hx => by rw [← hraw, hI.connect_check_existing hM hi] at hx; cases hx)
  | rejected p P e hl hp hprev hnew hck h1 _ =>
    exact hsame h1 (fun x hx => by rw [hck] at hx; cases hx)

/-- If the process dies at any point of `connect` other than between writing the count and writing
the header (the third of the file contents), the file reopens, unchanged, to the state before or
after.  Missing: that point, where the claim is false, see `C35_torn`. -/
theorem C35_crash_partial (he : Env H cp S) (hr : Reachable H coin cp S s A) (hroom : Room s)
    (raw : Bytes) (hS : S raw) (s1 : Headers) (r : Res (Header × Nat)) (hc : s.connect raw = (s1, r))
    (k : Nat) (f : Bytes) (hf : (s.connect_files raw)[k]? = some f) (hk : k ≠ 2) :
    ∃ s', Headers.from_file H coin (some f) cp = (some f, .ok s') ∧
      (SameHeaders s' s ∨ SameHeaders s' s1) := by
  have hst := C35_steps he hr hroom raw hS s1 r hc
  obtain ⟨T, hI, rfl, rfl, rfl, hA⟩ := reachable_inv he hr
  have hb := hroom.2 _ hI.len
  obtain ⟨T', hcon, hI'⟩ := hI.connected hS hroom hc
  have hold : ∃ s', Headers.from_file s.H s.coin (some s.storage.file) s.checkpoint =
      (some s.storage.file, .ok s') ∧ SameHeaders s' s := by
    obtain ⟨s', h1, h2, h3, h4, h5, h6, h7⟩ := hI.reopen s.coin
    exact ⟨s', h1, h2.same hI h5 h7 h3 (fun i => by rw [h4])⟩
  have hone : s.connect_files raw = [s.storage.file] → ∃ s', Headers.from_file s.H s.coin (some f)
      s.checkpoint = (some f, .ok s') ∧ (SameHeaders s' s ∨ SameHeaders s' s1) := by
    intro h1
    rw [h1] at hf
    match k with
    | 0 =>
      simp at hf; subst hf
      obtain ⟨s', h1, h2⟩ := hold
      exact ⟨s', h1, .inl h2⟩
    | k + 1 => simp at hf
  cases hck : s.connect_check raw with
  | error e => exact hone (by simp only [Headers.connect_files, hck])
  | ok x =>
    match x, hck with
    | .inl y, hck => exact hone (by simp only [Headers.connect_files, hck])
    | .inr y, hck =>
      cases hcon with
      | malformed hl => simp [Headers.connect_check, deserialized_header_err s.H raw _ hl] at hck
      | missing hl hno => rw [hI.connect_check_missing raw hl hno] at hck; cases hck
      | existing i M hM hi hraw => rw [← hraw, hI.connect_check_existing hM hi] at hck; cases hck
      | rejected p P e hl hp hprev hnew hck' => rw [hck] at hck'; cases hck'
      | accepted p P c hl hp hprev hnew hck' a1 a2 a3 a4 a5 a6 a7 =>
        obtain ⟨g, cn, w, e1, e2, e3, e4, e5, e6⟩ := hI.crash hl (by omega)
        have hfiles : s.connect_files raw = [s.storage.file, g.file, cn.file, w.file] := by
          simp only [Headers.connect_files, hck, e1, List.map_cons, List.map_nil]
        rw [hfiles] at hf
        match k with
        | 0 =>
          simp at hf; subst hf
          obtain ⟨s', h1, h2⟩ := hold
          exact ⟨s', h1, .inl h2⟩
        | 1 =>
          simp at hf; subst hf
          have hIg : Inv S { s with storage := g } T :=
            ⟨Inv.with_storage hI.toDesc (fun i _ _ => e5 i), hI.env, e3,
              fun i hi => by rw [e5 i]; exact hI.rest i hi, hI.room⟩
          obtain ⟨s', h1, h2, h3, h4, h5, h6, h7⟩ := hIg.reopen s.coin
          exact ⟨s', h1, .inl (h2.same hI h5 h7 h3 (fun i => by rw [h4]; exact e5 i))⟩
        | 2 => exact absurd rfl hk
        | 3 =>
          simp at hf; subst hf
          obtain ⟨s', h1, h2, h3, h4, h5, h6, h7⟩ := hI'.reopen s.coin
          rw [a1, a3, a5, e2] at h1
          exact ⟨s', h1, .inr (h2.same hI' h5 h7 h3 (fun i => by rw [h4]))⟩
        | k + 4 => simp at hf

/-- If the process dies after the count was written and before the header was, the file can no longer
be opened: `from_file` raises `MissingHeader` (and leaves the file as it is, so it always will). -/
theorem C35_torn (he : Env H cp S) (hr : Reachable H coin cp S s A) (hroom : Room s)
    (raw : Bytes) (hS : S raw) (hnew : raw ∉ A) (s1 : Headers) (r : Header × Nat)
    (hc : s.connect raw = (s1, .ok r)) :
    ∃ f, (s.connect_files raw)[2]? = some f ∧
      Headers.from_file H coin (some f) cp = (some f, .error .missingHeader) := by
  obtain ⟨T, hI, rfl, rfl, rfl, hA⟩ := reachable_inv he hr
  have hb := hroom.2 _ hI.len
  obtain ⟨T', hcon, hI'⟩ := hI.connected hS hroom hc
  cases hcon with
  | existing i M hM hi hraw => exact absurd ((hA raw).2 ⟨i, M, hM, hraw⟩) hnew
  | accepted p P c hl hp hprev hnw hck a1 a2 a3 a4 a5 a6 a7 =>
    obtain ⟨g, cn, w, e1, e2, e3, ⟨cap, e4⟩, e5, e6⟩ := hI.crash hl (by omega)
    refine ⟨cn.file, by simp [Headers.connect_files, hck, e1], ?_⟩
    have hcp := hI.stored 0 _ hI.good.root_node
    simp only [Nat.cast_zero, zero_add] at hcp
    have ho := (e4.open s.checkpoint (by rw [e6]; exact hcp)).2
    have hst : ∀ (i : Nat) (N : Node), T[i]? = some N →
        cn.get ((i : Int) + s.checkpoint.height) = .ok N.raw := by
      intro i N hN
      have := hI.stored i N hN
      rw [← Nat.cast_add] at this ⊢
      rw [e6]; exact this
    have hv := (hI.good.node 0 _ hI.good.root_node).valid
    simp only at hv
    have hpos := hI.good.length_pos
    obtain ⟨ch, h1, h2⟩ := base_add (H := s.H) (coin := s.coin) (st := cn) hv.length hv.work (by omega)
    obtain ⟨s0, h3, h4, h5, h6, h7, h8, h9⟩ := read_all (coin := s.coin) hI.env.inj hI.good hst
      (by omega) hI.room
    have hmiss : s0.read_header (s.checkpoint.height + 1 + (T.length - 1)) = (s0, .error .missingHeader) := by
      have : s0.read_prev (s.checkpoint.height + 1 + (T.length - 1)) = .error .missingHeader := by
        unfold Headers.read_prev
        rw [h6, e6, hI.rest _ (by omega)]
        rfl
      simp only [Headers.read_header, this]
    have hlen : (baseHeaders s.H s.coin cn s.checkpoint).storage.len =
        .ok ((s.checkpoint.height + T.length + 1 : Nat) : Int) := e4.len
    have e2 : (((s.checkpoint.height + T.length + 1 : Nat) : Int) - ((s.checkpoint.height : Int) + 1)).toNat
        = (T.length - 1) + 1 := by omega
    have hinit : Headers.init s.H s.coin cn s.checkpoint = .error .missingHeader := by
      simp only [Headers.init, h1, ok_bind', h2, hlen, e2, read_headers_snoc, h3, hmiss, error_bind']
    simp only [Headers.from_file, ho, hinit]

/-- In the example history a further header can be connected, so the point of `C35_torn` exists. -/
example : ∃ s raw f, Reachable toyHashes Bitcoin ChainExample.cp ChainExample.S s [ChainExample.raw0] ∧
    (s.connect_files raw)[2]? = some f ∧
    Headers.from_file toyHashes Bitcoin (some f) ChainExample.cp = (some f, .error .missingHeader) := by
  obtain ⟨s, s1, r, h1, h2, h3⟩ := ChainExample.first
  obtain ⟨f, h4, h5⟩ := C35_torn ChainExample.env h1 h2 ChainExample.raw1 (by simp [ChainExample.S])
    (by simp only [List.mem_singleton]; decide +kernel) s1 r h3
  exact ⟨s, _, f, h1, h4, h5⟩

end

end Bitcoinx
