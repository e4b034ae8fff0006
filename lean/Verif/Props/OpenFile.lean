import Verif.Props.Chain
import Verif.Spec.OpenFile

/-! # C101, C102: opening a headers file, and what too many chains do to it -/

namespace Bitcoinx
open Spec

variable {H : Hashes} {coin : Coin} {cp : CheckPoint} {S : Bytes → Prop} {s : Headers} {A : List Bytes}

theorem workOf_of_bits {x : Bytes} (hx : x.length = 80) (hb : ∃ t, bits_to_target (bitsOf x) = .ok t) :
    header_work x = .ok (workOf x) := by
  obtain ⟨w, hw⟩ := (work_ok_iff hx).2 hb
  simp [workOf, hw]

/-- A file whose headers fit one after the other is opened, whoever wrote it, and left as it is.  The
collection then holds the headers of the file and no others, it has their number, and one chain more than
there are headers that share their predecessor with an earlier one. -/
theorem C101_opens (he : Env H cp S) (hcp : ∃ t, bits_to_target (bitsOf cp.raw_header) = .ok t) {f : Bytes}
    {R : List Bytes} (hf : Holds cp S f R) (hfit : ∀ a x b, R = a ++ x :: b → Fits H cp a x) :
    ∃ s, Headers.from_file H coin (some f) cp = (some f, .ok s) ∧ Reachable H coin cp S s (cp.raw_header :: R) ∧
      s.storage.file = f ∧ s.len = .ok ((cp.height + 1 + R.length : Nat) : Int) ∧
      s.chains.length = 1 + forks R ∧
      (∀ x ∈ cp.raw_header :: R, ∃ hd c, s.lookup (header_hash H x) = .ok (hd, c) ∧ hd.raw = x) ∧
      (∀ hash, (∀ x ∈ cp.raw_header :: R, header_hash H x ≠ hash) → s.lookup hash = .error .missingHeader) := by
  obtain ⟨s, T, h1, hI, hR, h4, h5, h6, h7⟩ := open_all (coin := coin) he (workOf_of_bits he.cp_length hcp) hf hfit
  have hr : Reachable H coin cp S s (cp.raw_header :: R) := .opened hf h1
  refine ⟨s, h1, hr, by rw [h4], ?_, hR.2.2, ?_, fun hash hno => C23_missing he hr hash hno⟩
  · rw [hI.len, hR.length, h7]; congr 2; omega
  · intro x hx
    have hx' := hx
    rw [← h7] at hx'
    obtain ⟨i, N, hN, rfl⟩ := (mem_raw_iff hR.2.1 x).1 hx'
    have := hI.toDesc.lookup_found hI.env.inj hN
    rw [h5] at this
    exact ⟨_, _, this, (mkHeader_fields (H := H) _ (hI.toDesc.valid hN).length).1⟩

/-- The first header that does not fit decides the error, and the file is left as it is. -/
theorem C101_refused (he : Env H cp S) (hcp : ∃ t, bits_to_target (bitsOf cp.raw_header) = .ok t) {f : Bytes}
    {R : List Bytes} (hf : Holds cp S f R) (u v : List Bytes) (x : Bytes) (e : Err) (hR : R = u ++ x :: v)
    (hfit : ∀ a y b, u = a ++ y :: b → Fits H cp a y) (hr : Refused H cp u x e) :
    Headers.from_file H coin (some f) cp = (some f, .error e) :=
  open_refused he (workOf_of_bits he.cp_length hcp) hf hR hfit hr

/-- A file is opened exactly if its headers fit one after the other. -/
theorem C101_iff (he : Env H cp S) (hcp : ∃ t, bits_to_target (bitsOf cp.raw_header) = .ok t) {f : Bytes}
    {R : List Bytes} (hf : Holds cp S f R) :
    (∃ f' s, Headers.from_file H coin (some f) cp = (f', .ok s)) ↔ ∀ a x b, R = a ++ x :: b → Fits H cp a x := by
  constructor
  · rintro ⟨f', s, h⟩
    exact (opened_inv he hf h).2.1
  · intro h
    obtain ⟨s, h1, _⟩ := C101_opens (coin := coin) he hcp hf h
    exact ⟨_, s, h1⟩

/-- Whatever is refused and whatever fits exclude each other and leave nothing out. -/
theorem C101_cases (H : Hashes) (cp : CheckPoint) (u : List Bytes) (x : Bytes) :
    (Fits H cp u x ∧ ∀ e, ¬ Refused H cp u x e) ∨ (¬ Fits H cp u x ∧ ∃ e, Refused H cp u x e) := by
  rcases fits_or_refused H cp u x with h | ⟨e, h⟩
  · exact .inl ⟨h, fun e he => fits_not_refused h he⟩
  · exact .inr ⟨fun hf => fits_not_refused hf h, e, h⟩

theorem add_chain_tip_storage (s : Headers) (ch : Chain) (c : Nat) :
    (s.add_chain_tip ch c).1.storage = s.storage := by
  simp only [Headers.add_chain_tip]
  cases arrayAppend 4 s.heights ch.tip.height with
  | error e => rfl
  | ok a => cases arrayAppend 2 s.chain_indices c <;> rfl

theorem read_header_storage (s : Headers) (i : Nat) : (s.read_header i).1.storage = s.storage := by
  have key : ∀ (x : Headers) (ch : Chain) (c : Nat) (q : Headers × Res Unit), x.add_chain_tip ch c = q →
      q.1.storage = x.storage := by
    intro x ch c q h
    rw [← h, add_chain_tip_storage]
  unfold Headers.read_header
  split
  · rfl
  · split
    · rfl
    · split
      · split
        · rfl
        · split
          · next h => exact (key _ _ _ _ h).trans rfl
          · next h => exact (key _ _ _ _ h).trans rfl
      · split
        · rfl
        · split
          · rfl
          · split
            · next h => rw [Headers.add_chain] at h; exact key _ _ _ _ h
            · next h => rw [Headers.add_chain] at h; exact key _ _ _ _ h

/-- The 65537th chain: `connect` of a header that obeys all rules raises `OverflowError` if it begins a
new chain and there are 65536 already.  By then the header is in the file, and the file can no longer be
opened. -/
theorem C102_too_many (he : Env H cp S) (hr : Reachable H coin cp S s A) (hfull : 65536 ≤ s.chains.length)
    (hlen : ∀ n, s.len = .ok n → n + 1 < 2 ^ 32) (raw : Bytes) (hS : S raw) (hl : raw.length = 80)
    (hnew : raw ∉ A) (prev : Header) (pc : Nat) (hprev : s.lookup (header_prev_hash raw) = .ok (prev, pc))
    (hfork : ∃ y ∈ A, header_prev_hash y = header_prev_hash raw) (hd : Header)
    (hhd : deserialized_header H raw (prev.height + 1) = .ok hd) (hrules : Verdict s hd pc (.ok ())) :
    ∃ s' n, s.connect raw = (s', .error .overflowError) ∧ s.len = .ok n ∧ s'.len = .ok (n + 1) ∧
      s'.storage.get n = .ok raw ∧
      Headers.from_file H coin (some s'.storage.file) cp = (some s'.storage.file, .error .overflowError) := by
  obtain ⟨T, hI, rfl, rfl, rfl, hA⟩ := reachable_inv he hr
  have hnew' : ∀ M ∈ T, M.raw ≠ raw := by
    intro M hM hc
    obtain ⟨i, hi⟩ := List.mem_iff_getElem?.1 hM
    exact hnew ((hA _).2 ⟨i, M, hi, hc⟩)
  have hne : header_prev_hash raw ≠ [] := by
    intro hc
    have := header_prev_hash_length hl
    rw [hc] at this; simp at this
  obtain ⟨p, P, hp, hph⟩ : ∃ (p : Nat) (P : Node), T[p]? = some P ∧
      header_hash s.H P.raw = header_prev_hash raw := by
    by_contra hcon
    rw [hI.toDesc.lookup_missing hne (fun i N hN h => hcon ⟨i, N, hN, h⟩)] at hprev
    cases hprev
  rw [← hph, hI.toDesc.lookup_found hI.env.inj hp] at hprev
  cases hprev
  have hPf := mkHeader_fields (H := s.H) (nodeHeight s.checkpoint P) (hI.toDesc.valid hp).length
  have hcast : ((nodeHeight s.checkpoint P + 1 : Nat) : Int) = (nodeHeight s.checkpoint P : Int) + 1 := by
    push_cast; rfl
  rw [hPf.2.1, ← hcast, mkHeader_ok _ hl] at hhd
  cases hhd
  have hf := mkHeader_fields (H := s.H) ((nodeHeight s.checkpoint P + 1 : Nat) : Int) hl
  have hck := hI.connect_check_new hS hl hp hph.symm hnew'
  obtain ⟨t, hb, ht, hle⟩ : ∃ t, s.required_bits P.chain (mkHeader s.H raw (nodeHeight s.checkpoint P + 1 : Nat)).height
        (mkHeader s.H raw (nodeHeight s.checkpoint P + 1 : Nat)).timestamp =
        .ok (mkHeader s.H raw (nodeHeight s.checkpoint P + 1 : Nat)).bits ∧
      bits_to_target (mkHeader s.H raw (nodeHeight s.checkpoint P + 1 : Nat)).bits = .ok t ∧
      hash_to_value (mkHeader s.H raw (nodeHeight s.checkpoint P + 1 : Nat)).hash ≤ t := by
    cases hrules with
    | accept t a b c => exact ⟨t, a, b, by rwa [hash_to_value, le_bytes_to_int_eq]⟩
  rw [hf.2.1] at hb
  have hng : ¬ (mkHeader s.H raw (nodeHeight s.checkpoint P + 1 : Nat)).hash_value > t := by
    rw [Header.hash_value]; omega
  simp only [hb, ok_bind', ne_eq, not_true_eq_false, if_false, Header.target, ht, hng, pure_ok'] at hck
  have hv : Valid S raw := hI.env.valid hS hl (height := (nodeHeight s.checkpoint P + 1 : Nat)) (t := t)
    (by rw [Header.target]; exact ht) (by omega)
  have hchild : HasChild T P := by
    rw [hI.toDesc.hasChild_iff hI.env.inj hI.env.noroot hp]
    obtain ⟨y, hy, hyp⟩ := hfork
    obtain ⟨q, Q, hQ, rfl⟩ := (hA y).1 hy
    exact ⟨q, Q, hQ, by rw [hyp, hph]⟩
  have hrm := hlen _ hI.len
  have hb32 : s.checkpoint.height + T.length + 1 < 2 ^ 32 := by omega
  obtain ⟨st, cap, h1, h2, h3, h4⟩ := hI.storage_append hv.length hv.nonzero hb32
  have hd' : Desc S { s with storage := st } T :=
    Inv.with_storage hI.toDesc (fun i _ hi => h4 i (by omega))
  have hread := hd'.read_fails hI.env.inj hl (by rw [if_neg hv.nonzero]; exact h3) (by simp only; omega)
    (.chains p P hv.nonzero hp hph ⟨_, hv.work⟩ hchild hfull)
  simp only at hread
  have hsto := read_header_storage { s with storage := st } (T.length + s.checkpoint.height)
  rcases hrd : Headers.read_header { s with storage := st } (T.length + s.checkpoint.height) with ⟨s', r⟩
  rw [hrd] at hread hsto
  simp only at hread hsto
  subst hread
  refine ⟨s', ((s.checkpoint.height + T.length : Nat) : Int), ?_, hI.len, ?_, ?_, ?_⟩
  · simp only [Headers.connect, hck, h1, hrd]
  · rw [Headers.len, hsto, h2.len]; congr 1
  · rw [hsto]
    have : ((s.checkpoint.height + T.length : Nat) : Int) = (T.length : Int) + s.checkpoint.height := by
      push_cast; ring
    rw [this]; exact h3
  · have hpos := hI.good.length_pos
    have hst : ∀ (i : Nat) (N : Node), T[i]? = some N → st.get ((i : Int) + s.checkpoint.height) = .ok N.raw := by
      intro i N hN
      exact hd'.stored i N hN
    have hcp := hst 0 _ hI.good.root_node
    simp only [Nat.cast_zero, zero_add] at hcp
    have ho := (h2.open s.checkpoint hcp).2
    obtain ⟨s2, a1, a2, a3, a4, a5, a6, a7⟩ := read_all (coin := s.coin) hI.env.inj hI.good hst (by omega) hI.room
    have hfails := a2.read_fails (by rw [a5]; exact hI.env.inj) hl (by rw [if_neg hv.nonzero, a4, a7]; exact h3)
      (by rw [a7]; omega) (.chains p P hv.nonzero hp (by rw [a5]; exact hph) ⟨_, hv.work⟩ hchild (by rw [a3]; exact hfull))
    have hall := read_headers_error (T.length - 1) (s.checkpoint.height + 1) a1 0 (by
      rw [show s.checkpoint.height + 1 + (T.length - 1) = T.length + s2.checkpoint.height by rw [a7]; omega]
      exact hfails)
    rw [show T.length - 1 + 1 + 0 = T.length by omega] at hall
    have hw := (hI.toDesc.valid hI.good.root_node).work
    rw [hsto]
    simp only [Headers.from_file, ho, init_read (coin := s.coin) he hw (k := T.length) (by
      rw [h2.len])]
    rcases hbb : (baseHeaders s.H s.coin st s.checkpoint).read_headers (s.checkpoint.height + 1) T.length with ⟨s1, r⟩
    rw [hbb] at hall
    simp only at hall
    subst hall
    rfl

end Bitcoinx
