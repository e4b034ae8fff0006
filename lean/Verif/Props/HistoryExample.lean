import Verif.Props.History
import Verif.Props.ChainExample

/-! # Examples for C97-C99 -/

namespace Bitcoinx
open Spec

namespace ChainExample

/-- C97, C98: the history with a fork, and the state after the file is opened again.  The header at the
root of the fork keeps its place and obeys the rules in both. -/
example : ∃ s s' hd c, Unset toyHashes Bitcoin cp S s [raw0, raw1, raw2, raw3] ∧
    Later toyHashes Bitcoin cp S s s' ∧ s.lookup (header_hash toyHashes raw2) = .ok (hd, c) ∧
    s'.lookup (header_hash toyHashes raw2) = .ok (hd, c) ∧ Obeys s hd c ∧ Obeys s' hd c := by
  obtain ⟨s, hu, _⟩ := unset_history
  obtain ⟨s', a1, _, a3, _⟩ := C30_reopen env hu.reachable
  have hl : Later toyHashes Bitcoin cp S s s' := .reopen .now a1
  obtain ⟨hd, c, h1, _, h2⟩ := C98_all_obey env hu raw2 (by simp) (by decide +kernel)
  exact ⟨s, s', hd, c, hu, hl, h1, C97_lookup env hu.reachable hl _ _ h1, h2,
    C98_later env hu.reachable hl (fun _ _ => by rw [a3]) _ _ _ h1 h2⟩

/-- C97: a header can be connected later. -/
example : ∃ s s', Reachable toyHashes Bitcoin cp S s [raw0] ∧ Later toyHashes Bitcoin cp S s s' ∧
    s.len = .ok 1 ∧ s'.len = .ok 2 := by
  obtain ⟨s, s', r, h1, h2, h3⟩ := first
  have hm1 : S raw1 := by simp [S]
  have hnew : raw1 ∉ [raw0] := by decide +kernel
  obtain ⟨prev, pc, ch, w, n, _, _, _, b1, b2, _⟩ := C29_chains env h1 h2 raw1 hm1 hnew s' r.1 r.2 h3
  obtain ⟨T, hI, _, _, hcp, hA⟩ := reachable_inv env h1
  have hT : T.length = 1 := by
    by_contra hc
    have hpos := hI.good.length_pos
    have h1 := List.getElem?_eq_getElem (l := T) (i := 1) (by omega)
    have := (hA _).2 ⟨1, _, h1, rfl⟩
    rw [List.mem_singleton] at this
    have h0 := hI.good.root_node
    have := hI.good.raw_inj _ _ _ _ h1 h0 (by rw [this, hcp]; rfl)
    omega
  have hn : n = 1 := by
    have := hI.len
    rw [b1, hT, hcp] at this
    simp only [Except.ok.injEq] at this
    have h0 : cp.height = 0 := rfl
    omega
  subst hn
  exact ⟨s, s', h1, .connect .now hm1 h2 h3, b1, b2⟩

/-- C99: a checkpoint at height 5, so that there are heights before it. -/
def cp5 : CheckPoint := ⟨raw0, 5, 0⟩

theorem env5 : Env toyHashes cp5 S :=
  ⟨env.inj, env.noroot, env.cp_length, env.cp_ne, env.cp_mem, by decide, env.nonzero⟩

theorem fresh5 : ∃ s, Reachable toyHashes Bitcoin cp5 S s [raw0] := by
  have hw : header_work raw0 = .ok (workOf raw0) := by
    have : (match header_work raw0 with | .ok _ => true | .error _ => false) = true := by decide +kernel
    cases h : header_work raw0 with
    | ok w => simp [workOf, h]
    | error e => rw [h] at this; cases this
  obtain ⟨s, a1, _⟩ := fresh_ok (coin := Bitcoin) (file := none) env5 hw (by simp) (by simp)
  exact ⟨s, .start (by simp) (by simp) a1⟩

example : ∃ s s' c, Reachable toyHashes Bitcoin cp5 S s [raw0] ∧ s.set_one 3 raw1 = (s', .ok ()) ∧
    s'.raw_header_at_height c 3 = .ok raw1 := by
  obtain ⟨s, hr⟩ := fresh5
  obtain ⟨s', h1, _, _, _, _, h6, _⟩ := C99_below env5 hr 3 raw1 (by decide) (by decide +kernel)
  have hne := C32_reachable env5 hr
  have := h6 0 (List.length_pos_iff.2 hne)
  rw [if_neg (by decide +kernel)] at this
  exact ⟨s, s', 0, hr, h1, this⟩

/-- All three headers of the fork are lost when another header is put at the checkpoint. -/
example : ∃ s s' s'' f, Reachable toyHashes Bitcoin cp S s [raw0, raw1, raw2, raw3] ∧
    s.set_one 0 raw1 = (s', .ok ()) ∧
    Headers.from_file toyHashes Bitcoin (some s'.storage.file) cp = (f, .ok s'') ∧
    s''.lookup (header_hash toyHashes raw3) = .error .missingHeader := by
  obtain ⟨s, hr, _⟩ := history
  obtain ⟨s', s'', f, h1, h2, _, h4⟩ := C99_checkpoint env hr raw1 (by decide +kernel) (by decide +kernel)
  exact ⟨s, s', s'', f, hr, h1, h2, h4 raw3 (by simp) (by decide +kernel)⟩

end ChainExample

end Bitcoinx
