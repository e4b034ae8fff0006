import Verif.Lemmas.Cashaddr

/-! # `_polymod` is the remainder of the division by the generator polynomial -/

namespace Bitcoinx

open Spec

namespace cashaddr

/-- The state as eight coefficients. -/
def coeffs (c : Nat) : List Nat :=
  [c / 2 ^ 35 % 32, c / 2 ^ 30 % 32, c / 2 ^ 25 % 32, c / 2 ^ 20 % 32, c / 2 ^ 15 % 32,
   c / 2 ^ 10 % 32, c / 2 ^ 5 % 32, c % 32]

theorem List.replicate_add' {α : Type} (m n : Nat) (a : α) :
    List.replicate (m + n) a = List.replicate m a ++ List.replicate n a :=
  List.replicate_append_replicate.symm

theorem polyAdd_nil : polyAdd [] [] = [] := rfl

theorem polyAdd_cons (a b : Nat) (p q : List Nat) :
    polyAdd (a :: p) (b :: q) = (a ^^^ b) :: polyAdd p q := rfl

theorem polyAdd_length {p q : List Nat} (h : p.length = q.length) :
    (polyAdd p q).length = p.length := by
  simp [polyAdd, h]

theorem polyAdd_append {p q p' q' : List Nat} (h : p.length = q.length) :
    polyAdd (p ++ p') (q ++ q') = polyAdd p q ++ polyAdd p' q' := by
  simp only [polyAdd]
  exact List.zipWith_append h

theorem polyAdd_comm (p q : List Nat) : polyAdd p q = polyAdd q p := by
  unfold polyAdd
  exact List.zipWith_comm_of_comm (fun a b => Nat.xor_comm a b)

theorem polyAdd_assoc (p q r : List Nat) : polyAdd (polyAdd p q) r = polyAdd p (polyAdd q r) := by
  induction p generalizing q r with
  | nil => simp [polyAdd]
  | cons a p ih => cases q with
    | nil => simp [polyAdd]
    | cons b q => cases r with
      | nil => simp [polyAdd]
      | cons c r => rw [polyAdd_cons, polyAdd_cons, polyAdd_cons, polyAdd_cons, ih, Nat.xor_assoc]

theorem polyAdd_self (p : List Nat) : polyAdd p p = List.replicate p.length 0 := by
  induction p with
  | nil => rfl
  | cons a p ih => rw [polyAdd_cons, ih, Nat.xor_self]; rfl

theorem polyAdd_zero {p : List Nat} {n : Nat} (h : p.length = n) :
    polyAdd p (List.replicate n 0) = p := by
  subst h
  induction p with
  | nil => rfl
  | cons a p ih =>
    rw [List.length_cons, List.replicate_succ, polyAdd_cons, ih, Nat.xor_zero]

theorem gen_coeffs : ∀ a < 32, coeffs (gen a) = cashGenerator.tail.map (gfMul a) := by decide +kernel

theorem gfMul_one : ∀ a < 32, gfMul a 1 = a := by decide +kernel

theorem gfMul_linear : ∀ a < 32, ∀ b < 32,
    cashGenerator.map (gfMul (a ^^^ b)) =
      polyAdd (cashGenerator.map (gfMul a)) (cashGenerator.map (gfMul b)) := by decide +kernel

theorem gfMul_zero : cashGenerator.map (gfMul 0) = List.replicate 9 0 := by decide

theorem div_mod_xor (a b k : Nat) :
    (a ^^^ b) / 2 ^ k % 32 = (a / 2 ^ k % 32) ^^^ (b / 2 ^ k % 32) := by
  have e : ∀ n, n % 32 = n &&& 31 := fun n => (Nat.and_two_pow_sub_one_eq_mod n 5).symm
  rw [e, e, e, ← Nat.shiftRight_eq_div_pow, ← Nat.shiftRight_eq_div_pow, ← Nat.shiftRight_eq_div_pow,
    Nat.shiftRight_xor_distrib, Nat.and_xor_distrib_right]

theorem coeffs_xor (a b : Nat) : coeffs (a ^^^ b) = polyAdd (coeffs a) (coeffs b) := by
  have h0 := div_mod_xor a b 0
  simp only [pow_zero, Nat.div_one] at h0
  simp only [coeffs, polyAdd_cons, polyAdd_nil, ← div_mod_xor, ← h0]

theorem coeffs_length (c : Nat) : (coeffs c).length = 8 := rfl

theorem coeffs_zero {c : Nat} (h : c < 2 ^ 40) (hz : coeffs c = List.replicate 8 0) : c = 0 := by
  have e : List.replicate 8 0 = [0, 0, 0, 0, 0, 0, 0, 0] := rfl
  rw [e] at hz
  simp only [coeffs, List.cons.injEq, and_true] at hz
  omega

/-- Shifting the state without reduction. -/
theorem coeffs_shift {c d : Nat} (hd : d < 32) :
    coeffs (((c &&& 0x07ffffffff) <<< 5) ^^^ d) = (coeffs c).tail ++ [d] := by
  have e1 : ((c &&& 0x07ffffffff) <<< 5) ^^^ d = (c % 2 ^ 35) * 32 + d := by
    rw [mask_eq, show (32 : Nat) = 2 ^ 5 from rfl, ← Nat.shiftLeft_eq,
      Nat.shiftLeft_add_eq_or_of_lt hd]
    apply Nat.eq_of_testBit_eq
    intro i
    simp only [Nat.testBit_xor, Nat.testBit_or, Nat.testBit_shiftLeft]
    by_cases hi : 5 ≤ i
    · have : d.testBit i = false :=
        Nat.testBit_lt_two_pow (lt_of_lt_of_le hd (Nat.pow_le_pow_right (n := 2) (by norm_num) hi))
      simp [this]
    · simp [hi]
  rw [e1]
  simp only [coeffs, List.tail_cons, List.cons_append, List.nil_append, List.cons.injEq, and_true]
  refine ⟨?_, ?_, ?_, ?_, ?_, ?_, ?_, ?_⟩ <;> omega

/-- One step of the division. -/
theorem coeffs_step {c d : Nat} (hc : c < 2 ^ 40) (hd : d < 32) :
    polyAdd (cashGenerator.map (gfMul (c / 2 ^ 35))) (0 :: coeffs (step0 c ^^^ d)) =
      coeffs c ++ [d] := by
  have h32 : c / 2 ^ 35 < 32 := by omega
  have e1 : step0 c ^^^ d = ((c &&& 0x07ffffffff) <<< 5 ^^^ d) ^^^ gen (c / 2 ^ 35) := by
    rw [step0, Nat.shiftRight_eq_div_pow, Nat.xor_assoc, Nat.xor_comm (gen _), Nat.xor_assoc]
  rw [e1, coeffs_xor, coeffs_shift hd, gen_coeffs _ h32]
  have e2 : cashGenerator.map (gfMul (c / 2 ^ 35)) =
      c / 2 ^ 35 :: cashGenerator.tail.map (gfMul (c / 2 ^ 35)) := by
    rw [cashGenerator, List.map_cons, gfMul_one _ h32]; rfl
  rw [e2, polyAdd_cons, Nat.xor_zero, polyAdd_comm ((coeffs c).tail ++ [d]), ← polyAdd_assoc,
    polyAdd_self, polyAdd_comm, List.length_map]
  rw [polyAdd_zero (by simp [coeffs, cashGenerator])]
  simp only [coeffs, List.tail_cons, List.cons_append, List.nil_append]
  rw [Nat.mod_eq_of_lt h32]

theorem timesGenerator_length (q : List Nat) : (timesGenerator q).length = q.length + 8 := by
  induction q with
  | nil => rfl
  | cons a q ih =>
    rw [timesGenerator, polyAdd_length]
    · simp [cashGenerator]; try omega
    · simp [cashGenerator, ih]; try omega

theorem timesGenerator_snoc (q : List Nat) (a : Nat) :
    timesGenerator (q ++ [a]) =
      polyAdd (timesGenerator q ++ [0]) (List.replicate q.length 0 ++ cashGenerator.map (gfMul a)) := by
  induction q with
  | nil =>
    simp only [List.nil_append, timesGenerator, List.length_nil, List.replicate_zero,
      List.append_nil]
    rw [polyAdd_comm]
    rfl
  | cons b q ih =>
    rw [List.cons_append, timesGenerator, ih, timesGenerator, List.length_append,
      List.length_singleton, List.replicate_add', ← List.append_assoc, List.length_cons,
      List.replicate_succ (n := q.length), List.cons_append]
    have e1 : polyAdd (List.map (gfMul b) cashGenerator ++ List.replicate q.length 0) (0 :: timesGenerator q)
        ++ [0] = polyAdd (List.map (gfMul b) cashGenerator ++ List.replicate q.length 0 ++ [0])
          (0 :: timesGenerator q ++ [0]) := by
      rw [polyAdd_append (by simp [cashGenerator, timesGenerator_length])]
      rfl
    have e2 : (0 :: polyAdd (timesGenerator q ++ [0]) (List.replicate q.length 0 ++ List.map (gfMul a) cashGenerator)) =
        polyAdd (0 :: timesGenerator q ++ [0]) (0 :: (List.replicate q.length 0 ++ List.map (gfMul a) cashGenerator)) := by
      rfl
    have e3 : List.replicate 1 0 = [0] := rfl
    rw [e1, e2, e3, polyAdd_assoc]

theorem polyAdd_swap {p q r s : List Nat} :
    polyAdd (polyAdd p q) (polyAdd r s) = polyAdd (polyAdd p r) (polyAdd q s) := by
  rw [polyAdd_assoc, ← polyAdd_assoc q, polyAdd_comm q r, polyAdd_assoc r, ← polyAdd_assoc]

/-- The state of `_polymod` is the remainder of the division by the generator. -/
theorem run_division (v : Bytes) (hv : ∀ d ∈ v, d.toNat < 32) :
    ∃ q, q.length = v.length ∧ (∀ a ∈ q, a < 32) ∧
      List.replicate 7 0 ++ 1 :: v.map (·.toNat) =
        polyAdd (timesGenerator q) (List.replicate v.length 0 ++ coeffs (run 1 v)) := by
  induction v using List.reverseRecOn with
  | nil => exact ⟨[], rfl, by simp, by decide⟩
  | append_singleton v d ih =>
    obtain ⟨q, h1, h2, h3⟩ := ih (fun x hx => hv x (by simp [hx]))
    have hd := hv d (by simp)
    have hc := run_lt (show 1 < 2 ^ 40 by norm_num) v
    refine ⟨q ++ [run 1 v / 2 ^ 35], by simp [h1], ?_, ?_⟩
    · intro a ha
      rcases List.mem_append.mp ha with ha | ha
      · exact h2 a ha
      · rw [List.mem_singleton.mp ha]; omega
    · have e0 : List.replicate 7 0 ++ 1 :: (v ++ [d]).map (·.toNat) =
          (List.replicate 7 0 ++ 1 :: v.map (·.toNat)) ++ [d.toNat] := by simp
      have e1 : run 1 (v ++ [d]) = step0 (run 1 v) ^^^ d.toNat := by simp [run_append]
      have e2 : List.replicate (v ++ [d]).length 0 ++ coeffs (step0 (run 1 v) ^^^ d.toNat) =
          List.replicate v.length 0 ++ 0 :: coeffs (step0 (run 1 v) ^^^ d.toNat) := by
        rw [List.length_append, List.length_singleton, List.replicate_add', List.append_assoc]
        rfl
      rw [e0, h3, e1, e2, timesGenerator_snoc, polyAdd_assoc, h1,
        polyAdd_append (by simp), coeffs_step hc hd, polyAdd_self, List.length_replicate,
        ← List.append_assoc, polyAdd_append (by simp [timesGenerator_length, h1, coeffs])]
      congr 1
      simp [polyAdd]

theorem timesGenerator_add (p q : List Nat) (hp : ∀ a ∈ p, a < 32) (hq : ∀ a ∈ q, a < 32)
    (hl : p.length = q.length) :
    timesGenerator (polyAdd p q) = polyAdd (timesGenerator p) (timesGenerator q) := by
  induction p generalizing q with
  | nil => cases q with
    | nil => rfl
    | cons _ _ => simp at hl
  | cons a p ih => cases q with
    | nil => simp at hl
    | cons b q =>
      have hl' : p.length = q.length := by simpa using hl
      rw [polyAdd_cons, timesGenerator, timesGenerator, timesGenerator,
        ih q (fun x hx => hp x (by simp [hx])) (fun x hx => hq x (by simp [hx])) hl',
        gfMul_linear a (hp a (by simp)) b (hq b (by simp)), polyAdd_length hl', polyAdd_swap,
        polyAdd_append (by simp), hl', polyAdd_self, List.length_replicate]
      rfl

theorem timesGenerator_low (q : List Nat) (hq : ∀ a ∈ q, a < 32) (r : List Nat)
    (h : timesGenerator q = List.replicate q.length 0 ++ r) : r = List.replicate 8 0 := by
  induction q with
  | nil => simpa [timesGenerator] using h.symm
  | cons a q ih =>
    have ha := hq a (by simp)
    rw [timesGenerator, List.length_cons, List.replicate_succ, List.cons_append] at h
    have e : cashGenerator.map (gfMul a) = a :: cashGenerator.tail.map (gfMul a) := by
      rw [cashGenerator, List.map_cons, gfMul_one _ ha]; rfl
    have ha0 : a = 0 := by
      rw [e, List.cons_append, polyAdd_cons, Nat.xor_zero] at h
      exact (List.cons.inj h).1
    subst ha0
    rw [gfMul_zero, ← List.replicate_add', show 9 + q.length = (q.length + 8) + 1 by omega,
      List.replicate_succ, polyAdd_cons, polyAdd_comm, polyAdd_zero (timesGenerator_length q)] at h
    exact ih (fun x hx => hq x (by simp [hx])) (List.cons.inj h).2

theorem polyAdd_lt {p q : List Nat} (hp : ∀ a ∈ p, a < 32) (hq : ∀ a ∈ q, a < 32) :
    ∀ a ∈ polyAdd p q, a < 32 := by
  intro a ha
  obtain ⟨i, hi, rfl⟩ := List.getElem_of_mem ha
  simp only [polyAdd, List.getElem_zipWith]
  exact Nat.xor_lt_two_pow (n := 5) (hp _ (List.getElem_mem _)) (hq _ (List.getElem_mem _))

theorem coeffs_one : coeffs 1 = List.replicate 7 0 ++ [1] := by decide

/-- `_polymod` is zero exactly for the words of the code. -/
theorem polymod_valid (v : Bytes) (hv : ∀ d ∈ v, d.toNat < 32) :
    polymod v = 0 ↔ CashValid (v.map (·.toNat)) := by
  obtain ⟨q, h1, h2, h3⟩ := run_division v hv
  have ez : List.replicate ((v.map (·.toNat)).length + 7) 0 ++ [1] =
      List.replicate v.length 0 ++ coeffs 1 := by
    rw [coeffs_one, List.length_map, List.replicate_add', List.append_assoc]
  rw [polymod_eq, Nat.xor_eq_zero_iff]
  constructor
  · intro h
    refine ⟨q, by simp [h1], h2, ?_⟩
    rw [h3, h, ez]
  · rintro ⟨q', g1, g2, g3⟩
    rw [List.length_map] at g1
    rw [h3, ez] at g3
    have hlq : q.length = q'.length := by omega
    -- the difference of the two quotients times the generator is the difference of the remainders
    have e1 := congrArg (polyAdd (timesGenerator q')) g3
    rw [← polyAdd_assoc, ← polyAdd_assoc, polyAdd_self, ← timesGenerator_add q' q g2 h2 hlq.symm] at e1
    have e2 := congrArg (fun x => polyAdd x (List.replicate v.length 0 ++ coeffs (run 1 v))) e1
    rw [polyAdd_assoc, polyAdd_self, polyAdd_zero, timesGenerator_length, g1,
      polyAdd_comm (List.replicate (v.length + 8) 0), polyAdd_zero,
      polyAdd_append rfl, ← coeffs_xor, polyAdd_self, List.length_replicate] at e2
    · have hl : (polyAdd q' q).length = v.length := by rw [polyAdd_length hlq.symm, g1]
      have e3 := timesGenerator_low _ (polyAdd_lt g2 h2) (coeffs (1 ^^^ run 1 v)) (by rw [hl]; exact e2)
      have hlt := run_lt (show 1 < 2 ^ 40 by norm_num) v
      have := coeffs_zero (Nat.xor_lt_two_pow (by norm_num) hlt) e3
      exact (Nat.xor_eq_zero_iff.mp this).symm
    · simp [coeffs]
    · simp [coeffs, timesGenerator_length, polyAdd_length hlq.symm, g1]

end cashaddr

end Bitcoinx
