import Verif.Lemmas.CashPoly
import Mathlib.FieldTheory.IsAlgClosed.AlgebraicClosure
import Mathlib.Algebra.CharP.Two
import Mathlib.GroupTheory.OrderOfElement
import Mathlib.Tactic.LinearCombination
import Mathlib.Tactic.NormNum.Prime
import Mathlib.Algebra.CharP.Algebra
import Mathlib.Algebra.Field.ZMod
import Mathlib.Tactic.ComputeDegree

/-! # Two words of the code of cash addresses differ in at least five places

The generator polynomial has six zeros `β ^ (1 - 33 i + 64 j)`, for `i < 3` and `j < 2`, where `β` is
an element of order 1025 of an extension of the field of 32 elements.  By the argument of Hartmann
and Tzeng no multiple of it of degree below 1025 has between one and four coefficients other than
zero.  (Exponents are taken modulo 1025 below.) -/

namespace Bitcoinx

open Spec

namespace cashaddr

/-! ## The field of 32 elements inside a larger one -/

section

variable {K : Type} [Field K] [CharP K 2]

/-- A bit as an element of a field. -/
def bitK (b : Bool) : K := if b then 1 else 0

theorem bitK_xor (a b : Bool) : (bitK (a ^^ b) : K) = bitK a + bitK b := by
  cases a <;> cases b <;> simp [bitK, CharTwo.add_self_eq_zero]

/-- The element with given five bits, `z` being `θ`. -/
def sym (θ : K) (s : Nat) : K :=
  bitK (s.testBit 0) + bitK (s.testBit 1) * θ + bitK (s.testBit 2) * θ ^ 2 +
    bitK (s.testBit 3) * θ ^ 3 + bitK (s.testBit 4) * θ ^ 4

theorem sym_xor (θ : K) (a b : Nat) : sym θ (a ^^^ b) = sym θ a + sym θ b := by
  simp only [sym, Nat.testBit_xor, bitK_xor]
  ring

theorem sym_zero (θ : K) : sym θ 0 = 0 := by simp [sym, bitK]

theorem sym_one (θ : K) : sym θ 1 = 1 := by
  have h : Nat.testBit 1 0 = true ∧ Nat.testBit 1 1 = false ∧ Nat.testBit 1 2 = false ∧
      Nat.testBit 1 3 = false ∧ Nat.testBit 1 4 = false := by decide
  obtain ⟨h0, h1, h2, h3, h4⟩ := h
  simp [sym, bitK, h1, h2, h3, h4]

theorem gfDouble_lt : ∀ a < 32, gfDouble a < 32 := by decide

theorem gfMul_lt : ∀ a < 32, ∀ b < 32, gfMul a b < 32 := by decide +kernel

theorem gfDouble_bits : ∀ a < 32,
    (gfDouble a).testBit 0 = a.testBit 4 ∧ (gfDouble a).testBit 1 = a.testBit 0 ∧
    (gfDouble a).testBit 2 = a.testBit 1 ∧ (gfDouble a).testBit 3 = (a.testBit 2 ^^ a.testBit 4) ∧
    (gfDouble a).testBit 4 = a.testBit 3 := by decide +kernel

variable {θ : K} (hθ : θ ^ 5 = θ ^ 3 + 1)

include hθ

theorem sym_double {a : Nat} (ha : a < 32) : sym θ (gfDouble a) = θ * sym θ a := by
  obtain ⟨h0, h1, h2, h3, h4⟩ := gfDouble_bits a ha
  simp only [sym, h0, h1, h2, h3, h4, bitK_xor]
  linear_combination -(bitK (a.testBit 4)) * hθ

theorem sym_ite (c : Bool) (a : Nat) : sym θ (if c then a else 0) = bitK c * sym θ a := by
  cases c <;> simp [bitK, sym_zero]

theorem sym_mul {a : Nat} (ha : a < 32) (b : Nat) : sym θ (gfMul a b) = sym θ a * sym θ b := by
  have d1 := gfDouble_lt a ha
  have d2 := gfDouble_lt _ d1
  have d3 := gfDouble_lt _ d2
  simp only [gfMul, sym_xor, sym_ite hθ, sym_double hθ ha, sym_double hθ d1, sym_double hθ d2,
    sym_double hθ d3]
  simp only [sym]
  ring

theorem gf_inverse : ∀ a < 32, a ≠ 0 → ∃ b < 32, gfMul a b = 1 := by decide +kernel

theorem sym_ne_zero {a : Nat} (ha : a < 32) (h : a ≠ 0) : sym θ a ≠ 0 := by
  obtain ⟨b, _, hb⟩ := gf_inverse hθ a ha h
  intro hz
  have := sym_mul hθ ha b
  rw [hb, hz, zero_mul, sym_one] at this
  exact one_ne_zero this

end

/-! ## The extension by a zero of the factor `x⁴ + 12 x³ + 11 x² + 12 x + 1` of the generator -/

/-- Residues modulo that factor: four coefficients, the lowest first. -/
structure Quad where
  c0 : Nat
  c1 : Nat
  c2 : Nat
  c3 : Nat
deriving DecidableEq

namespace Quad

def Ok (p : Quad) : Prop := p.c0 < 32 ∧ p.c1 < 32 ∧ p.c2 < 32 ∧ p.c3 < 32

def one : Quad := ⟨1, 0, 0, 0⟩

def const (a : Nat) : Quad := ⟨a, 0, 0, 0⟩

def mulX (p : Quad) : Quad :=
  ⟨p.c3, p.c0 ^^^ gfMul p.c3 12, p.c1 ^^^ gfMul p.c3 11, p.c2 ^^^ gfMul p.c3 12⟩

def add (p q : Quad) : Quad := ⟨p.c0 ^^^ q.c0, p.c1 ^^^ q.c1, p.c2 ^^^ q.c2, p.c3 ^^^ q.c3⟩

def scale (a : Nat) (p : Quad) : Quad := ⟨gfMul p.c0 a, gfMul p.c1 a, gfMul p.c2 a, gfMul p.c3 a⟩

def mul (p q : Quad) : Quad :=
  add (scale q.c0 p) (mulX (add (scale q.c1 p) (mulX (add (scale q.c2 p) (mulX (scale q.c3 p))))))

def xpow : Nat → Quad
  | 0 => one
  | k + 1 => mulX (xpow k)

/-- A polynomial, leading coefficient first, at a residue. -/
def poly (y : Quad) (l : List Nat) : Quad := l.foldl (fun acc c => add (mul acc y) (const c)) (const 0)

theorem xor_lt {a b : Nat} (ha : a < 32) (hb : b < 32) : a ^^^ b < 32 :=
  Nat.xor_lt_two_pow (n := 5) ha hb

theorem Ok.mulX {p : Quad} (h : p.Ok) : (mulX p).Ok :=
  ⟨h.2.2.2, xor_lt h.1 (gfMul_lt _ h.2.2.2 _ (by norm_num)),
    xor_lt h.2.1 (gfMul_lt _ h.2.2.2 _ (by norm_num)),
    xor_lt h.2.2.1 (gfMul_lt _ h.2.2.2 _ (by norm_num))⟩

theorem Ok.add {p q : Quad} (h : p.Ok) (h' : q.Ok) : (add p q).Ok :=
  ⟨xor_lt h.1 h'.1, xor_lt h.2.1 h'.2.1, xor_lt h.2.2.1 h'.2.2.1, xor_lt h.2.2.2 h'.2.2.2⟩

theorem Ok.scale {p : Quad} (h : p.Ok) {a : Nat} (ha : a < 32) : (scale a p).Ok :=
  ⟨gfMul_lt _ h.1 _ ha, gfMul_lt _ h.2.1 _ ha, gfMul_lt _ h.2.2.1 _ ha, gfMul_lt _ h.2.2.2 _ ha⟩

theorem Ok.mul {p q : Quad} (h : p.Ok) (h' : q.Ok) : (mul p q).Ok :=
  (h.scale h'.1).add ((h.scale h'.2.1).add ((h.scale h'.2.2.1).add (h.scale h'.2.2.2).mulX).mulX).mulX

theorem Ok.const {a : Nat} (h : a < 32) : (const a).Ok :=
  ⟨h, by simp [Quad.const], by simp [Quad.const], by simp [Quad.const]⟩

theorem Ok.xpow (k : Nat) : (xpow k).Ok := by
  induction k with
  | zero => exact Ok.const (by norm_num)
  | succ k ih => exact ih.mulX

section

variable {K : Type} [Field K] [CharP K 2] {θ β : K} (hθ : θ ^ 5 = θ ^ 3 + 1)
  (hβ : β ^ 4 = sym θ 12 * β ^ 3 + sym θ 11 * β ^ 2 + sym θ 12 * β + 1)

/-- The value of a residue. -/
def ev (θ β : K) (p : Quad) : K :=
  sym θ p.c0 + sym θ p.c1 * β + sym θ p.c2 * β ^ 2 + sym θ p.c3 * β ^ 3

theorem ev_const (a : Nat) : ev θ β (const a) = sym θ a := by simp [ev, const, sym_zero]

theorem ev_add (p q : Quad) : ev θ β (add p q) = ev θ β p + ev θ β q := by
  simp only [ev, add, sym_xor]
  ring

include hθ

theorem ev_scale {p : Quad} (h : p.Ok) (a : Nat) : ev θ β (scale a p) = sym θ a * ev θ β p := by
  simp only [ev, scale, sym_mul hθ h.1, sym_mul hθ h.2.1, sym_mul hθ h.2.2.1, sym_mul hθ h.2.2.2]
  ring

include hβ

theorem ev_mulX {p : Quad} (h : p.Ok) : ev θ β (mulX p) = β * ev θ β p := by
  simp only [ev, mulX, sym_xor, sym_mul hθ h.2.2.2]
  linear_combination -(sym θ p.c3) * hβ

theorem ev_mul {p q : Quad} (h : p.Ok) (h' : q.Ok) : ev θ β (mul p q) = ev θ β p * ev θ β q := by
  have h3 := h.scale h'.2.2.2
  have h2 := (h.scale h'.2.2.1).add h3.mulX
  have h1 := (h.scale h'.2.1).add h2.mulX
  rw [mul, ev_add, ev_mulX hθ hβ h1, ev_add, ev_mulX hθ hβ h2, ev_add, ev_mulX hθ hβ h3,
    ev_scale hθ h, ev_scale hθ h, ev_scale hθ h, ev_scale hθ h, show ev θ β q =
      sym θ q.c0 + sym θ q.c1 * β + sym θ q.c2 * β ^ 2 + sym θ q.c3 * β ^ 3 from rfl]
  ring

theorem ev_xpow (k : Nat) : ev θ β (xpow k) = β ^ k := by
  induction k with
  | zero => rw [xpow, show one = const 1 from rfl, ev_const, sym_one, pow_zero]
  | succ k ih => rw [xpow, ev_mulX hθ hβ (Ok.xpow k), ih, pow_succ']

end

end Quad

section

variable {K : Type} [Field K] [CharP K 2]

/-- The value of a polynomial, leading coefficient first. -/
def evalAt (θ r : K) (l : List Nat) : K := l.foldl (fun acc c => acc * r + sym θ c) 0

theorem foldl_shift (θ r : K) (l : List Nat) (x : K) :
    l.foldl (fun acc c => acc * r + sym θ c) x = x * r ^ l.length + evalAt θ r l := by
  induction l generalizing x with
  | nil => simp [evalAt]
  | cons a l ih =>
    have e : evalAt θ r (a :: l) = (0 * r + sym θ a) * r ^ l.length + evalAt θ r l := by
      rw [evalAt, List.foldl_cons, ih]
    rw [List.foldl_cons, ih, e, List.length_cons]
    ring

theorem evalAt_cons (θ r : K) (a : Nat) (l : List Nat) :
    evalAt θ r (a :: l) = sym θ a * r ^ l.length + evalAt θ r l := by
  rw [evalAt, List.foldl_cons, foldl_shift]
  ring

theorem evalAt_append (θ r : K) (l l' : List Nat) :
    evalAt θ r (l ++ l') = evalAt θ r l * r ^ l'.length + evalAt θ r l' := by
  rw [evalAt, List.foldl_append, foldl_shift]
  rfl

theorem evalAt_zero (θ r : K) (n : Nat) : evalAt θ r (List.replicate n 0) = 0 := by
  induction n with
  | zero => rfl
  | succ n ih => rw [List.replicate_succ, evalAt_cons, ih, sym_zero]; ring

theorem evalAt_add (θ r : K) {p q : List Nat} (h : p.length = q.length) :
    evalAt θ r (polyAdd p q) = evalAt θ r p + evalAt θ r q := by
  induction p generalizing q with
  | nil => cases q with
    | nil => simp [polyAdd, evalAt]
    | cons _ _ => simp at h
  | cons a p ih => cases q with
    | nil => simp at h
    | cons b q =>
      have h' : p.length = q.length := by simpa using h
      rw [polyAdd_cons, evalAt_cons, evalAt_cons, evalAt_cons, ih h', polyAdd_length h', sym_xor, h']
      ring

variable {θ : K} (hθ : θ ^ 5 = θ ^ 3 + 1)

include hθ

theorem evalAt_scale (r : K) {a : Nat} (ha : a < 32) (l : List Nat) :
    evalAt θ r (l.map (gfMul a)) = sym θ a * evalAt θ r l := by
  induction l with
  | nil => simp [evalAt]
  | cons b l ih =>
    rw [List.map_cons, evalAt_cons, evalAt_cons, ih, sym_mul hθ ha, List.length_map]
    ring

theorem evalAt_times (r : K) (q : List Nat) (hq : ∀ a ∈ q, a < 32) :
    evalAt θ r (timesGenerator q) = evalAt θ r q * evalAt θ r cashGenerator := by
  induction q with
  | nil => rw [timesGenerator, evalAt_zero]; simp [evalAt]
  | cons a q ih =>
    rw [timesGenerator, evalAt_add, evalAt_append, evalAt_zero, evalAt_scale hθ r (hq a (by simp)),
      evalAt_cons, sym_zero, ih (fun x hx => hq x (by simp [hx])), evalAt_cons, List.length_replicate]
    · ring
    · simp [cashGenerator, timesGenerator_length]; try omega

theorem evalAt_valid (r : K) (hr : evalAt θ r cashGenerator = 0) {v w : List Nat}
    (hl : v.length = w.length) (hv : CashValid v) (hw : CashValid w) :
    evalAt θ r (polyAdd v w) = 0 := by
  have key : ∀ u : List Nat, CashValid u → r ^ u.length + evalAt θ r u = 1 := by
    rintro u ⟨q, h1, h2, h3⟩
    have e := congrArg (evalAt θ r) h3
    rw [evalAt_append, evalAt_zero, evalAt_cons, evalAt_add, evalAt_times hθ r q h2, hr,
      evalAt_append, evalAt_zero, sym_one] at e
    · simpa [evalAt_cons, sym_one, evalAt] using e
    · simp [timesGenerator_length, h1]
  have e1 := key v hv
  have e2 := key w hw
  rw [evalAt_add θ r hl]
  rw [hl] at e1
  have e3 : (r ^ w.length + evalAt θ r v) + (r ^ w.length + evalAt θ r w) = 1 + 1 := by rw [e1, e2]
  rw [CharTwo.add_self_eq_zero] at e3
  have e4 : r ^ w.length + r ^ w.length = 0 := CharTwo.add_self_eq_zero _
  linear_combination e3 - e4

theorem evalAt_quad {β : K}
    (hβ : β ^ 4 = sym θ 12 * β ^ 3 + sym θ 11 * β ^ 2 + sym θ 12 * β + 1) {y : Quad} (hy : y.Ok)
    (l : List Nat) (hl : ∀ a ∈ l, a < 32) :
    Quad.ev θ β (Quad.poly y l) = evalAt θ (Quad.ev θ β y) l := by
  have : ∀ (l : List Nat) (p : Quad), (∀ a ∈ l, a < 32) → p.Ok →
      Quad.ev θ β (l.foldl (fun acc c => (acc.mul y).add (Quad.const c)) p) =
      l.foldl (fun acc c => acc * Quad.ev θ β y + sym θ c) (Quad.ev θ β p) := by
    intro l
    induction l with
    | nil => intro p _ _; rfl
    | cons a l ih =>
      intro p hl hp
      rw [List.foldl_cons, List.foldl_cons, ih _ (fun x hx => hl x (by simp [hx]))
        ((hp.mul hy).add (Quad.Ok.const (hl a (by simp)))), Quad.ev_add, Quad.ev_mul hθ hβ hp hy,
        Quad.ev_const]
  rw [Quad.poly, this l _ hl (Quad.Ok.const (by norm_num)), Quad.ev_const, sym_zero]
  rfl

end

/-! ## The zeros of the generator -/

theorem generator_zeros : ∀ k ∈ [1, 32, 65, 960, 993, 1024],
    Quad.poly (Quad.xpow k) cashGenerator = Quad.const 0 := by decide +kernel

theorem xpow_order : Quad.xpow 1025 = Quad.const 1 := by decide +kernel

theorem xpow_205 : ((Quad.xpow 205).add (Quad.const 1)).mul ⟨1, 29, 5, 1⟩ = Quad.const 1 := by
  decide +kernel

theorem xpow_25 : ((Quad.xpow 25).add (Quad.const 1)).mul ⟨5, 5, 21, 26⟩ = Quad.const 1 := by
  decide +kernel

section

variable {K : Type} [Field K] [CharP K 2] {θ β : K} (hθ : θ ^ 5 = θ ^ 3 + 1)
  (hβ : β ^ 4 = sym θ 12 * β ^ 3 + sym θ 11 * β ^ 2 + sym θ 12 * β + 1)

include hθ hβ

theorem evalAt_zeros {k : Nat} (hk : k ∈ [1, 32, 65, 960, 993, 1024]) :
    evalAt θ (β ^ k) cashGenerator = 0 := by
  have := evalAt_quad hθ hβ (Quad.Ok.xpow k) cashGenerator (by decide)
  rw [generator_zeros k hk, Quad.ev_const, sym_zero, Quad.ev_xpow hθ hβ] at this
  exact this.symm

theorem beta_pow_ne {k : Nat} {u : Quad} (hu : u.Ok)
    (h : ((Quad.xpow k).add (Quad.const 1)).mul u = Quad.const 1) : β ^ k ≠ 1 := by
  intro he
  have e := congrArg (Quad.ev θ β) h
  rw [Quad.ev_mul hθ hβ ((Quad.Ok.xpow k).add (Quad.Ok.const (by norm_num))) hu, Quad.ev_add,
    Quad.ev_xpow hθ hβ, he, Quad.ev_const, sym_one, CharTwo.add_self_eq_zero, zero_mul] at e
  exact zero_ne_one e

theorem beta_order : orderOf β = 1025 := by
  refine orderOf_eq_of_pow_and_pow_div_prime (by norm_num) ?_ ?_
  · rw [← Quad.ev_xpow hθ hβ, xpow_order, Quad.ev_const, sym_one]
  · intro p hp hd
    have : p = 5 ∨ p = 41 := by
      have h : p ∣ 5 * (5 * 41) := by simpa using hd
      rcases (Nat.Prime.dvd_mul hp).mp h with h | h
      · exact .inl ((Nat.prime_dvd_prime_iff_eq hp (by norm_num)).mp h)
      · rcases (Nat.Prime.dvd_mul hp).mp h with h | h
        · exact .inl ((Nat.prime_dvd_prime_iff_eq hp (by norm_num)).mp h)
        · exact .inr ((Nat.prime_dvd_prime_iff_eq hp (by norm_num)).mp h)
    rcases this with rfl | rfl
    · exact beta_pow_ne hθ hβ (u := ⟨1, 29, 5, 1⟩) (by simp [Quad.Ok]) xpow_205
    · exact beta_pow_ne hθ hβ (u := ⟨5, 5, 21, 26⟩) (by simp [Quad.Ok]) xpow_25

end

/-! ## Few coefficients -/

section

variable {K : Type} [Field K]

/-- Three power sums of at most three distinct numbers vanish only if the weights do. -/
theorem vandermonde_three {ι : Type} [DecidableEq ι] (T : Finset ι) (hT : T.card ≤ 3) (x y : ι → K)
    (hx : Set.InjOn x T) (h0 : ∑ k ∈ T, y k = 0) (h1 : ∑ k ∈ T, y k * x k = 0)
    (h2 : ∑ k ∈ T, y k * x k ^ 2 = 0) : ∀ k ∈ T, y k = 0 := by
  intro k hk
  -- a polynomial of degree two vanishing at all the other numbers
  have hc : (T.erase k).card ≤ 2 := by
    rw [Finset.card_erase_of_mem hk]; omega
  have : ∃ a b c : K, (∀ j ∈ T.erase k, a + b * x j + c * x j ^ 2 = 0) ∧
      a + b * x k + c * x k ^ 2 ≠ 0 := by
    have hne : ∀ j ∈ T.erase k, x k - x j ≠ 0 := by
      intro j hj
      obtain ⟨hj1, hj2⟩ := Finset.mem_erase.mp hj
      exact sub_ne_zero.mpr (fun e => hj1 (hx hk hj2 e).symm)
    rcases Nat.lt_or_ge (T.erase k).card 1 with h | h
    · refine ⟨1, 0, 0, ?_, by simp⟩
      have : T.erase k = ∅ := Finset.card_eq_zero.mp (by omega)
      simp [this]
    · rcases Nat.lt_or_ge (T.erase k).card 2 with h' | h'
      · obtain ⟨j, hj⟩ := Finset.card_eq_one.mp (show (T.erase k).card = 1 by omega)
        refine ⟨-x j, 1, 0, by simp [hj], ?_⟩
        have := hne j (by simp [hj])
        intro e; apply this; linear_combination e
      · obtain ⟨i, j, _, hj⟩ := Finset.card_eq_two.mp (show (T.erase k).card = 2 by omega)
        refine ⟨x i * x j, -(x i + x j), 1, ?_, ?_⟩
        · intro l hl
          rw [hj] at hl
          rcases Finset.mem_insert.mp hl with rfl | hl
          · ring
          · rw [Finset.mem_singleton.mp hl]; ring
        · have n1 := hne i (by simp [hj])
          have n2 := hne j (by simp [hj])
          intro e
          apply mul_ne_zero n1 n2
          linear_combination e
  obtain ⟨a, b, c, hz, hnz⟩ := this
  have e : ∑ j ∈ T, y j * (a + b * x j + c * x j ^ 2) = 0 := by
    have : ∑ j ∈ T, y j * (a + b * x j + c * x j ^ 2) =
        a * ∑ j ∈ T, y j + b * ∑ j ∈ T, y j * x j + c * ∑ j ∈ T, y j * x j ^ 2 := by
      rw [Finset.mul_sum, Finset.mul_sum, Finset.mul_sum, ← Finset.sum_add_distrib,
        ← Finset.sum_add_distrib]
      exact Finset.sum_congr rfl (fun j _ => by ring)
    rw [this, h0, h1, h2]; ring
  rw [← Finset.add_sum_erase T _ hk, Finset.sum_eq_zero (fun j hj => by rw [hz j hj, mul_zero]),
    add_zero] at e
  exact (mul_eq_zero.mp e).resolve_right hnz

/-- The argument of Hartmann and Tzeng. -/
theorem hartmann_tzeng (β : K) (hβ : orderOf β = 1025) (T : Finset Nat) (hT : T.card ≤ 4)
    (hlt : ∀ i ∈ T, i < 1025) (y : Nat → K)
    (h : ∀ k ∈ [1, 32, 65, 960, 993, 1024], ∑ i ∈ T, y i * (β ^ k) ^ i = 0) :
    ∀ i ∈ T, y i = 0 := by
  have hone : β ^ 1025 = 1 := by rw [← hβ]; exact pow_orderOf_eq_one β
  have hβ0 : β ≠ 0 := by
    rintro rfl
    simp at hone
  -- exponents modulo the order
  have hmod : ∀ {a b : Nat}, a % 1025 = b % 1025 → β ^ a = β ^ b := by
    intro a b e
    rw [← pow_mod_orderOf, hβ, e, ← hβ, pow_mod_orderOf]
  have hinj : ∀ {m i j : Nat}, Nat.Coprime m 1025 → i < 1025 → j < 1025 →
      (β ^ m) ^ i = (β ^ m) ^ j → i = j := by
    intro m i j hm hi hj e
    rw [← pow_mul, ← pow_mul, (orderOf_pos_iff.mp (by rw [hβ]; norm_num)).pow_inj_mod, hβ] at e
    have : i ≡ j [MOD 1025] := Nat.ModEq.cancel_left_of_coprime (by rwa [Nat.coprime_comm] at hm) e
    rw [Nat.ModEq, Nat.mod_eq_of_lt hi, Nat.mod_eq_of_lt hj] at this
    exact this
  intro i0 hi0
  -- eliminate `i0`: the others are zero
  have helim : ∀ p ∈ T, ∀ j ∈ T, j ≠ p → y j = 0 := by
    intro p hp j hj hjp
    have hd : ∀ k ∈ T.erase p, ((β ^ 64) ^ k - (β ^ 64) ^ p) ≠ 0 := by
      intro k hk
      obtain ⟨hk1, hk2⟩ := Finset.mem_erase.mp hk
      exact sub_ne_zero.mpr (fun e => hk1 (hinj (by decide) (hlt _ hk2) (hlt _ hp) e))
    -- weights `y k * β ^ k * (β ^ (64 k) - β ^ (64 p))`, numbers `β ^ (992 k)`
    have hsum : ∀ a b : Nat, a ∈ [1, 32, 65, 960, 993, 1024] → b ∈ [1, 32, 65, 960, 993, 1024] →
        ∑ k ∈ T.erase p, y k * ((β ^ b) ^ k - (β ^ 64) ^ p * (β ^ a) ^ k) =
          -(y p * ((β ^ b) ^ p - (β ^ 64) ^ p * (β ^ a) ^ p)) := by
      intro a b ha hb
      have e1 := h a ha
      have e2 := h b hb
      have : ∑ k ∈ T, y k * ((β ^ b) ^ k - (β ^ 64) ^ p * (β ^ a) ^ k) = 0 := by
        have : ∑ k ∈ T, y k * ((β ^ b) ^ k - (β ^ 64) ^ p * (β ^ a) ^ k) =
            ∑ k ∈ T, y k * (β ^ b) ^ k - (β ^ 64) ^ p * ∑ k ∈ T, y k * (β ^ a) ^ k := by
          rw [Finset.mul_sum, ← Finset.sum_sub_distrib]
          exact Finset.sum_congr rfl (fun j _ => by ring)
        rw [this, e1, e2]; ring
      rw [← Finset.add_sum_erase T _ hp] at this
      linear_combination this
    have hpow : ∀ (a b k : Nat), b % 1025 = (a + 64) % 1025 → (β ^ b) ^ k = (β ^ 64) ^ k * (β ^ a) ^ k := by
      intro a b k e
      rw [← mul_pow, ← pow_add, hmod (show b % 1025 = (64 + a) % 1025 by omega)]
    have hz : ∀ a b, a ∈ [1, 32, 65, 960, 993, 1024] → b ∈ [1, 32, 65, 960, 993, 1024] →
        b % 1025 = (a + 64) % 1025 →
        ∑ k ∈ T.erase p, y k * ((β ^ 64) ^ k - (β ^ 64) ^ p) * (β ^ a) ^ k = 0 := by
      intro a b ha hb e
      have := hsum a b ha hb
      rw [hpow a b p e, sub_self, mul_zero, neg_zero] at this
      rw [← this]
      refine Finset.sum_congr rfl (fun k _ => ?_)
      rw [hpow a b k e]; ring
    have z0 := hz 1 65 (by decide) (by decide) (by decide)
    have z1 := hz 993 32 (by decide) (by decide) (by decide)
    have z2 := hz 960 1024 (by decide) (by decide) (by decide)
    have := vandermonde_three (T.erase p) (by rw [Finset.card_erase_of_mem hp]; omega)
      (fun k => (β ^ 992) ^ k) (fun k => y k * ((β ^ 64) ^ k - (β ^ 64) ^ p) * (β ^ 1) ^ k)
      (fun a ha b hb e => hinj (by decide) (hlt a (Finset.mem_of_mem_erase ha))
        (hlt b (Finset.mem_of_mem_erase hb)) e) z0
      (by
        rw [← z1]
        refine Finset.sum_congr rfl (fun k _ => ?_)
        rw [mul_assoc, ← mul_pow, ← pow_add])
      (by
        rw [← z2]
        refine Finset.sum_congr rfl (fun k _ => ?_)
        have e : (β ^ 1) ^ k * ((β ^ 992) ^ k) ^ 2 = (β ^ 960) ^ k := by
          rw [← pow_mul (β ^ 992), mul_comm k 2, pow_mul (β ^ 992), ← mul_pow, ← pow_mul, ← pow_add,
            hmod (show (1 + 992 * 2) % 1025 = 960 % 1025 by decide)]
        rw [mul_assoc, e])
      j (Finset.mem_erase.mpr ⟨hjp, hj⟩)
    have := (mul_eq_zero.mp this).resolve_right (pow_ne_zero _ (pow_ne_zero _ hβ0))
    exact (mul_eq_zero.mp this).resolve_right (hd j (Finset.mem_erase.mpr ⟨hjp, hj⟩))
  -- then `y i0 * β ^ i0` is zero too
  have e := h 1 (by decide)
  rw [← Finset.add_sum_erase T _ hi0, Finset.sum_eq_zero (fun j hj => by
    obtain ⟨g1, g2⟩ := Finset.mem_erase.mp hj
    rw [helim i0 hi0 j g2 g1, zero_mul]), add_zero] at e
  exact (mul_eq_zero.mp e).resolve_right (pow_ne_zero _ (pow_ne_zero _ hβ0))

end

/-! ## The distance of the code -/

theorem exists_field : ∃ θ β : AlgebraicClosure (ZMod 2), θ ^ 5 = θ ^ 3 + 1 ∧
    β ^ 4 = sym θ 12 * β ^ 3 + sym θ 11 * β ^ 2 + sym θ 12 * β + 1 := by
  have h1 := IsAlgClosed.exists_root
    (Polynomial.X ^ 5 - (Polynomial.X ^ 3 + 1) : Polynomial (AlgebraicClosure (ZMod 2))) (by
      have : (Polynomial.X ^ 5 - (Polynomial.X ^ 3 + 1) :
          Polynomial (AlgebraicClosure (ZMod 2))).degree = 5 := by compute_degree!
      rw [this]; norm_num)
  obtain ⟨θ, hθ⟩ := h1
  have h2 := IsAlgClosed.exists_root
    (Polynomial.X ^ 4 - (Polynomial.C (sym θ 12) * Polynomial.X ^ 3 +
      Polynomial.C (sym θ 11) * Polynomial.X ^ 2 + Polynomial.C (sym θ 12) * Polynomial.X + 1) :
      Polynomial (AlgebraicClosure (ZMod 2))) (by
      have : (Polynomial.X ^ 4 - (Polynomial.C (sym θ 12) * Polynomial.X ^ 3 +
        Polynomial.C (sym θ 11) * Polynomial.X ^ 2 + Polynomial.C (sym θ 12) * Polynomial.X + 1) :
          Polynomial (AlgebraicClosure (ZMod 2))).degree = 4 := by compute_degree!
      rw [this]; norm_num)
  obtain ⟨β, hβ⟩ := h2
  refine ⟨θ, β, ?_, ?_⟩
  · simpa [Polynomial.IsRoot, sub_eq_zero] using hθ
  · simpa [Polynomial.IsRoot, sub_eq_zero] using hβ

section

variable {K : Type} [Field K] [CharP K 2]

theorem evalAt_sum (θ r : K) (l : List Nat) :
    evalAt θ r l = ∑ i ∈ Finset.range l.length, sym θ (l.reverse.getD i 0) * r ^ i := by
  induction l with
  | nil => simp [evalAt]
  | cons a l ih =>
    rw [evalAt_cons, ih, List.length_cons, Finset.sum_range_succ, add_comm]
    congr 1
    · refine Finset.sum_congr rfl (fun i hi => ?_)
      have hi := Finset.mem_range.mp hi
      rw [List.reverse_cons, List.getD_append _ _ _ _ (by simpa using hi)]
    · rw [List.reverse_cons, List.getD_append_right _ _ _ _ (by simp)]
      simp

end

theorem card_nonzero (l : List Nat) :
    ((Finset.range l.length).filter (fun i => l.getD i 0 ≠ 0)).card = l.countP (· ≠ 0) := by
  induction l using List.reverseRecOn with
  | nil => rfl
  | append_singleton l a ih =>
    rw [List.length_append, List.length_singleton, Finset.range_add_one, Finset.filter_insert,
      List.countP_append, ← ih]
    have e : (Finset.range l.length).filter (fun i => (l ++ [a]).getD i 0 ≠ 0) =
        (Finset.range l.length).filter (fun i => l.getD i 0 ≠ 0) := by
      refine Finset.filter_congr (fun i hi => ?_)
      rw [List.getD_append _ _ _ _ (Finset.mem_range.mp hi)]
    rw [e, List.getD_append_right _ _ _ _ le_rfl]
    by_cases ha : a = 0
    · simp [ha]
    · rw [if_pos (by simpa using ha), Finset.card_insert_of_notMem (by simp)]
      simp [ha]

/-- A difference of two words of the code with at most four coefficients other than zero, all of them
among the last 1025, is zero. -/
theorem code_distance {v w : List Nat} (hl : v.length = w.length) (hv : CashValid v)
    (hw : CashValid w) (hlt : ∀ a ∈ polyAdd v w, a < 32)
    (hcount : (polyAdd v w).countP (· ≠ 0) ≤ 4)
    (hlast : ∀ i, 1025 ≤ i → (polyAdd v w).reverse.getD i 0 = 0) :
    ∀ a ∈ polyAdd v w, a = 0 := by
  obtain ⟨θ, β, hθ, hβ⟩ := exists_field
  haveI : CharP (AlgebraicClosure (ZMod 2)) 2 := charP_of_injective_algebraMap
    (algebraMap (ZMod 2) (AlgebraicClosure (ZMod 2))).injective 2
  set d := polyAdd v w with hd
  have key := hartmann_tzeng β (beta_order hθ hβ)
    ((Finset.range d.length).filter (fun i => d.reverse.getD i 0 ≠ 0))
    (by
      have := card_nonzero d.reverse
      rw [List.length_reverse, List.countP_reverse] at this
      rw [this]; exact hcount)
    (by
      intro i hi
      by_contra hge
      exact (Finset.mem_filter.mp hi).2 (hlast i (by omega)))
    (fun i => sym θ (d.reverse.getD i 0))
    (by
      intro k hk
      have e := evalAt_valid hθ (β ^ k) (evalAt_zeros hθ hβ hk) hl hv hw
      rw [← hd, evalAt_sum] at e
      rw [← e, Finset.sum_filter]
      refine Finset.sum_congr rfl (fun i _ => ?_)
      by_cases h : d.reverse.getD i 0 = 0
      · rw [if_neg (not_not.mpr h), h, sym_zero, zero_mul]
      · rw [if_pos h])
  intro a ha
  by_contra hne
  obtain ⟨i, hi, he⟩ := List.getElem_of_mem (List.mem_reverse.mpr ha)
  have hg : d.reverse.getD i 0 = a := by rw [List.getD_eq_getElem _ _ hi, he]
  have := key i (Finset.mem_filter.mpr ⟨by simpa using hi, by rw [hg]; exact hne⟩)
  rw [hg] at this
  exact sym_ne_zero hθ (hlt a ha) hne this

end cashaddr

end Bitcoinx
