import Mathlib.NumberTheory.LucasPrimality
import Mathlib.Tactic.NormNum.Prime
import Mathlib.GroupTheory.OrderOfElement
import Mathlib.Tactic.Ring
import Verif.Model.Secp

/-! # The order of the curve is prime

By Lucas' criterion, recursively.  It follows that every point but zero has this order. -/

namespace Bitcoinx

/-- `a ^ e % m` by squaring; `k` bounds the number of bits of `e`. -/
def powMod (m a : Nat) : Nat → Nat → Nat
  | 0, _ => 1 % m
  | k + 1, e =>
    if e % 2 = 1 then a * powMod m (a * a % m) k (e / 2) % m else powMod m (a * a % m) k (e / 2)

theorem powMod_eq (m : Nat) : ∀ k a e, e < 2 ^ k → powMod m a k e = a ^ e % m := by
  intro k
  induction k with
  | zero =>
    intro a e h
    have : e = 0 := by simpa using h
    subst this
    simp [powMod]
  | succ k ih =>
    intro a e h
    have h1 : e / 2 < 2 ^ k := by rw [pow_succ] at h; omega
    have h2 : (a * a % m) ^ (e / 2) % m = a ^ (2 * (e / 2)) % m := by
      rw [← Nat.pow_mod, pow_mul, pow_two]
    rw [powMod]
    rw [ih _ _ h1]
    rcases Nat.mod_two_eq_zero_or_one e with he | he
    · have : 2 * (e / 2) = e := by omega
      rw [if_neg (by omega), h2, this]
    · have : 2 * (e / 2) + 1 = e := by omega
      rw [if_pos he, Nat.mul_mod, Nat.mod_mod, h2, ← Nat.mul_mod, ← pow_succ', this]

/-- Lucas' criterion with a complete factorization. -/
theorem prime_of (k p a : Nat) (fs : List Nat) (hp : 1 < p) (hk : p ≤ 2 ^ k) (hf : ∀ q ∈ fs, q.Prime)
    (hprod : fs.prod = p - 1) (h1 : powMod p a k (p - 1) = 1)
    (h2 : ∀ q ∈ fs, powMod p a k ((p - 1) / q) ≠ 1) : p.Prime := by
  have key : ∀ e, e < 2 ^ k → (((a : ZMod p) ^ e = 1) ↔ powMod p a k e = 1) := by
    intro e he
    rw [powMod_eq _ _ _ _ he, ← Nat.cast_pow, ← Nat.cast_one, ZMod.natCast_eq_natCast_iff, Nat.ModEq,
      Nat.mod_eq_of_lt hp]
  refine lucas_primality p (a : ZMod p) ((key _ (by omega)).2 h1) (fun q hq hd => ?_)
  rw [← hprod, hq.prime.dvd_prod_iff] at hd
  obtain ⟨r, hr, hqr⟩ := hd
  have : q = r := (Nat.prime_dvd_prime_iff_eq hq (hf r hr)).1 hqr
  subst this
  intro h
  refine h2 q hr ((key _ ?_).1 h)
  have := Nat.div_le_self (p - 1) q
  omega

theorem prime_44706919 : Nat.Prime 44706919 := by norm_num
theorem prime_4681609 : Nat.Prime 4681609 := by norm_num
theorem prime_1627771 : Nat.Prime 1627771 := by norm_num
theorem prime_545358713 : Nat.Prime 545358713 :=
  prime_of 32 _ 5 [2, 2, 2, 41, 59, 28181] (by norm_num) (by norm_num) (by norm_num) (by norm_num)
    (by decide +kernel) (by decide +kernel)

theorem prime_297159362677 : Nat.Prime 297159362677 :=
  prime_of 64 _ 2 [2, 2, 3, 3, 11, 461, 1627771] (by norm_num) (by norm_num)
    (by simp only [List.forall_mem_cons, prime_1627771]; norm_num) (by norm_num) (by decide +kernel)
    (by decide +kernel)

theorem prime_174723607534414371449 : Nat.Prime 174723607534414371449 :=
  prime_of 128 _ 3 [2, 2, 2, 17, 59, 4051, 120233, 44706919] (by norm_num) (by norm_num)
    (by simp only [List.forall_mem_cons, prime_44706919]; norm_num) (by norm_num) (by decide +kernel)
    (by decide +kernel)

theorem prime_107361793816595537 : Nat.Prime 107361793816595537 :=
  prime_of 128 _ 3 [2, 2, 2, 2, 16699, 85831, 4681609] (by norm_num) (by norm_num)
    (by simp only [List.forall_mem_cons, prime_4681609]; norm_num) (by norm_num) (by decide +kernel)
    (by decide +kernel)

theorem prime_29047611873442575647497758179 : Nat.Prime 29047611873442575647497758179 :=
  prime_of 128 _ 2 [2, 293, 305873, 545358713, 297159362677] (by norm_num) (by norm_num)
    (by simp only [List.forall_mem_cons, prime_545358713, prime_297159362677]; norm_num) (by norm_num)
    (by decide +kernel) (by decide +kernel)

theorem prime_341948486974166000522343609283189 : Nat.Prime 341948486974166000522343609283189 :=
  prime_of 128 _ 2 [2, 2, 3, 3, 3, 109, 29047611873442575647497758179] (by norm_num) (by norm_num)
    (by simp only [List.forall_mem_cons, prime_29047611873442575647497758179]; norm_num) (by norm_num)
    (by decide +kernel) (by decide +kernel)

theorem curve_order_prime : Nat.Prime CURVE_ORDER :=
  prime_of 256 _ 7 [2, 2, 2, 2, 2, 2, 3, 149, 631, 107361793816595537, 174723607534414371449,
      341948486974166000522343609283189]
    (by norm_num [CURVE_ORDER]) (by norm_num [CURVE_ORDER])
    (by
      simp only [List.forall_mem_cons, prime_107361793816595537, prime_174723607534414371449,
        prime_341948486974166000522343609283189]
      norm_num)
    (by norm_num [CURVE_ORDER]) (by decide +kernel) (by decide +kernel)

theorem curve_order_pos : 0 < CURVE_ORDER := curve_order_prime.pos

theorem curve_order_lt : CURVE_ORDER < 256 ^ 32 := by decide +kernel

namespace Secp

/-- Every point but zero has the curve's order. -/
theorem smul_eq_zero (L : Secp) (p : L.Point) (hp : p ≠ 0) (m : Nat) : m • p = 0 ↔ CURVE_ORDER ∣ m := by
  have h1 : addOrderOf p = CURVE_ORDER := by
    rcases (Nat.dvd_prime curve_order_prime).1 (addOrderOf_dvd_of_nsmul_eq_zero (L.torsion p)) with h | h
    · exact absurd (AddMonoid.addOrderOf_eq_one_iff.1 h) hp
    · exact h
  rw [← h1, addOrderOf_dvd_iff_nsmul_eq_zero]

/-- Multiples depend on the factor modulo the order only. -/
theorem smul_mod (L : Secp) (p : L.Point) (m : Nat) : (m % CURVE_ORDER) • p = m • p := by
  conv_rhs => rw [← Nat.mod_add_div m CURVE_ORDER]
  rw [add_nsmul, mul_comm, mul_nsmul', L.torsion, smul_zero, add_zero]

theorem smul_gen_ne (L : Secp) (m : Nat) (h0 : 0 < m) (h1 : m < CURVE_ORDER) (p : L.Point) (hp : p ≠ 0) :
    m • p ≠ 0 := by
  rw [ne_eq, L.smul_eq_zero p hp]
  exact fun h => absurd (Nat.le_of_dvd h0 h) (by omega)

end Secp

end Bitcoinx
