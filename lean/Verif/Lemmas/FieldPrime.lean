import Verif.Lemmas.Prime

/-! # The characteristic of the field of secp256k1 is prime -/

namespace Bitcoinx

/-- The number of elements of the field over which the curve is defined; libsecp256k1. -/
def FIELD : Nat := 0xfffffffffffffffffffffffffffffffffffffffffffffffffffffffefffffc2f

theorem prime_13331831 : Nat.Prime 13331831 := by norm_num
theorem prime_7240687 : Nat.Prime 7240687 := by norm_num
theorem prime_107590001 : Nat.Prime 107590001 :=
  prime_of 32 _ 3 [2, 2, 2, 2, 5, 5, 5, 5, 7, 29, 53] (by norm_num) (by norm_num) (by norm_num)
    (by norm_num) (by decide +kernel) (by decide +kernel)

theorem prime_173378833005251801 : Nat.Prime 173378833005251801 :=
  prime_of 64 _ 6 [2, 2, 2, 5, 5, 2621, 24809, 13331831] (by norm_num) (by norm_num)
    (by simp only [List.forall_mem_cons, prime_13331831]; norm_num) (by norm_num) (by decide +kernel)
    (by decide +kernel)

theorem prime_22149492674086928081353 : Nat.Prime 22149492674086928081353 :=
  prime_of 128 _ 5 [2, 2, 2, 3, 5323, 173378833005251801] (by norm_num) (by norm_num)
    (by simp only [List.forall_mem_cons, prime_173378833005251801]; norm_num) (by norm_num)
    (by decide +kernel) (by decide +kernel)

theorem prime_132896956044521568488119 : Nat.Prime 132896956044521568488119 :=
  prime_of 128 _ 6 [2, 3, 22149492674086928081353] (by norm_num) (by norm_num)
    (by simp only [List.forall_mem_cons, prime_22149492674086928081353]; norm_num) (by norm_num)
    (by decide +kernel) (by decide +kernel)

theorem prime_255515944373312847190720520512484175977 :
    Nat.Prime 255515944373312847190720520512484175977 :=
  prime_of 128 _ 3 [2, 2, 2, 7, 7, 11, 1627, 2657, 4423, 41201, 96557, 7240687, 107590001]
    (by norm_num) (by norm_num)
    (by simp only [List.forall_mem_cons, prime_7240687, prime_107590001]; norm_num) (by norm_num)
    (by decide +kernel) (by decide +kernel)

theorem prime_205115282021455665897114700593932402728804164701536103180137503955397371 :
    Nat.Prime 205115282021455665897114700593932402728804164701536103180137503955397371 :=
  prime_of 256 _ 10 [2, 3, 5, 29, 29, 31, 7723, 132896956044521568488119,
      255515944373312847190720520512484175977] (by norm_num) (by norm_num)
    (by
      simp only [List.forall_mem_cons, prime_132896956044521568488119,
        prime_255515944373312847190720520512484175977]
      norm_num)
    (by norm_num) (by decide +kernel) (by decide +kernel)

theorem field_prime : Nat.Prime FIELD :=
  prime_of 256 _ 3 [2, 3, 7, 13441,
      205115282021455665897114700593932402728804164701536103180137503955397371]
    (by norm_num [FIELD]) (by norm_num [FIELD])
    (by
      simp only [List.forall_mem_cons,
        prime_205115282021455665897114700593932402728804164701536103180137503955397371]
      norm_num)
    (by norm_num [FIELD]) (by decide +kernel) (by decide +kernel)

instance : Fact FIELD.Prime := ⟨field_prime⟩
instance : NeZero FIELD := ⟨field_prime.pos.ne'⟩

end Bitcoinx
