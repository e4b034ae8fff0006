import Verif.Spec.Keys
import Verif.Lemmas.Prime
import Verif.Lemmas.Packing
import Verif.Lemmas.Text

/-! # Lemmas about keys -/

namespace Bitcoinx
open Spec

theorem seckey_verify_iff (s : Bytes) :
    Secp.seckey_verify s = true ↔ 0 < be_bytes_to_int s ∧ be_bytes_to_int s < CURVE_ORDER := by
  simp [Secp.seckey_verify]

theorem PrivateKey.new_ok (k : PrivateKey) (h : PrivValid k) :
    PrivateKey.new k.secret k.compressed k.coin = .ok k := by
  have c1 : ¬ k.secret.length ≠ KEY_SIZE := not_not.2 h.1
  have c2 : ¬ ¬ Secp.seckey_verify k.secret = true := not_not.2 ((seckey_verify_iff _).2 h.2)
  simp only [PrivateKey.new, c1, c2, if_false]

theorem PrivateKey.new_eq_ok {s : Bytes} {c : Bool} {coin : Coin} {k : PrivateKey} :
    PrivateKey.new s c coin = .ok k ↔ PrivValid k ∧ k = { secret := s, compressed := c, coin := coin } := by
  constructor
  · intro h
    unfold PrivateKey.new at h
    split at h
    · cases h
    · next c1 =>
      split at h
      · cases h
      · next c2 =>
        cases h
        exact ⟨⟨not_not.1 c1, (seckey_verify_iff _).1 (not_not.1 c2)⟩, rfl⟩
  · rintro ⟨h, rfl⟩
    exact PrivateKey.new_ok _ h

theorem PrivateKey.new_error {s : Bytes} {c : Bool} {coin : Coin} {e : Err}
    (h : PrivateKey.new s c coin = .error e) : e = .valueError := by
  unfold PrivateKey.new at h
  split at h
  · cases h; rfl
  · split at h <;> cases h
    rfl

theorem PrivateKey.public_key_ok (L : Secp) (k : PrivateKey) (h : PrivValid k) :
    k.public_key L = .ok { point := be_bytes_to_int k.secret • L.gen, compressed := k.compressed, coin := k.coin } := by
  simp only [PrivateKey.public_key, Secp.pubkey_create, (seckey_verify_iff _).2 h.2, if_true]

theorem Secp.pub_ne (L : Secp) (k : PrivateKey) (h : PrivValid k) : be_bytes_to_int k.secret • L.gen ≠ 0 :=
  L.smul_gen_ne _ h.2.1 h.2.2 _ L.gen_ne

theorem beBytes32 (r : Nat) (h : r < CURVE_ORDER) : be_bytes_to_int (beBytes 32 r) = r := by
  rw [be_bytes_to_int_eq, beValue_beBytes _ _ (h.trans curve_order_lt)]

theorem to_32_bytes_ok (v : Bytes) (h : v.length = 32) : to_32_bytes v = .ok v := by
  simp [to_32_bytes, h]

theorem to_32_bytes_err (v : Bytes) (h : v.length ≠ 32) : to_32_bytes v = .error .valueError := by
  simp [to_32_bytes, h]

/-! ### The length of base-58 text -/

theorem base58_encode_length (b : Bytes) :
    (base58_encode b).length = leading 0 b + (Nat.digits 58 (beValue b)).length := by
  rw [base58_encode_eq]; simp

theorem leading_le {α : Type} [DecidableEq α] (x : α) (l : List α) : leading x l ≤ l.length := by
  induction l with
  | nil => simp [leading]
  | cons y ys ih => simp only [leading]; split <;> simp <;> omega

theorem beValue_leading (b : Bytes) : beValue b < 256 ^ (b.length - leading 0 b) := by
  obtain ⟨l, h1, h2⟩ := eq_leading_append 0 b
  have h3 : beValue b = beValue l := by
    conv_lhs => rw [h1]
    exact beValue_zeros_append _ _
  have h4 : b.length - leading 0 b = l.length := by
    have := congrArg List.length h1
    simp only [List.length_append, List.length_replicate] at this
    omega
  rw [h3, h4]
  exact beValue_lt l

theorem pow256_le (n : Nat) : 256 ^ n ≤ 58 ^ ((7 * n + 4) / 5) := by
  have h1 : (256 ^ n) ^ 5 ≤ (58 ^ ((7 * n + 4) / 5)) ^ 5 := by
    calc (256 ^ n) ^ 5 = (256 ^ 5) ^ n := by rw [← pow_mul, ← pow_mul, Nat.mul_comm]
      _ ≤ (58 ^ 7) ^ n := Nat.pow_le_pow_left (by norm_num) n
      _ = 58 ^ (7 * n) := by rw [← pow_mul]
      _ ≤ 58 ^ ((7 * n + 4) / 5 * 5) := Nat.pow_le_pow_right (by norm_num) (by omega)
      _ = (58 ^ ((7 * n + 4) / 5)) ^ 5 := by rw [pow_mul]
  exact le_of_pow_le_pow_left₀ (by norm_num) (Nat.zero_le _) h1

/-- Base-58 text is at most 7/5 as long as the bytes. -/
theorem base58_length_le (b : Bytes) : (base58_encode b).length ≤ (7 * b.length + 4) / 5 := by
  rw [base58_encode_length]
  have h1 := leading_le 0 b
  have h2 : (Nat.digits 58 (beValue b)).length ≤ (7 * (b.length - leading 0 b) + 4) / 5 :=
    (Nat.digits_length_le_iff (by norm_num) _).2 (lt_of_lt_of_le (beValue_leading b) (pow256_le _))
  omega

/-- A lower bound on the length of base-58 text. -/
theorem base58_lt_length (b : Bytes) (k : Nat) (h : 58 ^ k ≤ beValue b) : k < (base58_encode b).length := by
  rw [base58_encode_length]
  have := (Nat.lt_digits_length_iff (b := 58) (by norm_num) (k := k) (beValue b)).2 h
  omega

end Bitcoinx
