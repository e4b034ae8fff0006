import Verif.Model.Packing
import Verif.Spec.Bytes
import Mathlib.Tactic.Ring
import Mathlib.Tactic.Linarith
import Mathlib.Tactic.NormNum

namespace Bitcoinx
open Spec

@[simp] theorem leBytes_length (w v : Nat) : (leBytes w v).length = w := by
  induction w generalizing v with
  | zero => rfl
  | succ w ih => simp [leBytes, ih]

@[simp] theorem beBytes_length (w v : Nat) : (beBytes w v).length = w := by simp [beBytes]

theorem le_bytes_to_int_eq (b : Bytes) : le_bytes_to_int b = leValue b := by
  induction b with
  | nil => rfl
  | cons x xs ih => simp [le_bytes_to_int, leValue, ih]

theorem leValue_lt (b : Bytes) : leValue b < 256 ^ b.length := by
  induction b with
  | nil => simp [leValue]
  | cons x xs ih =>
    have := x.toNat_lt
    simp only [leValue, List.length_cons, pow_succ]
    omega

theorem leValue_append (a b : Bytes) : leValue (a ++ b) = leValue a + 256 ^ a.length * leValue b := by
  induction a with
  | nil => simp [leValue]
  | cons x xs ih => simp only [List.cons_append, leValue, ih, List.length_cons, pow_succ]; ring

theorem leValue_reverse (b : Bytes) : leValue b.reverse = beValue b := by
  induction b with
  | nil => rfl
  | cons x xs ih =>
    simp only [List.reverse_cons, leValue_append, ih, beValue, leValue, List.length_reverse]; ring

theorem beValue_reverse (b : Bytes) : beValue b.reverse = leValue b := by
  rw [← leValue_reverse, List.reverse_reverse]

theorem beValue_lt (b : Bytes) : beValue b < 256 ^ b.length := by
  rw [← leValue_reverse]; simpa using leValue_lt b.reverse

theorem be_foldl (b : Bytes) (acc : Nat) :
    b.foldl (fun acc b => acc * 256 + b.toNat) acc = acc * 256 ^ b.length + beValue b := by
  induction b generalizing acc with
  | nil => simp [beValue]
  | cons x xs ih => simp only [List.foldl_cons, ih, beValue, List.length_cons, pow_succ]; ring

theorem be_bytes_to_int_eq (b : Bytes) : be_bytes_to_int b = beValue b := by
  simp [be_bytes_to_int, be_foldl]

theorem leValue_leBytes (w v : Nat) (h : v < 256 ^ w) : leValue (leBytes w v) = v := by
  induction w generalizing v with
  | zero => simp at h; simp [leBytes, leValue, h]
  | succ w ih =>
    have : v / 256 < 256 ^ w := by rw [pow_succ] at h; omega
    simp only [leBytes, leValue, ih _ this]
    simp only [UInt8.toNat_ofNat']
    omega

theorem leValue_leBytes_mod (w v : Nat) : leValue (leBytes w v) = v % 256 ^ w := by
  induction w generalizing v with
  | zero => simp [leBytes, leValue, Nat.mod_one]
  | succ w ih =>
    simp only [leBytes, leValue, ih, UInt8.toNat_ofNat']
    have : v % 256 % 2 ^ 8 = v % 256 := by omega
    rw [this, pow_succ, Nat.mul_comm (256^w) 256, Nat.mod_mul]

theorem leBytes_leValue (b : Bytes) : leBytes b.length (leValue b) = b := by
  induction b with
  | nil => rfl
  | cons x xs ih =>
    have := x.toNat_lt
    simp only [leBytes, leValue, List.length_cons]
    have h1 : (x.toNat + 256 * leValue xs) % 256 = x.toNat := by omega
    have h2 : (x.toNat + 256 * leValue xs) / 256 = leValue xs := by omega
    rw [h1, h2, ih]; simp

theorem beValue_beBytes (w v : Nat) (h : v < 256 ^ w) : beValue (beBytes w v) = v := by
  rw [beBytes, beValue_reverse, leValue_leBytes _ _ h]

theorem beBytes_beValue (b : Bytes) : beBytes b.length (beValue b) = b := by
  have := leBytes_leValue b.reverse
  rw [leValue_reverse, List.length_reverse] at this
  rw [beBytes, this, List.reverse_reverse]

theorem leValue_inj (a b : Bytes) (hl : a.length = b.length) (h : leValue a = leValue b) : a = b := by
  rw [← leBytes_leValue a, ← leBytes_leValue b, hl, h]

theorem beValue_inj (a b : Bytes) (hl : a.length = b.length) (h : beValue a = beValue b) : a = b := by
  rw [← beBytes_beValue a, ← beBytes_beValue b, hl, h]

theorem beValue_append (a b : Bytes) : beValue (a ++ b) = beValue a * 256 ^ b.length + beValue b := by
  induction a with
  | nil => simp [beValue]
  | cons x xs ih => simp only [List.cons_append, beValue, ih, List.length_append, pow_add]; ring

theorem lt_two_pow_bitLength (n : Nat) : n < 2 ^ bitLength n := by
  unfold bitLength
  split
  · next h => subst h; simp
  · exact Nat.lt_log2_self

theorem bitLength_le (n k : Nat) : bitLength n ≤ k ↔ n < 2 ^ k := by
  unfold bitLength
  split
  · next h => subst h; simp
  · next h =>
    rw [Nat.add_one_le_iff, Nat.log2_lt h]

theorem byteSize_le (v : Int) (k : Nat) : byteSize v ≤ k ↔ v.natAbs < 256 ^ k := by
  have : (256:Nat) ^ k = 2 ^ (8 * k) := by rw [pow_mul]; norm_num
  rw [this, ← bitLength_le, byteSize]
  omega

theorem lt_byteSize (v : Int) : v.natAbs < 256 ^ byteSize v := (byteSize_le v _).1 (Nat.le_refl _)

end Bitcoinx
