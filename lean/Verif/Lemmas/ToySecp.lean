import Mathlib.Data.ZMod.Basic
import Verif.Lemmas.Prime
import Verif.Lemmas.Misc

/-! # An instance of the library's interface

The integers modulo the curve's order, with an obviously insecure signature scheme that nevertheless
satisfies all the laws of `Secp`.  It shows that the laws can be satisfied together. -/

namespace Bitcoinx

instance : NeZero CURVE_ORDER := ⟨curve_order_pos.ne'⟩
instance : Fact (1 < CURVE_ORDER) := ⟨curve_order_prime.one_lt⟩

abbrev ToyPoint := ZMod CURVE_ORDER

def toySerialize (c : Bool) (p : ToyPoint) : Bytes :=
  if c then 2 :: beBytes 32 p.val else 4 :: (beBytes 32 p.val ++ beBytes 32 0)

def toyParse (b : Bytes) : Option ToyPoint :=
  let p : ToyPoint := (be_bytes_to_int ((b.drop 1).take 32) : Nat)
  if p ≠ 0 ∧ (b = toySerialize true p ∨ b = toySerialize false p) then some p else none

def toySign (d : Bytes) : Bytes := beBytes 32 (be_bytes_to_int d) ++ beBytes 32 1

theorem toySerialize_length (c : Bool) (p : ToyPoint) : (toySerialize c p).length = if c then 33 else 65 := by
  cases c <;> simp [toySerialize]

theorem toy_val (p : ToyPoint) : p.val < 256 ^ 32 := (ZMod.val_lt p).trans curve_order_lt

theorem toyParse_serialize (c : Bool) (p : ToyPoint) (hp : p ≠ 0) : toyParse (toySerialize c p) = some p := by
  have h : ((be_bytes_to_int (((toySerialize c p).drop 1).take 32) : Nat) : ToyPoint) = p := by
    have h1 : ((toySerialize c p).drop 1).take 32 = beBytes 32 p.val := by
      cases c
      · simp only [toySerialize, Bool.false_eq_true, if_false, List.drop_succ_cons, List.drop_zero]
        rw [List.take_append_of_le_length (by simp), List.take_of_length_le (by simp)]
      · simp only [toySerialize, if_true, List.drop_succ_cons, List.drop_zero]
        rw [List.take_of_length_le (by simp)]
    rw [h1, be_bytes_to_int_eq, beValue_beBytes _ _ (toy_val p), ZMod.natCast_zmod_val]
  unfold toyParse
  simp only [h, ne_eq, hp, not_false_eq_true, true_and]
  rw [if_pos]
  cases c
  · exact .inr rfl
  · exact .inl rfl

theorem toyParse_spec (b : Bytes) (p : ToyPoint) (h : toyParse b = some p) :
    p ≠ 0 ∧ (b = toySerialize true p ∨ b = toySerialize false p) := by
  unfold toyParse at h
  simp only at h
  split at h
  · next hc => rw [← Option.some.inj h]; exact hc
  · cases h

theorem toyCompact (n : Nat) (h : n < CURVE_ORDER) (b : Bytes) :
    be_bytes_to_int ((beBytes 32 n ++ b).take 32) = n := by
  rw [List.take_append_of_le_length (by simp), List.take_of_length_le (by simp), be_bytes_to_int_eq,
    beValue_beBytes _ _ (h.trans curve_order_lt)]

theorem toy_smul (n : Nat) : n • (1 : ToyPoint) = n := by simp

theorem toy_ne (n : Nat) (h0 : 0 < n) (h1 : n < CURVE_ORDER) : (n : ToyPoint) ≠ 0 := by
  rw [ne_eq, ZMod.natCast_eq_zero_iff]
  exact fun h => absurd (Nat.le_of_dvd h0 h) (by omega)

/-- The instance. -/
def toySecp : Secp where
  Point := ToyPoint
  gen := 1
  gen_ne := one_ne_zero
  torsion p := by rw [nsmul_eq_mul, ZMod.natCast_self, zero_mul]
  serialize := toySerialize
  parse := toyParse
  serialize_length := toySerialize_length
  serialize_head _ := rfl
  parse_serialize := toyParse_serialize
  parse_ne b p h := (toyParse_spec b p h).1
  parse_length b p h := by
    rcases (toyParse_spec b p h).2 with h | h <;> rw [h, toySerialize_length] <;> simp
  parse_compressed b p h hl := by
    rcases (toyParse_spec b p h).2 with h | h
    · exact h
    · rw [h, toySerialize_length] at hl; simp at hl
  parse_uncompressed b p h hl _ := by
    rcases (toyParse_spec b p h).2 with h | h
    · rw [h, toySerialize_length] at hl; simp at hl
    · exact h
  parse_der b :=
    let s := b.drop 8
    if b.length = 72 ∧ be_bytes_to_int (s.take 32) < CURVE_ORDER ∧ be_bytes_to_int (s.drop 32) < CURVE_ORDER
    then some s else none
  serialize_der s := zeros 8 ++ s.take 64
  sign _ d := toySign d
  sign_recoverable _ d := (toySign d, 0)
  verify s _ p := decide (p = (be_bytes_to_int (s.take 32) : Nat))
  recover s _ _ :=
    let p : ToyPoint := (be_bytes_to_int (s.take 32) : Nat)
    if p = 0 then none else some p
  parse_der_compact b s h := by
    simp only at h
    split at h
    · next hc =>
      rw [← Option.some.inj h]
      exact ⟨by rw [List.length_drop]; omega, hc.2⟩
    · cases h
  parse_der_length b s h := by
    simp only at h
    split at h
    · omega
    · cases h
  parse_serialize_der s h1 h2 h3 := by
    have e : (zeros 8 ++ s.take 64).drop 8 = s := by
      rw [List.take_of_length_le (by omega)]
      exact List.drop_left' (by simp [zeros])
    have l : (zeros 8 ++ s.take 64).length = 72 := by simp [zeros, h1]
    simp only [e, l, h2, h3, and_self, if_true]
  serialize_der_length s := by
    simp only [zeros, List.length_append, List.length_replicate, List.length_take]
    omega
  sign_valid m d _ _ h2 := by
    have e1 := toyCompact _ h2 (beBytes 32 1)
    have e2 : be_bytes_to_int ((toySign d).drop 32) = 1 := by
      have : (toySign d).drop 32 = beBytes 32 1 := List.drop_left' (by simp)
      rw [this, be_bytes_to_int_eq, beValue_beBytes _ _ (by norm_num)]
    refine ⟨by simp [toySign], ?_, ?_, ?_⟩
    · rw [toySign, e1]; exact h2
    · rw [e2]; exact curve_order_prime.one_lt
    · rw [decide_eq_true_eq, toySign, e1]
      exact toy_smul _
  sign_recoverable_valid m d _ h1 h2 := by
    have e1 := toyCompact _ h2 (beBytes 32 1)
    refine ⟨rfl, by norm_num, ?_⟩
    simp only [toySign, e1, toy_ne _ h1 h2, if_false]
    exact congrArg some (toy_smul _).symm
  recover_ne s r m p h := by
    simp only at h
    split at h
    · cases h
    · next hc => rw [← Option.some.inj h]; exact hc

end Bitcoinx
