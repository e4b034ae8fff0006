import Verif.Spec.Script
import Verif.Lemmas.Packing
import Verif.Lemmas.Text

/-! # Lemmas about scripts -/

namespace Bitcoinx
open Spec

theorem pack_byte_nat {n : Nat} (h : n < 256) : pack_byte (n : Int) = .ok [UInt8.ofNat n] := by
  rw [pack_byte, packU_ok 1 n (by simpa using h)]
  simp [leBytes, Nat.mod_eq_of_lt h]

theorem toNat_ofNat' {n : Nat} (h : n < 256) : (UInt8.ofNat n).toNat = n := by
  rw [UInt8.toNat_ofNat']; exact Nat.mod_eq_of_lt h

namespace Script

/-- The encodings are recognized. -/
theorem next_op_of_encodes {e : Bytes} {x : Op} (h : Encodes e x) (rest : Bytes) :
    ∃ op tl, e ++ rest = op :: tl ∧ next_op op tl = .ok (x, rest) := by
  have take : ∀ (l d : Bytes), (l ++ d ++ rest).take l.length = l := by intro l d; simp [List.append_assoc]
  have drop : ∀ (l d : Bytes), (l ++ d ++ rest).drop l.length = d ++ rest := by
    intro l d; simp [List.append_assoc]
  cases h with
  | code c hc =>
    refine ⟨c, rest, rfl, ?_⟩
    rcases hc with hc | hc
    · have : c > OP_16 := by
        show OP_16.toNat < c.toNat
        simpa [OP_16] using hc
      simp only [next_op, this, if_true]
    · have : c = 0x50 := UInt8.toNat_inj.1 hc
      subst this
      rfl
  | short n d hn hd =>
    refine ⟨n, d ++ rest, rfl, ?_⟩
    have h1 : ¬ n > OP_16 := by
      show ¬ OP_16.toNat < n.toNat
      have : OP_16.toNat = 0x60 := rfl
      omega
    have h2 : n ≤ OP_PUSHDATA4 := by
      show n.toNat ≤ OP_PUSHDATA4.toNat
      have : OP_PUSHDATA4.toNat = 0x4e := rfl
      omega
    have h3 : n < OP_PUSHDATA1 := by
      show n.toNat < OP_PUSHDATA1.toNat
      have : OP_PUSHDATA1.toNat = 0x4c := rfl
      omega
    simp [next_op, h1, h2, push_length, h3, hn]
  | pushdata1 l d hl hv =>
    refine ⟨0x4c, l ++ d ++ rest, rfl, ?_⟩
    match l, hl with
    | [b], _ =>
      simp only [leValue, Nat.mul_zero, Nat.add_zero] at hv
      have h1 : ¬ (0x4c : UInt8) > OP_16 := by decide
      have h2 : (0x4c : UInt8) ≤ OP_PUSHDATA4 := by decide
      have h3 : ¬ (0x4c : UInt8) < OP_PUSHDATA1 := by decide
      have h4 : (0x4c : UInt8) = OP_PUSHDATA1 := by decide
      have hp : push_length 0x4c ([b] ++ d ++ rest) = .ok (d.length, d ++ rest) := by
        simp only [push_length, h3, if_false, ← h4, if_true, List.cons_append, List.nil_append, hv]
        rfl
      simp only [next_op, h1, if_false, h2, if_true, hp]
      simp
  | pushdata2 l d hl hv =>
    refine ⟨0x4d, l ++ d ++ rest, rfl, ?_⟩
    have h1 : ¬ (0x4d : UInt8) > OP_16 := by decide
    have h2 : (0x4d : UInt8) ≤ OP_PUSHDATA4 := by decide
    have h3 : ¬ (0x4d : UInt8) < OP_PUSHDATA1 := by decide
    have h4 : ¬ (0x4d : UInt8) = OP_PUSHDATA1 := by decide
    have h5 : (0x4d : UInt8) = OP_PUSHDATA2 := by decide
    have e1 := take l d
    have e2 := drop l d
    rw [hl] at e1 e2
    have hu : unpack_le_uint16 ((l ++ d ++ rest).take 2) = .ok (d.length : Int) := by
      rw [e1, unpack_le_uint16, unpackU, if_pos hl, le_bytes_to_int_eq, hv]
    simp only [next_op, h1, if_false, h2, if_true, push_length, h3, h4, ← h5, hu, ok_bind', pure_ok', e2]
    simp
  | pushdata4 l d hl hv =>
    refine ⟨0x4e, l ++ d ++ rest, rfl, ?_⟩
    have h1 : ¬ (0x4e : UInt8) > OP_16 := by decide
    have h2 : (0x4e : UInt8) ≤ OP_PUSHDATA4 := by decide
    have h3 : ¬ (0x4e : UInt8) < OP_PUSHDATA1 := by decide
    have h4 : ¬ (0x4e : UInt8) = OP_PUSHDATA1 := by decide
    have h5 : ¬ (0x4e : UInt8) = OP_PUSHDATA2 := by decide
    have e1 := take l d
    have e2 := drop l d
    rw [hl] at e1 e2
    have hu : unpack_le_uint32 ((l ++ d ++ rest).take 4) = .ok (d.length : Int) := by
      rw [e1, unpack_le_uint32, unpackU, if_pos hl, le_bytes_to_int_eq, hv]
    simp only [next_op, h1, if_false, h2, if_true, push_length, h3, h4, h5, hu, ok_bind', pure_ok', e2]
    simp
  | small c b h1 h2 h3 =>
    refine ⟨c, rest, rfl, ?_⟩
    have h4 : ¬ c > OP_16 := by
      show ¬ OP_16.toNat < c.toNat
      have : OP_16.toNat = 0x60 := rfl
      omega
    have h5 : ¬ c ≤ OP_PUSHDATA4 := by
      show ¬ c.toNat ≤ OP_PUSHDATA4.toNat
      have : OP_PUSHDATA4.toNat = 0x4e := rfl
      omega
    have h6 : c ≥ OP_1 := by
      show OP_1.toNat ≤ c.toNat
      have : OP_1.toNat = 0x51 := rfl
      omega
    have h7 : (c.toNat : Int) - OP_1.toNat + 1 = (b.toNat : Int) := by
      have : OP_1.toNat = 0x51 := rfl
      omega
    have h8 : UInt8.ofNat b.toNat = b := by simp
    simp only [next_op, h4, h5, h6, if_false, if_true, h7, pack_byte_nat (UInt8.toNat_lt b), ok_bind',
      pure_ok', h8]
  | negate => exact ⟨0x4f, rest, rfl, rfl⟩

/-- Only encodings are recognized. -/
theorem encodes_of_next_op {op : UInt8} {tl rest : Bytes} {x : Op} (h : next_op op tl = .ok (x, rest)) :
    ∃ e, op :: tl = e ++ rest ∧ Encodes e x := by
  unfold next_op at h
  split at h
  · next h1 =>
    cases h
    exact ⟨[op], rfl, .code op (.inl h1)⟩
  · split at h
    · next h1 h2 =>
      have h2' : op.toNat ≤ 0x4e := h2
      cases hp : push_length op tl with
      | error e => rw [hp] at h; cases h
      | ok y =>
        obtain ⟨dlen, r⟩ := y
        rw [hp] at h
        simp only at h
        split at h
        · next hlen =>
          cases h
          unfold push_length at hp
          split at hp
          · next h3 =>
            have h3' : op.toNat < 0x4c := h3
            cases hp
            refine ⟨op :: tl.take op.toNat, by simp, .short _ _ hlen.symm (by omega)⟩
          · next h3 =>
            have h3' : ¬ op.toNat < 0x4c := h3
            split at hp
            · next h4 =>
              subst h4
              match tl, hp with
              | b :: tl, hp =>
                simp only [Except.ok.injEq, Prod.mk.injEq] at hp
                obtain ⟨rfl, rfl⟩ := hp
                refine ⟨0x4c :: ([b] ++ tl.take b.toNat), ?_, .pushdata1 _ _ rfl ?_⟩
                · simp [OP_PUSHDATA1]
                · rw [hlen]; simp [leValue]
            · next h4 =>
              have h4' : op.toNat ≠ 0x4c := fun hc => h4 (UInt8.toNat_inj.1 hc)
              split at hp
              · next h5 =>
                subst h5
                rw [bind_eq_ok] at hp
                obtain ⟨n, hn, hp⟩ := hp
                cases hp
                unfold unpack_le_uint16 unpackU at hn
                split at hn
                · next hl =>
                  cases hn
                  refine ⟨0x4d :: (tl.take 2 ++ (tl.drop 2).take (le_bytes_to_int (tl.take 2))), ?_,
                    .pushdata2 _ _ hl ?_⟩
                  · simp [OP_PUSHDATA2]
                  · rw [Int.toNat_natCast] at hlen
                    rw [hlen, le_bytes_to_int_eq]
                · cases hn
              · next h5 =>
                have h5' : op.toNat ≠ 0x4d := fun hc => h5 (UInt8.toNat_inj.1 hc)
                rw [bind_eq_ok] at hp
                obtain ⟨n, hn, hp⟩ := hp
                cases hp
                unfold unpack_le_uint32 unpackU at hn
                split at hn
                · next hl =>
                  cases hn
                  have : op = 0x4e := UInt8.toNat_inj.1 (by show op.toNat = 0x4e; omega)
                  subst this
                  refine ⟨0x4e :: (tl.take 4 ++ (tl.drop 4).take (le_bytes_to_int (tl.take 4))), ?_,
                    .pushdata4 _ _ hl ?_⟩
                  · simp
                  · rw [Int.toNat_natCast] at hlen
                    rw [hlen, le_bytes_to_int_eq]
                · cases hn
        · cases h
    · next h1 h2 =>
      have h1' : ¬ 0x60 < op.toNat := h1
      have h2' : ¬ op.toNat ≤ 0x4e := h2
      split at h
      · next h3 =>
        have h3' : 0x51 ≤ op.toNat := h3
        have e : (op.toNat : Int) - OP_1.toNat + 1 = ((op.toNat - 0x50 : Nat) : Int) := by
          have : OP_1.toNat = 0x51 := rfl
          omega
        rw [e, pack_byte_nat (by omega)] at h
        cases h
        have hb := toNat_ofNat' (n := op.toNat - 0x50) (by omega)
        exact ⟨[op], rfl, .small _ _ (by omega) (by omega) (by omega)⟩
      · next h3 =>
        have h3' : ¬ 0x51 ≤ op.toNat := h3
        split at h
        · next h4 =>
          cases h
          exact ⟨[op], rfl, by rw [h4]; exact .negate⟩
        · next h4 =>
          have h4' : op.toNat ≠ 0x4f := fun hc => h4 (UInt8.toNat_inj.1 hc)
          cases h
          exact ⟨[op], rfl, .code op (.inr (by omega))⟩

theorem next_op_error {op : UInt8} {tl : Bytes} {e : Err} (h : next_op op tl = .error e) :
    e = .truncatedScriptError := by
  unfold next_op at h
  split at h
  · cases h
  · split at h
    · cases hp : push_length op tl with
      | error e' => rw [hp] at h; cases h; rfl
      | ok y =>
        rw [hp] at h
        simp only at h
        split at h
        · cases h
        · cases h; rfl
    · next h1 h2 =>
      have h1' : ¬ 0x60 < op.toNat := h1
      split at h
      · next h3 =>
        have h3' : 0x51 ≤ op.toNat := h3
        have e : (op.toNat : Int) - OP_1.toNat + 1 = ((op.toNat - 0x50 : Nat) : Int) := by
          have : OP_1.toNat = 0x51 := rfl
          omega
        rw [e, pack_byte_nat (by omega)] at h
        cases h
      · split at h <;> cases h

theorem Spec.Encodes.length_pos {e : Bytes} {x : Op} (h : Encodes e x) : 0 < e.length := by
  cases h <;> simp

theorem next_op_shorter {op : UInt8} {tl rest : Bytes} {x : Op} (h : next_op op tl = .ok (x, rest)) :
    rest.length ≤ tl.length := by
  obtain ⟨e, h1, h2⟩ := encodes_of_next_op h
  have := congrArg List.length h1
  have := Spec.Encodes.length_pos h2
  simp at *
  omega

theorem ops_loop_fuel : ∀ (f g : Nat) (s : Bytes), s.length ≤ f → s.length ≤ g →
    ops_loop f s = ops_loop g s := by
  intro f
  induction f with
  | zero =>
    intro g s hf hg
    have : s = [] := List.length_eq_zero_iff.1 (by omega)
    subst this
    cases g <;> rfl
  | succ f ih =>
    intro g s hf hg
    match s, g with
    | [], 0 => rfl
    | [], g + 1 => rfl
    | op :: tl, 0 => simp at hg
    | op :: tl, g + 1 =>
      simp only [ops_loop]
      cases hn : next_op op tl with
      | error e => rfl
      | ok y =>
        obtain ⟨x, rest⟩ := y
        have := next_op_shorter hn
        simp only [List.length_cons] at hf hg
        simp only [ih g rest (by omega) (by omega)]

theorem ops_nil : ops [] = ([], .ok ()) := rfl

theorem ops_cons (op : UInt8) (tl : Bytes) : ops (op :: tl) =
    match next_op op tl with
    | .error e => ([], .error e)
    | .ok (x, rest) => (x :: (ops rest).1, (ops rest).2) := by
  unfold ops
  simp only [List.length_cons, ops_loop]
  cases hn : next_op op tl with
  | error e => rfl
  | ok y =>
    obtain ⟨x, rest⟩ := y
    simp only [ops_loop_fuel tl.length rest.length rest (next_op_shorter hn) (le_refl _)]

/-- An encoded operation followed by anything. -/
theorem ops_encodes {e : Bytes} {x : Op} (h : Encodes e x) (rest : Bytes) :
    ops (e ++ rest) = (x :: (ops rest).1, (ops rest).2) := by
  obtain ⟨op, tl, h1, h2⟩ := next_op_of_encodes h rest
  rw [h1, ops_cons, h2]

/-- The concatenated encodings of operations, followed by anything. -/
theorem ops_encodes_all {parts : List Bytes} {xs : List Op} (h : List.Forall₂ Encodes parts xs)
    (rest : Bytes) : ops (parts.flatten ++ rest) = (xs ++ (ops rest).1, (ops rest).2) := by
  induction h with
  | nil => simp
  | cons h _ ih => rw [List.flatten_cons, List.append_assoc, ops_encodes h, ih]; rfl

/-- Every script is a sequence of encoded operations and possibly a remainder that does not start
with one. -/
theorem ops_parts (s : Bytes) : ∃ (parts : List Bytes) (tail : Bytes),
    s = parts.flatten ++ tail ∧ List.Forall₂ Encodes parts (ops s).1 ∧
      ((tail = [] ∧ (ops s).2 = .ok ()) ∨
        (tail ≠ [] ∧ (ops s).2 = .error .truncatedScriptError ∧
          ∀ e x rest, tail = e ++ rest → ¬ Encodes e x)) := by
  induction hn : s.length using Nat.strong_induction_on generalizing s with
  | _ n ih =>
    subst hn
    match s with
    | [] => exact ⟨[], [], rfl, .nil, .inl ⟨rfl, rfl⟩⟩
    | op :: tl =>
      cases hx : next_op op tl with
      | error e =>
        have he := next_op_error hx
        subst he
        refine ⟨[], op :: tl, rfl, by rw [ops_cons, hx]; exact .nil, .inr ⟨by simp, by rw [ops_cons, hx], ?_⟩⟩
        intro e x rest he hen
        obtain ⟨op', tl', h1, h2⟩ := next_op_of_encodes hen rest
        rw [← he] at h1
        cases h1
        rw [hx] at h2; cases h2
      | ok y =>
        obtain ⟨x, rest⟩ := y
        obtain ⟨e, h1, h2⟩ := encodes_of_next_op hx
        have := next_op_shorter hx
        obtain ⟨parts, tail, h3, h4, h5⟩ := ih rest.length (by simp; omega) rest rfl
        refine ⟨e :: parts, tail, ?_, ?_, ?_⟩
        · rw [h1, List.flatten_cons, List.append_assoc, ← h3]
        · rw [ops_cons, hx]; exact .cons h2 h4
        · rw [ops_cons, hx]; exact h5

/-- Complete scripts concatenate. -/
theorem ops_append (a b : Bytes) (h : (ops a).2 = .ok ()) :
    ops (a ++ b) = ((ops a).1 ++ (ops b).1, (ops b).2) := by
  obtain ⟨parts, tail, h1, h2, h3⟩ := ops_parts a
  rcases h3 with ⟨rfl, _⟩ | ⟨_, h4, _⟩
  · rw [List.append_nil] at h1
    generalize ops a = o at h2
    rw [h1]
    exact ops_encodes_all h2 b
  · rw [h] at h4; cases h4

end Script

/-! ## Pushes -/

theorem push_item_data_ok (d : Bytes) (h : d.length < 2 ^ 32) :
    ∃ e, push_item_data d = .ok e ∧ Encodes e (.data d) ∧
      e.length = d.length + if d.length < 76 then 1 else if d.length < 256 then 2
        else if d.length < 65536 then 3 else 5 := by
  have c1 : OP_PUSHDATA1.toNat = 76 := rfl
  have c2 : OP_PUSHDATA2.toNat = 77 := rfl
  have c4 : OP_PUSHDATA4.toNat = 78 := rfl
  unfold push_item_data
  simp only [c1, c2, c4]
  by_cases h1 : d.length < 76
  · have h1' : (d.length : Int) < (76 : Nat) := by omega
    have hb := toNat_ofNat' (n := d.length) (by omega)
    simp only [h1', if_true, pack_byte_nat (n := d.length) (by omega), ok_bind', pure_ok']
    exact ⟨_, rfl, .short _ _ hb h1, by simp [h1]⟩
  · have h1' : ¬ (d.length : Int) < (76 : Nat) := by omega
    simp only [h1', if_false]
    by_cases h2 : d.length < 256
    · have h2' : (d.length : Int) ≤ 0xff := by omega
      have hb := toNat_ofNat' (n := d.length) (by omega)
      simp only [h2', if_true, pack_byte_nat (n := d.length) (by omega),
        pack_byte_nat (n := 76) (by omega), ok_bind', pure_ok']
      exact ⟨_, rfl, .pushdata1 [UInt8.ofNat d.length] d rfl (by simp [leValue]; omega), by simp [h1, h2]⟩
    · have h2' : ¬ (d.length : Int) ≤ 0xff := by omega
      simp only [h2', if_false]
      by_cases h3 : d.length < 65536
      · have h3' : (d.length : Int) ≤ 0xffff := by omega
        have hp : pack_le_uint16 (d.length : Int) = .ok (leBytes 2 d.length) :=
          packU_ok 2 _ (by norm_num; omega)
        simp only [h3', if_true, pack_byte_nat (n := 77) (by omega), hp, ok_bind', pure_ok']
        exact ⟨_, rfl, .pushdata2 (leBytes 2 d.length) d (leBytes_length _ _)
          (leValue_leBytes _ _ (by norm_num; omega)), by simp [h1, h2, h3, leBytes_length]; omega⟩
      · have h3' : ¬ (d.length : Int) ≤ 0xffff := by omega
        have hp : pack_le_uint32 (d.length : Int) = .ok (leBytes 4 d.length) :=
          packU_ok 4 _ (by norm_num; omega)
        simp only [h3', if_false, pack_byte_nat (n := 78) (by omega), hp, ok_bind', pure_ok']
        exact ⟨_, rfl, .pushdata4 (leBytes 4 d.length) d (leBytes_length _ _)
          (leValue_leBytes _ _ (by norm_num; omega)), by simp [h1, h2, h3, leBytes_length]; omega⟩

theorem push_item_data_error (d : Bytes) (h : 2 ^ 32 ≤ d.length) : push_item_data d = .error .structError := by
  have c1 : OP_PUSHDATA1.toNat = 76 := rfl
  have h1 : ¬ (d.length : Int) < (76 : Nat) := by omega
  have h2 : ¬ (d.length : Int) ≤ 0xff := by omega
  have h3 : ¬ (d.length : Int) ≤ 0xffff := by omega
  have hp : pack_le_uint32 (d.length : Int) = .error .structError := by
    rw [pack_le_uint32, packU, if_neg]
    rintro ⟨_, h5⟩
    have e : (256 : Int) ^ 4 = 4294967296 := by norm_num
    rw [e] at h5
    omega
  have c4 : pack_byte (OP_PUSHDATA4.toNat : Int) = .ok [UInt8.ofNat 78] :=
    pack_byte_nat (n := 78) (by omega)
  unfold push_item_data
  simp only [c1, h1, h2, h3, if_false, hp, c4, ok_bind', error_bind']

/-- A push of `d` by a length is at least as long as `push_item_data(d)`. -/
theorem encodes_data_length {e : Bytes} {d : Bytes} (h : Encodes e (.data d)) :
    (e.length = 1 ∧ ∃ b : UInt8, d = [b] ∧ (1 ≤ b.toNat ∧ b.toNat ≤ 16 ∨ b = 0x81)) ∨
    (d.length + if d.length < 76 then 1 else if d.length < 256 then 2
        else if d.length < 65536 then 3 else 5) ≤ e.length := by
  cases h with
  | short n d hn hd => right; simp; split <;> omega
  | pushdata1 l d hl hv =>
    right
    have := leValue_lt l
    rw [hl, hv] at this
    simp [hl]
    split
    · omega
    · rw [if_pos (by omega)]; omega
  | pushdata2 l d hl hv =>
    right
    have := leValue_lt l
    rw [hl, hv] at this
    simp [hl]
    split
    · omega
    · split
      · omega
      · rw [if_pos (by omega)]; omega
  | pushdata4 l d hl hv =>
    right
    simp [hl]
    split
    · omega
    · split
      · omega
      · split <;> omega
  | small c b h1 h2 h3 => left; exact ⟨rfl, b, rfl, .inl ⟨h1, h2⟩⟩
  | negate => left; exact ⟨rfl, 0x81, rfl, .inr rfl⟩

theorem push_item_ok (d : Bytes) (h : d.length < 2 ^ 32) :
    ∃ e, push_item d = .ok e ∧ Encodes e (.data d) ∧ ∀ e', Encodes e' (.data d) → e.length ≤ e'.length := by
  have key : ¬ (∃ b : UInt8, d = [b] ∧ (1 ≤ b.toNat ∧ b.toNat ≤ 16 ∨ b = 0x81)) →
      ∃ e, push_item_data d = .ok e ∧ Encodes e (.data d) ∧ ∀ e', Encodes e' (.data d) → e.length ≤ e'.length := by
    intro hn
    obtain ⟨e, h1, h2, h3⟩ := push_item_data_ok d h
    refine ⟨e, h1, h2, fun e' he' => ?_⟩
    rcases encodes_data_length he' with ⟨_, h4⟩ | h4
    · exact absurd h4 hn
    · omega
  match d with
  | [] =>
    refine ⟨[0], rfl, .short 0 [] rfl (by decide), fun e' he' => ?_⟩
    have := Script.Spec.Encodes.length_pos he'
    exact this
  | [v] =>
    unfold push_item
    by_cases c1 : 0 < v ∧ v ≤ 16
    · have c1' : 0 < v.toNat ∧ v.toNat ≤ 16 := c1
      have e1 : ((OP_1.toNat : Int) + v.toNat - 1) = ((0x50 + v.toNat : Nat) : Int) := by
        have : OP_1.toNat = 0x51 := rfl
        omega
      simp only [c1, and_self, if_true, e1, pack_byte_nat (n := 0x50 + v.toNat) (by omega)]
      refine ⟨_, rfl, .small _ v c1'.1 c1'.2 (toNat_ofNat' (by omega)), fun e' he' => ?_⟩
      have := Script.Spec.Encodes.length_pos he'
      exact this
    · simp only [c1, if_false]
      have c1' : ¬ (0 < v.toNat ∧ v.toNat ≤ 16) := c1
      by_cases c2 : v = 0x81
      · simp only [c2, if_true]
        refine ⟨_, rfl, .negate, fun e' he' => ?_⟩
        have := Script.Spec.Encodes.length_pos he'
        exact this
      · simp only [c2, if_false]
        apply key
        rintro ⟨b, hb, h1⟩
        cases hb
        rcases h1 with h1 | h1
        · exact c1' (by omega)
        · exact c2 h1
  | a :: b :: tl =>
    apply key
    rintro ⟨x, hx, _⟩
    cases hx

theorem push_item_error (d : Bytes) (h : 2 ^ 32 ≤ d.length) : push_item d = .error .structError := by
  match d with
  | [] => simp at h
  | [v] => simp at h
  | a :: b :: tl => exact push_item_data_error _ h

/-! ## Numbers -/

theorem forall_uint8 {p : UInt8 → Prop} (h : ∀ n : Fin 256, p (UInt8.ofNat n.1)) (b : UInt8) : p b := by
  have := h ⟨b.toNat, UInt8.toNat_lt b⟩
  simpa using this

theorem and_0x80 : ∀ b : UInt8, (b &&& 0x80 ≠ 0) ↔ 128 ≤ b.toNat :=
  forall_uint8 (by decide +kernel)

theorem and_0x7f : ∀ b : UInt8, 128 ≤ b.toNat → (b &&& 0x7f).toNat = b.toNat - 128 :=
  forall_uint8 (by decide +kernel)

theorem or_0x80 : ∀ b : UInt8, b.toNat < 128 → (b ||| 0x80).toNat = b.toNat + 128 :=
  forall_uint8 (by decide +kernel)

theorem dropEnd_snoc {α : Type} (l : List α) (a : α) : dropEnd (l ++ [a]) 1 = l := by
  simp [dropEnd]

theorem itemValue_snoc (l : Bytes) (b : UInt8) : itemValue (l ++ [b]) =
    if b.toNat < 128 then ((leValue l + 256 ^ l.length * b.toNat : Nat) : Int)
    else -((leValue l + 256 ^ l.length * (b.toNat - 128) : Nat) : Int) := by
  have hl := leValue_lt l
  have e : leValue (l ++ [b]) = leValue l + 256 ^ l.length * b.toNat := by
    rw [leValue_append]; simp [leValue]
  have e2 : (256 : Nat) ^ (l ++ [b]).length = 256 * 256 ^ l.length := by
    rw [List.length_append, List.length_singleton, Nat.pow_succ, Nat.mul_comm]
  have e3 : (256 : Int) ^ (l ++ [b]).length = 256 * ((256 ^ l.length : Nat) : Int) := by
    rw [List.length_append, List.length_singleton, pow_succ, Int.mul_comm]; simp
  unfold itemValue
  rw [e3, e, e2]
  generalize 256 ^ l.length = P at *
  by_cases hb : b.toNat < 128
  · rw [if_pos hb, if_pos]
    have : P * b.toNat ≤ P * 127 := Nat.mul_le_mul_left _ (by omega)
    omega
  · rw [if_neg hb, if_neg]
    · obtain ⟨k, hk⟩ : ∃ k, b.toNat = 128 + k := ⟨b.toNat - 128, by omega⟩
      rw [hk, Nat.add_sub_cancel_left, Nat.mul_add]
      generalize P * k = Q
      omega
    · have : P * 128 ≤ P * b.toNat := Nat.mul_le_mul_left _ (by omega)
      omega

/-- `item_to_int` computes the number an item denotes. -/
theorem item_to_int_eq (d : Bytes) : item_to_int d = itemValue d := by
  rcases List.eq_nil_or_concat d with rfl | ⟨l, b, rfl⟩
  · rfl
  · rw [List.concat_eq_append, itemValue_snoc]
    have hg : (l ++ [b]).getLast? = some b := by simp
    simp only [item_to_int, hg, dropEnd_snoc]
    by_cases hb : b.toNat < 128
    · have c : ¬ (b &&& 0x80 ≠ 0) := by rw [and_0x80]; omega
      rw [if_neg c, if_pos hb, le_bytes_to_int_eq, leValue_append]
      simp [leValue]
    · have c : b &&& 0x80 ≠ 0 := by rw [and_0x80]; omega
      rw [if_pos c, if_neg hb, le_bytes_to_int_eq, leValue_append]
      simp only [leValue, and_0x7f b (by omega), Nat.mul_zero, Nat.add_zero]

theorem itemValue_bound (d : Bytes) : 2 * (itemValue d).natAbs < 256 ^ d.length := by
  rcases List.eq_nil_or_concat d with rfl | ⟨l, b, rfl⟩
  · decide
  · rw [List.concat_eq_append, itemValue_snoc]
    have hl := leValue_lt l
    have hb := UInt8.toNat_lt b
    rw [List.length_append, List.length_singleton, Nat.pow_succ]
    generalize 256 ^ l.length = P at *
    split
    · next h =>
      have : P * b.toNat ≤ P * 127 := Nat.mul_le_mul_left _ (by omega)
      rw [Int.natAbs_natCast]
      omega
    · next h =>
      have : P * (b.toNat - 128) ≤ P * 127 := Nat.mul_le_mul_left _ (by omega)
      rw [Int.natAbs_neg, Int.natAbs_natCast]
      omega

theorem int_to_le_bytes_ok (n : Nat) : int_to_le_bytes (n : Int) = .ok (leBytes (byteSize n) n) := by
  have h : ¬ (n : Int) < 0 := by omega
  have h2 := lt_byteSize (n : Int)
  rw [Int.natAbs_natCast] at h2
  simp only [int_to_le_bytes, h, if_false, Option.getD_none, Int.toNat_natCast, h2, if_true]

theorem byteSize_lower (v : Int) (h : v ≠ 0) : 0 < byteSize v ∧ 256 ^ (byteSize v - 1) ≤ v.natAbs := by
  have h0 : 0 < byteSize v := by
    rcases Nat.eq_zero_or_pos (byteSize v) with h1 | h1
    · have := lt_byteSize v
      rw [h1] at this
      omega
    · exact h1
  refine ⟨h0, ?_⟩
  by_contra hc
  have := (byteSize_le v (byteSize v - 1)).2 (by omega)
  omega

theorem leBytes_succ_last (w n : Nat) : leBytes (w + 1) n =
    leBytes w n ++ [UInt8.ofNat (n / 256 ^ w % 256)] := by
  induction w generalizing n with
  | zero => simp [leBytes]
  | succ w ih =>
    rw [leBytes, ih, leBytes, List.cons_append]
    rw [Nat.div_div_eq_div_mul, Nat.pow_succ, Nat.mul_comm 256]

/-- What `push_int` pushes: an item denoting the number, and no longer than necessary. -/
theorem push_int_eq (v : Int) : ∃ d, push_int v = push_item d ∧ itemValue d = v ∧
    (d = [] ∨ 256 ^ (d.length - 1) ≤ 2 * v.natAbs) := by
  by_cases hv : v = 0
  · subst hv; exact ⟨[], rfl, rfl, .inl rfl⟩
  · obtain ⟨h0, hlow⟩ := byteSize_lower v hv
    have hup := lt_byteSize v
    have hbs : byteSize (v.natAbs : Int) = byteSize v := by rw [byteSize, byteSize, Int.natAbs_natCast]
    obtain ⟨k, hk⟩ : ∃ k, byteSize v = k + 1 := ⟨byteSize v - 1, by omega⟩
    rw [hk] at hlow hup
    rw [Nat.add_sub_cancel] at hlow
    rw [Nat.pow_succ] at hup
    have hval := leValue_leBytes_mod k v.natAbs
    have hdm := Nat.div_add_mod v.natAbs (256 ^ k)
    have hq : v.natAbs / 256 ^ k < 256 := by
      rw [Nat.div_lt_iff_lt_mul (by positivity)]; omega
    have hpos : 0 < 256 ^ k := by positivity
    have hitem : leBytes (byteSize v) v.natAbs = leBytes k v.natAbs ++ [UInt8.ofNat (v.natAbs / 256 ^ k)] := by
      rw [hk, leBytes_succ_last, Nat.mod_eq_of_lt hq]
    have hlast := toNat_ofNat' hq
    generalize hL : leBytes k v.natAbs = L at hval hitem
    have hLl : L.length = k := by rw [← hL]; simp
    generalize hlb : UInt8.ofNat (v.natAbs / 256 ^ k) = last at hlast hitem
    have hg : (L ++ [last]).getLast? = some last := by simp
    unfold push_int
    rw [if_neg hv, int_to_le_bytes_ok, hbs, hitem]
    simp only [ok_bind', hg]
    by_cases hb : last.toNat < 128
    · have c : ¬ (last &&& 0x80 ≠ 0) := by rw [and_0x80]; omega
      rw [if_neg c]
      by_cases hs : v < 0
      · rw [if_pos hs, dropEnd_snoc, pack_byte_nat (UInt8.toNat_lt _)]
        simp only [ok_bind', UInt8.ofNat_toNat]
        refine ⟨_, rfl, ?_, .inr ?_⟩
        · rw [itemValue_snoc, or_0x80 last hb, if_neg (by omega), Nat.add_sub_cancel, hLl, hval, hlast]
          omega
        · rw [List.length_append, List.length_singleton, hLl, Nat.add_sub_cancel]; omega
      · rw [if_neg hs]
        refine ⟨_, rfl, ?_, .inr ?_⟩
        · rw [itemValue_snoc, if_pos hb, hLl, hval, hlast]
          omega
        · rw [List.length_append, List.length_singleton, hLl, Nat.add_sub_cancel]; omega
    · have c : last &&& 0x80 ≠ 0 := by rw [and_0x80]; omega
      rw [if_pos c]
      have hval2 : leValue (L ++ [last]) = v.natAbs := by
        rw [leValue_append, hval, hLl]
        simp only [leValue, hlast, Nat.mul_zero, Nat.add_zero]
        omega
      have h256 : 256 ^ (k + 1) ≤ 2 * v.natAbs := by
        have h1 : 256 ^ k * 128 ≤ 256 ^ k * (v.natAbs / 256 ^ k) := Nat.mul_le_mul_left _ (by omega)
        rw [Nat.pow_succ]
        omega
      by_cases hs : v < 0
      · rw [if_pos hs]
        have hp : pack_byte 0x80 = .ok [0x80] := rfl
        simp only [hp, ok_bind']
        refine ⟨_, rfl, ?_, .inr ?_⟩
        · rw [itemValue_snoc, hval2, if_neg (by decide)]
          have e1 : (0x80 : UInt8).toNat - 128 = 0 := rfl
          rw [e1, Nat.mul_zero]
          omega
        · simpa [hLl] using h256
      · rw [if_neg hs]
        have hp : pack_byte 0x00 = .ok [0x00] := rfl
        simp only [hp, ok_bind']
        refine ⟨_, rfl, ?_, .inr ?_⟩
        · rw [itemValue_snoc, hval2, if_pos (by decide)]
          have e1 : (0x00 : UInt8).toNat = 0 := rfl
          rw [e1, Nat.mul_zero]
          omega
        · simpa [hLl] using h256

end Bitcoinx
