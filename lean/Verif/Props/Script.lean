import Verif.Lemmas.Asm

/-! # Properties of scripts (C36 - C41) -/

namespace Bitcoinx
open Spec

/-! ## C36: pushes round-trip -/

/-- `ops()` of `push_item(d)` followed by any script yields `d` and then what the rest yields. -/
theorem C36_push_item_ops (d rest : Bytes) (h : d.length < 2 ^ 32) :
    ∃ e, push_item d = .ok e ∧ Encodes e (.data d) ∧
      Script.ops (e ++ rest) = (.data d :: (Script.ops rest).1, (Script.ops rest).2) := by
  obtain ⟨e, h1, h2, _⟩ := push_item_ok d h
  exact ⟨e, h1, h2, Script.ops_encodes h2 rest⟩

/-- Longer data cannot be pushed. -/
theorem C36_too_long (d : Bytes) (h : 2 ^ 32 ≤ d.length) : push_item d = .error .structError :=
  push_item_error d h

example : push_item [0x05] = .ok [0x55] ∧
    Script.ops ([0x55] ++ [0x75, 0x02, 0xaa]) =
      ([.data [5], .code 0x75], .error .truncatedScriptError) := by decide +kernel

/-! ## C37: pushes are shortest -/

/-- No script whose only operation is a push of `d` is shorter than `push_item(d)`. -/
theorem C37_push_item_shortest (d e s : Bytes) (he : push_item d = .ok e)
    (hs : Script.ops s = ([.data d], .ok ())) : e.length ≤ s.length := by
  have hd : d.length < 2 ^ 32 := by
    by_contra hc
    rw [push_item_error d (by omega)] at he
    cases he
  obtain ⟨e', h1, _, h3⟩ := push_item_ok d hd
  rw [he] at h1
  cases h1
  obtain ⟨parts, tail, h4, h5, h6⟩ := Script.ops_parts s
  rw [hs] at h5
  cases h5 with
  | cons hp hps =>
    cases hps
    have := h3 _ hp
    rw [h4]
    simp only [List.flatten_cons, List.length_append]
    omega

/-- Every script whose only operation is a push of `d` is one of the encodings. -/
theorem C37_single_push (d s : Bytes) : Script.ops s = ([.data d], .ok ()) ↔ Encodes s (.data d) := by
  constructor
  · intro hs
    obtain ⟨parts, tail, h4, h5, h6⟩ := Script.ops_parts s
    rw [hs] at h5 h6
    rcases h6 with ⟨rfl, _⟩ | ⟨_, h6, _⟩
    · cases h5 with
      | cons hp hps =>
        cases hps
        rw [h4]
        simpa using hp
    · cases h6
  · intro h
    have := Script.ops_encodes h []
    simpa [Script.ops_nil] using this

/-- A longer encoding of the same push exists. -/
example : Script.ops [0x4c, 0x01, 0x05] = ([.data [5]], .ok ()) ∧ push_item [5] = .ok [0x55] := by
  decide +kernel

/-! ## C38: numbers -/

/-- `push_int(v)` pushes one item, the unique shortest one denoting `v`, for every integer for which
some item of less than 4 GB denotes it. -/
theorem C38_push_int (v : Int) (n : Nat) (hv : 2 * v.natAbs < 256 ^ n) (hn : n < 2 ^ 32) :
    ∃ s d, push_int v = .ok s ∧ Script.ops s = ([.data d], .ok ()) ∧ item_to_int d = v ∧
      itemValue d = v ∧ ∀ d', item_to_int d' = v → d.length ≤ d'.length ∧ (d'.length = d.length → d' = d) := by
  obtain ⟨d, h1, h2, h3⟩ := push_int_shortest v
  have hlen : d.length < 2 ^ 32 := by
    obtain ⟨d0, _, h5, h6⟩ := push_int_eq v
    have hdd : d.length ≤ d0.length := h3 d0 (by rw [h5, h2])
    rcases h6 with rfl | h6
    · have : d.length = 0 := by simpa using hdd
      omega
    · have : 256 ^ (d0.length - 1) < 256 ^ n := by omega
      have := (Nat.pow_lt_pow_iff_right (by omega)).1 this
      omega
  obtain ⟨s, h4, h5, _⟩ := push_item_ok d hlen
  refine ⟨s, d, by rw [h1, h4], ?_, by rw [item_to_int_eq, h2], h2, ?_⟩
  · have := Script.ops_encodes h5 []
    simpa [Script.ops_nil] using this
  · intro d' hd'
    rw [item_to_int_eq] at hd'
    refine ⟨h3 d' (by rw [hd', h2]), fun hl => ?_⟩
    refine shortest_unique (fun x hx => ?_) h3 (by rw [hd', h2])
    rw [hl]
    exact h3 x (by rw [hx, hd', h2])

/-- `item_to_int` computes the value of any item: little-endian magnitude with a sign bit. -/
theorem C38_item_to_int (d : Bytes) : item_to_int d = itemValue d := item_to_int_eq d

/-- The integers of items of `n` bytes are those below `2^(8n - 1)` in magnitude. -/
theorem C38_item_range (d : Bytes) : 2 * (item_to_int d).natAbs < 256 ^ d.length := by
  rw [item_to_int_eq]; exact itemValue_bound d

example : push_int (-255) = .ok [0x02, 0xff, 0x80] ∧ item_to_int [0xff, 0x80] = -255 ∧
    itemValue [0xff, 0x80] = -255 ∧ 2 * (-255 : Int).natAbs < 256 ^ 2 := by decide +kernel

/-! ## C39: `ops()` partitions the script -/

/-- Every script is the concatenation of encodings of the operations yielded and a remainder; the
remainder is empty and the iteration ends normally, or no encoding starts it and the iteration ends
with `TruncatedScriptError`.  In particular `ops()` terminates and raises nothing else. -/
theorem C39_partition (s : Bytes) : ∃ (parts : List Bytes) (tail : Bytes),
    s = parts.flatten ++ tail ∧ List.Forall₂ Encodes parts (Script.ops s).1 ∧
      ((tail = [] ∧ (Script.ops s).2 = .ok ()) ∨
        (tail ≠ [] ∧ (Script.ops s).2 = .error .truncatedScriptError ∧
          ∀ e x rest, tail = e ++ rest → ¬ Encodes e x)) :=
  Script.ops_parts s

/-- Conversely any concatenation of encodings is parsed as such. -/
theorem C39_parse {parts : List Bytes} {xs : List Op} (h : List.Forall₂ Encodes parts xs) (rest : Bytes) :
    Script.ops (parts.flatten ++ rest) = (xs ++ (Script.ops rest).1, (Script.ops rest).2) :=
  Script.ops_encodes_all h rest

/-- Complete scripts concatenate. -/
theorem C39_append (a b : Bytes) (h : (Script.ops a).2 = .ok ()) :
    Script.ops (a ++ b) = ((Script.ops a).1 ++ (Script.ops b).1, (Script.ops b).2) :=
  Script.ops_append a b h

/-- The operations an item stands for when a script is built with `<<` or `push_many`: operations
that are not pushes stand for themselves, data and (shortest) numbers for a push, scripts for their
operations. -/
inductive ItemOps : ScriptItem → List Op → Prop
  | op (c : UInt8) : (0x60 < c.toNat ∨ c.toNat = 0x50) → ItemOps (.op c) [.code c]
  | small (c b : UInt8) : 1 ≤ b.toNat → b.toNat ≤ 16 → c.toNat = 0x50 + b.toNat → ItemOps (.op c) [.data [b]]
  | zero : ItemOps (.op 0) [.data []]
  | negate : ItemOps (.op 0x4f) [.data [0x81]]
  | data (d : Bytes) : d.length < 2 ^ 32 → ItemOps (.data d) [.data d]
  | int (v : Int) (d : Bytes) : itemValue d = v → ShortestNumber d → d.length < 2 ^ 32 → ItemOps (.int v) [.data d]
  | script (s : Bytes) (xs : List Op) : Script.ops s = (xs, .ok ()) → ItemOps (.script s) xs

theorem ItemOps.to_bytes {item : ScriptItem} {xs : List Op} (h : ItemOps item xs) :
    ∃ e, to_bytes item = .ok e ∧ Script.ops e = (xs, .ok ()) := by
  have single : ∀ {e : Bytes} {x : Op}, Encodes e x → Script.ops e = ([x], .ok ()) := by
    intro e x he
    have := Script.ops_encodes he []
    simpa [Script.ops_nil] using this
  have byte : ∀ c : UInt8, pack_byte (c.toNat : Int) = .ok [c] := by
    intro c
    have := pack_byte_nat (UInt8.toNat_lt c)
    rwa [UInt8.ofNat_toNat] at this
  cases h with
  | op c hc => exact ⟨[c], byte c, single (.code c hc)⟩
  | small c b h1 h2 h3 => exact ⟨[c], byte c, single (.small c b h1 h2 h3)⟩
  | zero => exact ⟨[0], byte 0, single (.short 0 [] rfl (by decide))⟩
  | negate => exact ⟨[0x4f], byte 0x4f, single .negate⟩
  | data d hd =>
    obtain ⟨e, h1, h2, _⟩ := push_item_ok d hd
    exact ⟨e, h1, single h2⟩
  | int v d h1 h2 h3 =>
    obtain ⟨e, h4, h5, _⟩ := push_item_ok d h3
    refine ⟨e, ?_, single h5⟩
    show push_int v = _
    rw [← h1, push_int_of_shortest h2, h4]
  | script s xs hs => exact ⟨s, rfl, hs⟩

/-- Building with `<<`. -/
theorem C39_lshift (s : Bytes) (item : ScriptItem) (xs : List Op) (hs : (Script.ops s).2 = .ok ())
    (h : ItemOps item xs) :
    ∃ s', Script.lshift s item = .ok s' ∧ Script.ops s' = ((Script.ops s).1 ++ xs, .ok ()) := by
  obtain ⟨e, h1, h2⟩ := h.to_bytes
  refine ⟨s ++ e, by simp only [Script.lshift, h1, ok_bind', pure_ok'], ?_⟩
  rw [Script.ops_append s e hs, h2]

/-- Building with `push_many`. -/
theorem C39_push_many (s : Bytes) (items : List ScriptItem) (xss : List (List Op))
    (hs : (Script.ops s).2 = .ok ()) (h : List.Forall₂ ItemOps items xss) :
    ∃ s', Script.push_many s items = .ok s' ∧ Script.ops s' = ((Script.ops s).1 ++ xss.flatten, .ok ()) := by
  have key : ∃ parts, packAll to_bytes items = .ok parts ∧
      Script.ops parts.flatten = (xss.flatten, .ok ()) := by
    induction h with
    | nil => exact ⟨[], rfl, rfl⟩
    | cons h1 _ ih =>
      obtain ⟨parts, h3, h4⟩ := ih
      obtain ⟨e, h5, h6⟩ := h1.to_bytes
      refine ⟨e :: parts, by simp only [packAll, h5, h3, ok_bind', pure_ok'], ?_⟩
      rw [List.flatten_cons, Script.ops_append _ _ (by rw [h6]), h6, h4]
      simp
  obtain ⟨parts, h1, h2⟩ := key
  refine ⟨s ++ parts.flatten, by simp only [Script.push_many, h1, ok_bind', pure_ok'], ?_⟩
  rw [Script.ops_append _ _ hs, h2]

/-- Pushing an operation that expects data after it makes the script swallow what follows. -/
example : (do Script.lshift (← Script.lshift [] (.op 0x4c)) (.data [7])) = .ok [0x4c, 0x57] ∧
    Script.ops [0x4c, 0x57] = ([], .error .truncatedScriptError) := by decide +kernel

example : Script.push_many [0x76] [.data [1, 2], .int (-1), .op 0x87] = .ok [0x76, 2, 1, 2, 0x4f, 0x87] ∧
    Script.ops [0x76, 2, 1, 2, 0x4f, 0x87] =
      ([.code 0x76] ++ [[.data [1, 2]], [.data [0x81]], [.code 0x87]].flatten, .ok ()) := by decide +kernel

/-! ## C40: pushing and dropping leaves no trace -/

theorem push_and_drop_items_ops {items : List Bytes} {e : Bytes} (h : push_and_drop_items items = .ok e) :
    Script.ops e = (items.map .data ++ List.replicate (items.length / 2) (.code 0x6d) ++
      (if items.length % 2 = 1 then [.code 0x75] else []), .ok ()) := by
  unfold push_and_drop_items at h
  rw [bind_eq_ok] at h
  obtain ⟨parts, hp, h⟩ := h
  have key : ∀ (items parts : List Bytes), packAll push_item items = .ok parts →
      parts.length = items.length ∧ List.Forall₂ Encodes parts (items.map .data) := by
    intro items
    induction items with
    | nil => intro parts h; cases h; exact ⟨rfl, .nil⟩
    | cons d ds ih =>
      intro parts h
      simp only [packAll, bind_eq_ok] at h
      obtain ⟨e, h1, es, h2, h3⟩ := h
      cases h3
      obtain ⟨h4, h5⟩ := ih es h2
      have hd : d.length < 2 ^ 32 := by
        by_contra hc
        rw [push_item_error d (by omega)] at h1
        cases h1
      obtain ⟨e', h6, h7, _⟩ := push_item_ok d hd
      rw [h1] at h6
      cases h6
      exact ⟨by simp [h4], .cons h7 h5⟩
  obtain ⟨hlen, hall⟩ := key items parts hp
  cases h
  have e2 : ∀ n : Nat, List.Forall₂ Encodes ((List.replicate n OP_2DROP).map (fun c => [c]))
      (List.replicate n (.code 0x6d)) := by
    intro n
    induction n with
    | zero => exact .nil
    | succ n ih => exact .cons (.code _ (.inl (by decide))) ih
  have flat : ∀ n : Nat, ((List.replicate n OP_2DROP).map (fun c => [c])).flatten = List.replicate n OP_2DROP := by
    intro n
    induction n with
    | zero => rfl
    | succ n ih => simp only [List.replicate_succ, List.map_cons, List.flatten_cons, ih]; rfl
  have e3 : ∃ ps, List.Forall₂ Encodes ps (if items.length % 2 = 1 then [.code 0x75] else []) ∧
      ps.flatten = (if items.length % 2 = 1 then [OP_DROP] else []) := by
    split
    · exact ⟨[[OP_DROP]], .cons (.code _ (.inl (by decide))) .nil, rfl⟩
    · exact ⟨[], .nil, rfl⟩
  obtain ⟨ps, h3, h4⟩ := e3
  have hfull := (List.rel_append hall (e2 (items.length / 2)))
  have hfull := List.rel_append hfull h3
  have := Script.ops_encodes_all hfull []
  rw [List.append_nil, Script.ops_nil, List.append_nil] at this
  rw [← this]
  congr 1
  simp only [List.flatten_append, flat, h4, hlen]
  by_cases h2 : items.length ≥ 2
  · rw [if_pos h2]
    split <;> simp
  · rw [if_neg h2]
    have : items.length / 2 = 0 := by omega
    rw [this]
    split <;> simp

theorem strip_pushes (ds : List Bytes) (R : List Op) :
    (ds.map Op.data).foldl Script.strip_step R = (ds.reverse.map Op.data) ++ R := by
  induction ds generalizing R with
  | nil => rfl
  | cons d ds ih =>
    have : Script.strip_step R (.data d) = .data d :: R := by simp [Script.strip_step]
    rw [List.map_cons, List.foldl_cons, this, ih]
    simp

theorem strip_2drops (n : Nat) (ds : List Bytes) (R : List Op) (h : 2 * n ≤ ds.length) :
    (List.replicate n (Op.code 0x6d)).foldl Script.strip_step (ds.map Op.data ++ R) =
      (ds.drop (2 * n)).map Op.data ++ R := by
  induction n generalizing ds with
  | zero => rfl
  | succ n ih =>
    match ds, h with
    | [], h => simp at h
    | [a], h => exact absurd h (by simp; omega)
    | a :: b :: ds, h =>
      have e : Script.strip_step ((a :: b :: ds).map Op.data ++ R) (.code 0x6d) = ds.map Op.data ++ R := rfl
      rw [List.replicate_succ, List.foldl_cons, e, ih ds (by simp at h; omega)]
      rw [show 2 * (n + 1) = 2 * n + 2 by omega]
      rfl

theorem strip_push_and_drop (items : List Bytes) (R : List Op) :
    (items.map Op.data ++ List.replicate (items.length / 2) (Op.code 0x6d) ++
      (if items.length % 2 = 1 then [Op.code 0x75] else [])).foldl Script.strip_step R = R := by
  rw [List.foldl_append, List.foldl_append, strip_pushes,
    strip_2drops _ _ _ (by rw [List.length_reverse]; omega)]
  have hl : (items.reverse.drop (2 * (items.length / 2))).length = items.length % 2 := by
    rw [List.length_drop, List.length_reverse]; omega
  split
  · next h =>
    rw [h] at hl
    match items.reverse.drop (2 * (items.length / 2)), hl with
    | [d], _ => rfl
  · next h =>
    have : items.reverse.drop (2 * (items.length / 2)) = [] := List.length_eq_zero_iff.1 (by omega)
    rw [this]; rfl

/-- Inserting `push_and_drop_items(items)` after any complete script leaves the template as it was;
with `a` empty this is insertion in front. -/
theorem C40_template (a s e : Bytes) (items : List Bytes) (ha : (Script.ops a).2 = .ok ())
    (he : push_and_drop_items items = .ok e) :
    Script.to_template (a ++ e ++ s) = Script.to_template (a ++ s) := by
  have ho := push_and_drop_items_ops he
  have h1 : Script.ops (a ++ e ++ s) = ((Script.ops a).1 ++ ((Script.ops e).1 ++ (Script.ops s).1), (Script.ops s).2) := by
    rw [List.append_assoc, Script.ops_append a _ ha, Script.ops_append e s (by rw [ho])]
  have h2 := Script.ops_append a s ha
  have : Script.stripped_ops (a ++ e ++ s) = Script.stripped_ops (a ++ s) := by
    simp only [Script.stripped_ops, h1, h2, List.foldl_append]
    rw [ho]
    simp only [strip_push_and_drop]
  simp only [Script.to_template, this]

theorem eval_append (xs ys : List Op) (st : List Bytes) :
    eval (xs ++ ys) st = (eval xs st).bind (eval ys) := by
  induction xs generalizing st with
  | nil => rfl
  | cons x xs ih =>
    cases x with
    | data d => simp only [List.cons_append, eval, ih]
    | code c =>
      simp only [List.cons_append, eval]
      split
      · cases st with
        | nil => rfl
        | cons _ st => exact ih st
      · split
        · match st with
          | [] => rfl
          | [_] => rfl
          | _ :: _ :: st => exact ih st
        · rfl

/-- Executing what `push_and_drop_items` builds leaves any stack unchanged. -/
theorem C40_stack (items : List Bytes) (e : Bytes) (he : push_and_drop_items items = .ok e)
    (st : List Bytes) : (Script.ops e).2 = .ok () ∧ eval (Script.ops e).1 st = some st := by
  rw [push_and_drop_items_ops he]
  refine ⟨rfl, ?_⟩
  have pushes : ∀ (ds : List Bytes) st, eval (ds.map Op.data) st = some (ds.reverse ++ st) := by
    intro ds
    induction ds with
    | nil => intro st; rfl
    | cons d ds ih => intro st; simp only [List.map_cons, eval, ih]; simp
  have drops : ∀ (n : Nat) (ds st : List Bytes), 2 * n ≤ ds.length →
      eval (List.replicate n (Op.code 0x6d)) (ds ++ st) = some (ds.drop (2 * n) ++ st) := by
    intro n
    induction n with
    | zero => intro ds st _; rfl
    | succ n ih =>
      intro ds st h
      match ds, h with
      | [], h => simp at h
      | [a], h => exact absurd h (by simp; omega)
      | a :: b :: ds, h =>
        have e : eval (Op.code 0x6d :: List.replicate n (Op.code 0x6d)) ((a :: b :: ds) ++ st) =
          eval (List.replicate n (Op.code 0x6d)) (ds ++ st) := rfl
        rw [List.replicate_succ, e, ih ds st (by simp at h; omega), show 2 * (n + 1) = 2 * n + 2 by omega]
        rfl
  rw [eval_append, eval_append, pushes, Option.bind_some,
    drops _ _ _ (by rw [List.length_reverse]; omega), Option.bind_some]
  have hl : (items.reverse.drop (2 * (items.length / 2))).length = items.length % 2 := by
    rw [List.length_drop, List.length_reverse]; omega
  split
  · next h =>
    rw [h] at hl
    match items.reverse.drop (2 * (items.length / 2)), hl with
    | [d], _ => rfl
  · next h =>
    have : items.reverse.drop (2 * (items.length / 2)) = [] := List.length_eq_zero_iff.1 (by omega)
    rw [this]; rfl

/-- The construction succeeds for all items that can be pushed. -/
theorem C40_defined (items : List Bytes) (h : ∀ d ∈ items, d.length < 2 ^ 32) :
    ∃ e, push_and_drop_items items = .ok e := by
  have : ∃ parts, packAll push_item items = .ok parts := by
    induction items with
    | nil => exact ⟨[], rfl⟩
    | cons d ds ih =>
      obtain ⟨ps, hp⟩ := ih (fun x hx => h x (by simp [hx]))
      obtain ⟨e, he, _⟩ := push_item_ok d (h d (by simp))
      exact ⟨e :: ps, by simp only [packAll, he, hp, ok_bind', pure_ok']⟩
  obtain ⟨parts, hp⟩ := this
  unfold push_and_drop_items
  rw [hp]
  exact ⟨_, rfl⟩

/-- The single form is the list form. -/
theorem C40_single (item : Bytes) : push_and_drop_item item = push_and_drop_items [item] := by
  simp only [push_and_drop_item, push_and_drop_items, packAll]
  cases push_item item with
  | error e => rfl
  | ok e => simp

example : push_and_drop_items [[1, 2], [], [5]] = .ok [2, 1, 2, 0, 0x55, 0x6d, 0x75] ∧
    Script.to_template ([0x76] ++ [2, 1, 2, 0, 0x55, 0x6d, 0x75] ++ [0xa9, 1, 9]) = ([0x76, 0xa9, 0x4c], [[9]]) ∧
    Script.to_template [0x76, 0xa9, 1, 9] = ([0x76, 0xa9, 0x4c], [[9]]) := by decide +kernel

/-! ## C41: ASM -/

/-- An item survives ASM exactly if it is `AsmSafe`. -/
theorem C41_item (P : PyText) (L : Secp) (d : Bytes) (hd : d.length < 2 ^ 32) :
    Script.asm_word_to_bytes P (Script.op_to_asm_word L (.data d) false) = push_item d ↔ AsmSafe P d := by
  by_cases hl : d.length ≤ 4
  · have hw : Script.op_to_asm_word L (.data d) false = strInt (itemValue d) := by
      simp only [Script.op_to_asm_word, hl, if_true, item_to_int_eq]
    rw [hw, asm_word_strInt P _ (item_small d hl)]
    constructor
    · intro h
      obtain ⟨d', h1, h2, h3⟩ := push_int_shortest (itemValue d)
      rw [h1] at h
      have := push_item_inj hd h.symm
      subst this
      exact .inl ⟨hl, h3⟩
    · rintro (⟨_, h⟩ | ⟨h, _⟩)
      · exact push_int_of_shortest h
      · omega
  · have hw : Script.op_to_asm_word L (.data d) false = hex d := by
      simp only [Script.op_to_asm_word, hl, if_false, Bool.false_eq_true, false_and]
    have hne : d ≠ [] := by rintro rfl; simp at hl
    rw [hw]
    by_cases hc : ∃ c ∈ hex d, c ∉ decAlphabet
    · rw [asm_word_hex_letter P d hne hc]
      exact ⟨fun _ => .inr ⟨by omega, hd, .inl hc⟩, fun _ => rfl⟩
    · have ho : Over decAlphabet (hex d) := by
        intro c hcm
        by_contra hx
        exact hc ⟨c, hcm, hx⟩
      obtain ⟨n, hn⟩ := (numeral_dec_isSome _).2 ho
      by_cases hlim : P.max_str_digits = 0 ∨ 2 * d.length ≤ P.max_str_digits
      · rw [asm_word_hex_digits P d hne n hn hlim]
        by_cases hsm : n ≤ 2147483647
        · rw [if_pos hsm]
          constructor
          · intro h
            obtain ⟨d', h1, h2, h3⟩ := push_int_shortest (n : Int)
            rw [h1] at h
            have := push_item_inj hd h.symm
            subst this
            -- a number of 32 bits has an item of at most 4 bytes
            exfalso
            obtain ⟨d0, _, h5, h6⟩ := push_int_eq (n : Int)
            have h7 := h3 d0 (by rw [h5, h2])
            rcases h6 with rfl | h6
            · simp at h7
              exact hne h7
            · rw [Int.natAbs_natCast] at h6
              have : 256 ^ (d0.length - 1) < 256 ^ 4 := by
                have : (256 : Nat) ^ 4 = 4294967296 := by norm_num
                omega
              have := (Nat.pow_lt_pow_iff_right (by omega)).1 this
              omega
          · rintro (⟨h, _⟩ | ⟨_, _, h | ⟨_, n', h1, h2⟩⟩)
            · omega
            · exact absurd h hc
            · rw [hn] at h1
              cases h1
              omega
        · rw [if_neg hsm]
          exact ⟨fun _ => .inr ⟨by omega, hd, .inr ⟨hlim, n, hn, by omega⟩⟩, fun _ => rfl⟩
      · rw [asm_word_hex_long P d hne n hn hlim]
        constructor
        · intro h
          obtain ⟨e, he, _⟩ := push_item_ok d hd
          rw [he] at h
          cases h
        · rintro (⟨h, _⟩ | ⟨_, _, h | ⟨h, _⟩⟩)
          · omega
          · exact absurd h hc
          · exact absurd h hlim

/-- The table of names is the one of the specification. -/
theorem opsTable_opcode (name : Str) (c : UInt8) : (name, c) ∈ opsTable ↔ Opcode name c := by
  constructor
  · have h : ∀ e ∈ opsTable, (e.1 = "OP_0".toList ∧ e.2 = 0) ∨
        (∃ k ∈ List.range opcodeNames.length, e.1 = "OP_".toList ++ opcodeNames[k]?.getD [] ∧ e.2.toNat = 0x4c + k) ∨
        e ∈ [("OP_FALSE".toList, 0), ("OP_TRUE".toList, 0x51), ("OP_NOP2".toList, 0xb1), ("OP_NOP3".toList, 0xb2)] := by
      decide +kernel
    intro hm
    rcases h _ hm with h | ⟨k, hk, h1, h2⟩ | h
    · exact .inl (.inl h)
    · rw [List.mem_range] at hk
      refine .inl (.inr ⟨k, opcodeNames[k], List.getElem?_eq_getElem hk, ?_, h2⟩)
      rwa [List.getElem?_eq_getElem hk] at h1
    · exact .inr h
  · have h0 : ("OP_0".toList, 0) ∈ opsTable ∧ ∀ e ∈ [("OP_FALSE".toList, (0 : UInt8)), ("OP_TRUE".toList, 0x51),
        ("OP_NOP2".toList, 0xb1), ("OP_NOP3".toList, 0xb2)], e ∈ opsTable := by decide +kernel
    have h1 : ∀ k ∈ List.range opcodeNames.length,
        ("OP_".toList ++ opcodeNames[k]?.getD [], UInt8.ofNat (0x4c + k)) ∈ opsTable := by decide +kernel
    rintro ((⟨rfl, rfl⟩ | ⟨k, n, hk, rfl, hc⟩) | h)
    · exact h0.1
    · obtain ⟨hlt, hn⟩ := List.getElem?_eq_some_iff.1 hk
      have := h1 k (List.mem_range.2 hlt)
      rw [hk, Option.getD_some, ← hc, UInt8.ofNat_toNat] at this
      exact this
    · exact h0.2 _ h

/-- Which names are first names. -/
theorem opsByValue_iff (name : Str) (c : UInt8) : opsByValue c = some name ↔ OpcodeName name c := by
  have hfirst : ∀ e ∈ [("OP_FALSE".toList, (0 : UInt8)), ("OP_TRUE".toList, 0x51), ("OP_NOP2".toList, 0xb1),
      ("OP_NOP3".toList, 0xb2)], opsByValue e.2 ≠ some e.1 := by decide +kernel
  constructor
  · intro h
    rcases (opsTable_opcode name c).1 (opsByValue_mem h) with h' | h'
    · exact h'
    · exact absurd h (hfirst _ h')
  · have h0 : opsByValue 0 = some "OP_0".toList := by decide +kernel
    have h1 : ∀ k ∈ List.range opcodeNames.length,
        opsByValue (UInt8.ofNat (0x4c + k)) = some ("OP_".toList ++ opcodeNames[k]?.getD []) := by decide +kernel
    rintro (⟨rfl, rfl⟩ | ⟨k, n, hk, rfl, hc⟩)
    · exact h0
    · obtain ⟨hlt, hn⟩ := List.getElem?_eq_some_iff.1 hk
      have := h1 k (List.mem_range.2 hlt)
      rw [hk, Option.getD_some, ← hc, UInt8.ofNat_toNat] at this
      exact this

/-- C41: the word of an opcode is its name, if it has one; the last opcode is called invalid and the others are unknown. -/
theorem C41_name (L : Secp) (c : UInt8) (b : Bool) :
    (∀ name, OpcodeName name c → Script.op_to_asm_word L (.code c) b = name) ∧
    ((¬ ∃ name, OpcodeName name c) → Script.op_to_asm_word L (.code c) b =
      if c.toNat = 255 then "OP_INVALIDOPCODE".toList else "OP_UNKNOWN".toList) := by
  constructor
  · intro name h
    rw [Script.op_to_asm_word, (opsByValue_iff name c).2 h]
  · intro h
    have hn : opsByValue c = none := by
      cases hv : opsByValue c with
      | none => rfl
      | some name => exact absurd ⟨name, (opsByValue_iff name c).1 hv⟩ h
    have h255 : c = 0xff ↔ c.toNat = 255 := by
      rw [← UInt8.toNat_inj]; rfl
    simp only [Script.op_to_asm_word, hn, h255]

/-- C41: the words that begin with `OP_` and are read are the names of opcodes, which include second names of four of
them; each stands for its opcode. -/
theorem C41_word (P : PyText) (w : Str) :
    (∀ c, Opcode w c → Script.asm_word_to_bytes P w = .ok [c]) ∧
    ("OP_".toList <+: w → (¬ ∃ c, Opcode w c) → Script.asm_word_to_bytes P w = .error .scriptError) := by
  constructor
  · intro c h
    obtain ⟨h1, h2, _⟩ := opsTable_names _ ((opsTable_opcode w c).2 h)
    simp only at h1 h2
    have := pack_byte_nat (UInt8.toNat_lt c)
    rw [UInt8.ofNat_toNat] at this
    simp only [Script.asm_word_to_bytes, h2, if_true, h1, this]
  · intro hp h
    have hn : opsByName w = none := by
      rw [opsByName, Option.map_eq_none_iff, List.find?_eq_none]
      intro e he hw
      have hw : e.1 = w := by simpa using hw
      exact h ⟨e.2, (opsTable_opcode w e.2).1 (hw ▸ he)⟩
    have hs : startsWith "OP_".toList w = true := by
      obtain ⟨t, rfl⟩ := hp
      rfl
    simp only [Script.asm_word_to_bytes, hs, if_true, hn]

example : OpcodeName "OP_CHECKMULTISIG".toList 0xae := .inr ⟨98, "CHECKMULTISIG".toList, by decide +kernel, rfl, rfl⟩

example : "OP_".toList <+: "OP_EVAL".toList ∧ ¬ ∃ c, Opcode "OP_EVAL".toList c := by
  refine ⟨⟨"EVAL".toList, rfl⟩, ?_⟩
  rintro ⟨c, h⟩
  have h2 : ∀ e ∈ opsTable, e.1 ≠ "OP_EVAL".toList := by decide +kernel
  exact h2 _ ((opsTable_opcode _ _).2 h) rfl

/-- The parts of a script that survives ASM: named operations, and pushes by `push_item` of items
that do. -/
inductive AsmPart (P : PyText) : Bytes → Op → Prop
  | code (c : UInt8) : (0x60 < c.toNat ∨ c.toNat = 0x50) → (∃ name, Opcode name c) → AsmPart P [c] (.code c)
  | data (d e : Bytes) : push_item d = .ok e → AsmSafe P d → AsmPart P e (.data d)

theorem Spec.AsmSafe.length {P : PyText} {d : Bytes} (h : AsmSafe P d) : d.length < 2 ^ 32 := by
  rcases h with ⟨h, _⟩ | ⟨_, h, _⟩ <;> omega

/-- The text of a script made of such parts is read back as the same script. -/
theorem C41_roundtrip (P : PyText) (L : Secp) {parts : List Bytes} {xs : List Op}
    (h : List.Forall₂ (AsmPart P) parts xs) :
    Script.from_asm P (Script.to_asm L parts.flatten false) = .ok parts.flatten := by
  have henc : List.Forall₂ Encodes parts xs := by
    refine h.imp ?_
    intro e x hx
    cases hx with
    | code c h1 _ => exact .code c h1
    | data d e h1 h2 =>
      obtain ⟨e', h3, h4, _⟩ := push_item_ok d h2.length
      rw [h1] at h3
      cases h3
      exact h4
  have hops := Script.ops_encodes_all henc []
  simp only [List.append_nil, Script.ops_nil] at hops
  have named : ∀ c : UInt8, (∃ name, Opcode name c) → ∃ name, opsByValue c = some name := by
    rintro c ⟨name, hname⟩
    obtain ⟨e, h1, h2⟩ : ∃ e ∈ opsTable, e.2 = c := ⟨_, (opsTable_opcode name c).2 hname, rfl⟩
    cases hq : opsTable.find? (fun e => e.2 = c) with
    | none => rw [List.find?_eq_none] at hq; exact absurd (by simpa using h2) (hq e h1)
    | some y => exact ⟨y.1, by simp [opsByValue, hq]⟩
  have hasm : Script.to_asm L parts.flatten false =
      joinStr [' '] (xs.map (fun op => Script.op_to_asm_word L op false)) := by
    simp only [Script.to_asm, hops]
  have hplain : ∀ w ∈ xs.map (fun op => Script.op_to_asm_word L op false), Plain w := by
    intro w hw
    obtain ⟨x, hx, rfl⟩ := List.mem_map.1 hw
    refine op_word_plain L x (fun c hc => ?_)
    subst hc
    clear hops hasm henc hw
    induction h with
    | nil => simp at hx
    | cons h1 _ ih =>
      rcases List.mem_cons.1 hx with rfl | hx
      · cases h1 with
        | code c _ h2 => exact named c h2
      · exact ih hx
  have hwords : packAll (Script.asm_word_to_bytes P)
      (xs.map (fun op => Script.op_to_asm_word L op false)) = .ok parts := by
    clear hops hasm henc hplain
    induction h with
    | nil => rfl
    | @cons e x _ _ h1 _ ih =>
      have : Script.asm_word_to_bytes P (Script.op_to_asm_word L x false) = .ok e := by
        cases h1 with
        | code c _ h2 =>
          obtain ⟨name, hn⟩ := named c h2
          have : Script.op_to_asm_word L (.code c) false = name := by
            simp only [Script.op_to_asm_word, hn]
          rw [this]
          exact asm_word_name P hn
        | data d e h2 h3 =>
          rw [(C41_item P L d h3.length).2 h3]
          exact h2
      simp only [List.map_cons, packAll, this, ih, ok_bind', pure_ok']
  rw [hasm, Script.from_asm, split_join P _ hplain, hwords]
  rfl

/-- The round trip fails for some minimal pushes: five bytes whose hex form is a decimal number of
32 bits are read back as that number. -/
theorem C41_digits_fail (L : Secp) : ∃ d s, push_item d = .ok s ∧ Script.ops s = ([.data d], .ok ()) ∧
    Script.from_asm asciiText (Script.to_asm L s false) ≠ .ok s := by
  refine ⟨[0x12, 0x34, 0x56, 0x78, 0x90], [0x05, 0x12, 0x34, 0x56, 0x78, 0x90], by decide +kernel,
    by decide +kernel, ?_⟩
  have : Script.to_asm L [0x05, 0x12, 0x34, 0x56, 0x78, 0x90] false = "1234567890".toList := rfl
  rw [this]
  decide +kernel

/-- It fails for a byte string that is not the shortest of its value, though it is pushed minimally. -/
theorem C41_zero_fail (L : Secp) : push_item [0] = .ok [1, 0] ∧
    Script.from_asm asciiText (Script.to_asm L [1, 0] false) = .ok [0] := by
  have : Script.to_asm L [1, 0] false = "0".toList := rfl
  rw [this]
  decide +kernel

example : AsmPart asciiText [0x76] (.code 0x76) := .code 0x76 (.inl (by decide))
  ⟨"OP_DUP".toList, .inl (.inr ⟨42, "DUP".toList, by decide +kernel, rfl, rfl⟩)⟩

example : AsmPart asciiText [0x06, 0xab, 1, 2, 3, 4, 5] (.data [0xab, 1, 2, 3, 4, 5]) :=
  .data _ _ (by decide +kernel) (.inr ⟨by decide, by decide, .inl ⟨'a', by decide, by decide⟩⟩)

theorem opsTable_brackets : ∀ e ∈ opsTable, e.1.head? ≠ none ∧ e.1.head? ≠ some '[' := by decide +kernel

theorem bracket_not_hex : '[' ∉ hexAlphabet := by decide

/-- No word starts with a bracket. -/
theorem asm_word_head (L : Secp) (op : Op) (b : Bool) :
    ∃ c rest, Script.op_to_asm_word L op b = c :: rest ∧ c ≠ '[' := by
  have hh : ∀ d : Bytes, d ≠ [] → ∃ c rest, hex d = c :: rest ∧ c ≠ '[' := by
    intro d hd
    cases he : hex d with
    | nil => exact absurd he (hex_ne_nil hd)
    | cons c rest =>
      have := hex_over d c (by rw [he]; simp)
      exact ⟨c, rest, rfl, fun e => bracket_not_hex (e ▸ this)⟩
  cases op with
  | data d =>
    simp only [Script.op_to_asm_word]
    split
    · next hl =>
      cases hs : strInt (item_to_int d) with
      | nil => exact absurd hs (strInt_plain _).1
      | cons c rest =>
        refine ⟨c, rest, rfl, ?_⟩
        rintro rfl
        rw [strInt] at hs
        split at hs
        · cases hs
        · have := strNat_over (item_to_int d).toNat '[' (by rw [hs]; simp)
          exact absurd this (by decide)
    · next hl =>
      have hd : d ≠ [] := by rintro rfl; simp at hl
      split
      · next hc =>
        split
        · next s hs =>
          have : s = d := by
            unfold Signature.new at hs
            split at hs
            · exact (Except.ok.inj hs).symm
            · simp only [bind_eq_ok] at hs
              obtain ⟨_, _, h⟩ := hs
              exact (Except.ok.inj h).symm
          subst this
          have hne : dropEnd s 1 ≠ [] := by
            intro e
            have := congrArg List.length e
            simp [dropEnd] at this
            omega
          obtain ⟨c, rest, h1, h2⟩ := hh _ hne
          exact ⟨c, _, by rw [Signature.to_string, h1]; rfl, h2⟩
        · exact hh d hd
      · exact hh d hd
  | code c =>
    simp only [Script.op_to_asm_word]
    split
    · next name hn =>
      have := opsTable_brackets _ (opsByValue_mem hn)
      cases name with
      | nil => simp at this
      | cons c rest => exact ⟨c, rest, rfl, by simpa using this⟩
    · split
      · exact ⟨_, _, rfl, by decide⟩
      · exact ⟨_, _, rfl, by decide⟩

/-- The text is `[error]` exactly if the script is not a concatenation of encodings of operations;
otherwise it is the words of the operations with blanks between them. -/
theorem C41_error (L : Secp) (s : Bytes) (b : Bool) :
    (Script.to_asm L s b = "[error]".toList ↔
      ¬ ∃ parts xs, s = List.flatten parts ∧ List.Forall₂ Encodes parts xs) ∧
    (∀ parts xs, s = List.flatten parts → List.Forall₂ Encodes parts xs →
      Script.to_asm L s b = joinStr [' '] (xs.map (fun op => Script.op_to_asm_word L op b))) := by
  have good : ∀ parts xs, s = List.flatten parts → List.Forall₂ Encodes parts xs →
      Script.to_asm L s b = joinStr [' '] (xs.map (fun op => Script.op_to_asm_word L op b)) := by
    rintro parts xs rfl h
    have hops := Script.ops_encodes_all h []
    simp only [List.append_nil, Script.ops_nil] at hops
    simp only [Script.to_asm, hops]
  refine ⟨⟨?_, ?_⟩, good⟩
  · rintro he ⟨parts, xs, h1, h2⟩
    rw [good parts xs h1 h2] at he
    cases xs with
    | nil => cases he
    | cons x xs =>
      obtain ⟨c, rest, h3, h4⟩ := asm_word_head L x b
      have : (joinStr [' '] ((x :: xs).map (fun op => Script.op_to_asm_word L op b))).head? = some c := by
        rw [List.map_cons, h3]
        cases xs.map (fun op => Script.op_to_asm_word L op b) <;> simp [joinStr]
      rw [he] at this
      exact h4 (Option.some.inj this).symm
  · intro hn
    obtain ⟨parts, tail, h1, h2, h3⟩ := Script.ops_parts s
    rcases h3 with ⟨h4, _⟩ | ⟨_, h5, _⟩
    · exact absurd ⟨parts, _, by rw [h1, h4, List.append_nil], h2⟩ hn
    · unfold Script.to_asm
      split
      · next he => rw [he] at h5; cases h5
      · rfl

example (L : Secp) : Script.to_asm L [0x76, 0x05, 1] false = "[error]".toList := rfl

end Bitcoinx
