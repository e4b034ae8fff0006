import Verif.Spec.Classify
import Verif.Props.Address
import Verif.Props.KeySign
import Verif.Props.Script

/-! # Properties of the classification of scripts: C42, C82, C83 and C84 -/

namespace Bitcoinx

open Spec

/-! ## C83: stripping -/

theorem Spec.RemovesAll.trans {a b c : List Op} (h : RemovesAll a b) (h' : RemovesAll b c) : RemovesAll a c := by
  induction h with
  | refl => exact h'
  | step h _ ih => exact .step h (ih h')

theorem Spec.Removes.append {a b : List Op} (h : Removes a b) (c : List Op) : Removes (a ++ c) (b ++ c) := by
  cases h with
  | nop a b => simpa using Removes.nop a (b ++ c)
  | drop a b d => simpa using Removes.drop a (b ++ c) d
  | drop2 a b d e => simpa using Removes.drop2 a (b ++ c) d e

theorem Spec.RemovesAll.append {a b : List Op} (h : RemovesAll a b) (c : List Op) : RemovesAll (a ++ c) (b ++ c) := by
  induction h with
  | refl => exact .refl _
  | step h _ ih => exact .step (h.append c) ih

/-- What `strip_step` does to the (reversed) list. -/
theorem strip_step_removes (R : List Op) (op : Op) :
    RemovesAll (R.reverse ++ [op]) (Script.strip_step R op).reverse := by
  unfold Script.strip_step
  by_cases h1 : op = .code OP_NOP
  · rw [if_pos h1, h1]
    have := Removes.nop R.reverse []
    rw [List.append_nil] at this
    exact .step this (.refl _)
  rw [if_neg h1]
  have plain : RemovesAll (R.reverse ++ [op]) (op :: R).reverse := by
    rw [List.reverse_cons]; exact .refl _
  by_cases h2 : op = .code OP_DROP
  · rw [if_pos h2]
    match R with
    | [] => exact plain
    | .code _ :: _ => exact plain
    | .data d :: rest =>
      rw [h2]
      have := Removes.drop rest.reverse [] d
      rw [List.append_nil] at this
      simpa [OP_DROP, OP_2DROP] using RemovesAll.step this (.refl _)
  rw [if_neg h2]
  by_cases h3 : op = .code OP_2DROP
  · rw [if_pos h3]
    match R with
    | [] => exact plain
    | .code _ :: _ => exact plain
    | [.data _] => exact plain
    | .data _ :: .code _ :: _ => exact plain
    | .data d :: .data e :: rest =>
      rw [h3]
      have := Removes.drop2 rest.reverse [] e d
      rw [List.append_nil] at this
      simpa [OP_DROP, OP_2DROP] using RemovesAll.step this (.refl _)
  rw [if_neg h3]
  exact plain

theorem fold_removes (xs R : List Op) :
    RemovesAll (R.reverse ++ xs) (xs.foldl Script.strip_step R).reverse := by
  induction xs generalizing R with
  | nil => rw [List.append_nil]; exact .refl _
  | cons x xs ih =>
    have := (strip_step_removes R x).append xs
    rw [List.append_assoc, List.singleton_append] at this
    exact this.trans (ih _)

/-- A removal does not change the result of the fold. -/
theorem fold_of_removes {a b : List Op} (h : Removes a b) (R : List Op) :
    a.foldl Script.strip_step R = b.foldl Script.strip_step R := by
  cases h with
  | nop a b => rw [List.foldl_append, List.foldl_append]; rfl
  | drop a b d => rw [List.foldl_append, List.foldl_append]; rfl
  | drop2 a b d e => rw [List.foldl_append, List.foldl_append]; rfl

theorem fold_of_removesAll {a b : List Op} (h : RemovesAll a b) (R : List Op) :
    a.foldl Script.strip_step R = b.foldl Script.strip_step R := by
  induction h with
  | refl => rfl
  | step h _ ih => rw [fold_of_removes h, ih]

theorem Spec.Removes.length_lt {a b : List Op} (h : Removes a b) : b.length < a.length := by
  cases h <;> simp only [List.length_append, List.length_cons] <;> omega

theorem Spec.RemovesAll.length_le {a b : List Op} (h : RemovesAll a b) :
    b.length ≤ a.length ∧ (b.length = a.length → b = a) := by
  induction h with
  | refl => exact ⟨Nat.le_refl _, fun _ => rfl⟩
  | step h _ ih => have := h.length_lt; exact ⟨by omega, fun e => by omega⟩

/-- Nothing can be removed from the result of the fold. -/
theorem fold_irreducible (xs : List Op) (c : List Op)
    (h : Removes (xs.foldl Script.strip_step []).reverse c) : False := by
  -- stripping is idempotent, while a removal shortens
  have idem : ∀ (xs R : List Op), (∀ c, ¬ Removes R.reverse c) →
      ∀ c, ¬ Removes (xs.foldl Script.strip_step R).reverse c := by
    intro xs
    induction xs with
    | nil => intro R hR; exact hR
    | cons x xs ih =>
      intro R hR
      rw [List.foldl_cons]
      apply ih
      -- a removal at the end of `R.reverse ++ [x]` would involve `x`
      have sub : ∀ (R' pre : List Op), R = pre ++ R' → ∀ c, ¬ Removes R'.reverse c := by
        intro R' pre e c hc
        refine hR (c ++ pre.reverse) ?_
        rw [e, List.reverse_append]
        exact hc.append _
      have last : ∀ (a' : List Op) (c : List Op), Removes (a' ++ [x]) c → (∀ c, ¬ Removes a' c) →
          x = .code OP_NOP ∨ (x = .code OP_DROP ∧ ∃ a d, a' = a ++ [.data d]) ∨
            (x = .code OP_2DROP ∧ ∃ a d e, a' = a ++ [.data d, .data e]) := by
        intro a' c hc hno
        generalize hw : a' ++ [x] = w at hc
        cases hc with
        | nop a b =>
          rcases List.eq_nil_or_concat b with rfl | ⟨b', y, rfl⟩
          · have := List.append_inj' hw rfl
            exact .inl (List.cons.inj this.2).1
          · exfalso
            rw [List.concat_eq_append, ← List.cons_append, ← List.append_assoc] at hw
            have := List.append_inj' hw rfl
            exact hno _ (this.1 ▸ Removes.nop a b')
        | drop a b d =>
          rcases List.eq_nil_or_concat b with rfl | ⟨b', y, rfl⟩
          · rw [show a ++ [Op.data d, .code 0x75] = (a ++ [.data d]) ++ [.code 0x75] by simp] at hw
            have := List.append_inj' hw rfl
            exact .inr (.inl ⟨(List.cons.inj this.2).1, a, d, this.1⟩)
          · exfalso
            rw [List.concat_eq_append, ← List.cons_append, ← List.cons_append, ← List.append_assoc] at hw
            have := List.append_inj' hw rfl
            exact hno _ (this.1 ▸ Removes.drop a b' d)
        | drop2 a b d e =>
          rcases List.eq_nil_or_concat b with rfl | ⟨b', y, rfl⟩
          · rw [show a ++ [Op.data d, .data e, .code 0x6d] = (a ++ [.data d, .data e]) ++ [.code 0x6d] by simp] at hw
            have := List.append_inj' hw rfl
            exact .inr (.inr ⟨(List.cons.inj this.2).1, a, d, e, this.1⟩)
          · exfalso
            rw [List.concat_eq_append, ← List.cons_append, ← List.cons_append, ← List.cons_append,
              ← List.append_assoc] at hw
            have := List.append_inj' hw rfl
            exact hno _ (this.1 ▸ Removes.drop2 a b' d e)
      intro c hc
      unfold Script.strip_step at hc
      by_cases h1 : x = .code OP_NOP
      · rw [if_pos h1] at hc; exact hR c hc
      rw [if_neg h1] at hc
      by_cases h2 : x = .code OP_DROP
      · rw [if_pos h2] at hc
        have plain : (∀ d rest, R ≠ .data d :: rest) → ¬ Removes (x :: R).reverse c := by
          intro hd hc
          rw [List.reverse_cons] at hc
          rcases last _ _ hc hR with h | ⟨_, a, d, h⟩ | ⟨h, _⟩
          · exact h1 h
          · have := congrArg List.reverse h
            rw [List.reverse_reverse, List.reverse_append] at this
            exact hd _ _ this
          · rw [h2] at h; exact absurd h (by decide)
        match R, hc with
        | [], hc => exact plain (by simp) hc
        | .code _ :: _, hc => exact plain (by simp) hc
        | .data d :: rest, hc => exact sub rest [.data d] rfl c hc
      rw [if_neg h2] at hc
      by_cases h3 : x = .code OP_2DROP
      · rw [if_pos h3] at hc
        have plain : (∀ d e rest, R ≠ .data d :: .data e :: rest) → ¬ Removes (x :: R).reverse c := by
          intro hd hc
          rw [List.reverse_cons] at hc
          rcases last _ _ hc hR with h | ⟨h, _⟩ | ⟨_, a, d, e, h⟩
          · exact h1 h
          · rw [h3] at h; exact absurd h (by decide)
          · have := congrArg List.reverse h
            rw [List.reverse_reverse, List.reverse_append] at this
            exact hd _ _ _ this
        match R, hc with
        | [], hc => exact plain (by simp) hc
        | .code _ :: _, hc => exact plain (by simp) hc
        | [.data _], hc => exact plain (by simp) hc
        | .data _ :: .code _ :: _, hc => exact plain (by simp) hc
        | .data d :: .data e :: rest, hc => exact sub rest [.data d, .data e] rfl c hc
      rw [if_neg h3, List.reverse_cons] at hc
      rcases last _ _ hc hR with h | ⟨h, _⟩ | ⟨h, _⟩
      · exact h1 h
      · exact h2 h
      · exact h3 h
  refine idem xs [] ?_ c h
  intro c hc
  have := hc.length_lt
  simp at this

/-- The operations of a script, with `OP_0` for what follows a truncation. -/
def opsOf (script : Bytes) : List Op :=
  (Script.ops script).1 ++ match (Script.ops script).2 with | .ok () => [] | .error _ => [.code 0]

theorem stripped_eq (script : Bytes) :
    Script.stripped_ops script = ((opsOf script).foldl Script.strip_step []).reverse := by
  unfold Script.stripped_ops opsOf
  cases h : Script.ops script with
  | mk xs r =>
    cases r with
    | ok u => simp
    | error e =>
      simp only [List.foldl_append, List.foldl_cons, List.foldl_nil]
      have : ∀ R, Script.strip_step R (.code 0) = .code 0 :: R := fun R => rfl
      rw [this, List.reverse_cons]
      rfl

/-- **C83**.  `_stripped_ops` gives the normal form of the operations under the removals: it is
reached by removals, no removal applies to it, and it is the only such list. -/
theorem C83_normal_form (script : Bytes) :
    RemovesAll (opsOf script) (Script.stripped_ops script) ∧
    (∀ c, ¬ Removes (Script.stripped_ops script) c) ∧
    ∀ ys, RemovesAll (opsOf script) ys → (∀ c, ¬ Removes ys c) → ys = Script.stripped_ops script := by
  rw [stripped_eq]
  refine ⟨by simpa using fold_removes (opsOf script) [], fold_irreducible _, ?_⟩
  intro ys h1 h2
  rw [fold_of_removesAll h1]
  have h3 := fold_removes ys []
  rw [List.reverse_nil, List.nil_append] at h3
  generalize (ys.foldl Script.strip_step []).reverse = w at h3
  cases h3 with
  | step h _ => exact absurd h (h2 _)
  | refl => rfl

theorem evalWith_append {σ : Type} (step : Op → σ → Option σ) (a b : List Op) (s : σ) :
    evalWith step (a ++ b) s = (evalWith step a s).bind (evalWith step b) := by
  induction a generalizing s with
  | nil => rfl
  | cons x a ih =>
    rw [List.cons_append, evalWith, evalWith]
    cases step x s with
    | none => rfl
    | some s => exact ih s

/-- **C83** (meaning).  For any interpreter in which `OP_NOP` has no effect and drops undo pushes,
the stripped operations evaluate to the same as the operations.  (An interpreter that also limits
the size of the stack or the number of operations does not satisfy these laws.) -/
theorem C83_evaluation {σ : Type} (step : Op → σ → Option σ) (h : DropsUndo step) (script : Bytes) (s : σ) :
    evalWith step (Script.stripped_ops script) s = evalWith step (opsOf script) s := by
  obtain ⟨h1, h2, h3⟩ := h
  have one : ∀ a b, Removes a b → evalWith step b s = evalWith step a s := by
    intro a b hab
    cases hab with
    | nop a b =>
      rw [evalWith_append, evalWith_append]
      congr 1
      funext s
      rw [evalWith, h1, Option.bind_some]
    | drop a b d =>
      rw [evalWith_append, evalWith_append]
      congr 1
      funext s
      rw [show Op.data d :: .code 0x75 :: b = [Op.data d, .code 0x75] ++ b from rfl, evalWith_append, h2,
        Option.bind_some]
    | drop2 a b d e =>
      rw [evalWith_append, evalWith_append]
      congr 1
      funext s
      rw [show Op.data d :: .data e :: .code 0x6d :: b = [Op.data d, .data e, .code 0x6d] ++ b from rfl,
        evalWith_append, h3, Option.bind_some]
  have many : ∀ a b, RemovesAll a b → evalWith step b s = evalWith step a s := by
    intro a b hab
    induction hab with
    | refl => rfl
    | step h _ ih => rw [ih, one _ _ h]
  exact many _ _ (C83_normal_form script).1

/-- An interpreter with the laws: pushes and drops on a stack. -/
example : DropsUndo (fun (op : Op) (st : List Bytes) => match op with
    | .data d => some (d :: st)
    | .code c => if c = 0x61 then some st else if c = 0x75 then st.tail?
        else if c = 0x6d then st.tail?.bind List.tail? else none) :=
  ⟨fun _ => rfl, fun _ _ => rfl, fun _ _ _ => rfl⟩

example : Script.stripped_ops [0x01, 0x07, 0x61, 0x02, 0x08, 0x09, 0x55, 0x6d, 0x75, 0xac] = [.code 0xac] := by
  decide +kernel

/-! ## C42: classification -/

/-- The codes that can be among the stripped operations. -/
def CodeOk : Op → Prop
  | .data _ => True
  | .code c => 0x60 < c.toNat ∨ c.toNat = 0x50 ∨ c.toNat = 0

theorem opsOf_codes (script : Bytes) : ∀ op ∈ opsOf script, CodeOk op := by
  obtain ⟨parts, tail, _, h2, h3⟩ := Script.ops_parts script
  have all : ∀ op ∈ (Script.ops script).1, CodeOk op := by
    clear h3
    rename_i h1
    clear h1
    generalize (Script.ops script).1 = xs at h2
    intro op hop
    induction h2 with
    | nil => cases hop
    | cons h _ ih =>
      rcases List.mem_cons.mp hop with rfl | hop
      · cases h with
        | code c hc => rcases hc with hc | hc
                       · exact .inl hc
                       · exact .inr (.inl hc)
        | _ => trivial
      · exact ih hop
  intro op hop
  unfold opsOf at hop
  rcases List.mem_append.mp hop with hop | hop
  · exact all op hop
  · cases hr : (Script.ops script).2 with
    | ok u => rw [hr] at hop; cases hop
    | error e =>
      rw [hr] at hop
      rw [List.mem_singleton.mp hop]
      exact .inr (.inr rfl)

theorem Spec.Removes.mem {a b : List Op} (h : Removes a b) : ∀ x ∈ b, x ∈ a := by
  intro x hx
  cases h <;> · rcases List.mem_append.mp hx with hx | hx <;> simp [hx]

theorem Spec.RemovesAll.mem {a b : List Op} (h : RemovesAll a b) : ∀ x ∈ b, x ∈ a := by
  induction h with
  | refl => exact fun _ h => h
  | step h _ ih => exact fun x hx => h.mem x (ih x hx)

theorem stripped_codes (script : Bytes) : ∀ op ∈ Script.stripped_ops script, CodeOk op :=
  fun op hop => opsOf_codes script op ((C83_normal_form script).1.mem op hop)

/-- The template and the items of a list of operations. -/
def templ (xs : List Op) : Bytes := xs.map (fun op => match op with | .data _ => OP_PUSHDATA1 | .code c => c)

def itemsOf (xs : List Op) : List Bytes :=
  xs.filterMap (fun op => match op with | .data d => some d | .code _ => none)

theorem templ_code {x : Op} {xs : List Op} {c : UInt8} {t : Bytes} (hx : CodeOk x) (hc : c ≠ OP_PUSHDATA1)
    (h : templ (x :: xs) = c :: t) : x = .code c ∧ templ xs = t := by
  unfold templ at h
  rw [List.map_cons] at h
  obtain ⟨h1, h2⟩ := List.cons.inj h
  cases x with
  | data d => exact absurd h1.symm hc
  | code c' => exact ⟨congrArg Op.code h1, h2⟩

theorem templ_data {x : Op} {xs : List Op} {t : Bytes} (hx : CodeOk x)
    (h : templ (x :: xs) = OP_PUSHDATA1 :: t) : (∃ d, x = .data d) ∧ templ xs = t := by
  unfold templ at h
  rw [List.map_cons] at h
  obtain ⟨h1, h2⟩ := List.cons.inj h
  cases x with
  | data d => exact ⟨⟨d, rfl⟩, h2⟩
  | code c' =>
    dsimp only at h1
    rw [h1] at hx
    exact absurd hx (by unfold CodeOk OP_PUSHDATA1; decide)

/-- Operations of which the first code is `c`. -/
def firstCode : List Op → Option UInt8
  | [] => none
  | .data _ :: xs => firstCode xs
  | .code c :: _ => some c

theorem firstCode_data (ds : List Bytes) (xs : List Op) : firstCode (ds.map .data ++ xs) = firstCode xs := by
  induction ds with
  | nil => rfl
  | cons d ds ih => exact ih

/-- Pushes, then nothing or a code. -/
theorem split_data (xs : List Op) : ∃ (ds : List Bytes) (ys : List Op), xs = ds.map Op.data ++ ys ∧
    (ys = [] ∨ ∃ c zs, ys = .code c :: zs) := by
  induction xs with
  | nil => exact ⟨[], [], rfl, .inl rfl⟩
  | cons x xs ih =>
    cases x with
    | code c => exact ⟨[], _, rfl, .inr ⟨c, xs, rfl⟩⟩
    | data d =>
      obtain ⟨ds, ys, h, h'⟩ := ih
      exact ⟨d :: ds, ys, by rw [h]; rfl, h'⟩

theorem templ_append (xs ys : List Op) : templ (xs ++ ys) = templ xs ++ templ ys := List.map_append

theorem templ_pushes (ds : List Bytes) : templ (ds.map .data) = List.replicate ds.length OP_PUSHDATA1 := by
  induction ds with
  | nil => rfl
  | cons d ds ih =>
    rw [List.map_cons, List.length_cons, List.replicate_succ, ← ih]
    rfl

theorem itemsOf_pushes (ds : List Bytes) (ys : List Op) : itemsOf (ds.map .data ++ ys) = ds ++ itemsOf ys := by
  induction ds with
  | nil => rfl
  | cons d ds ih =>
    rw [List.cons_append, ← ih]
    rfl

/-- Dropping the placeholders of the pushes. -/
theorem drop_pushes (ds : List Bytes) (c : UInt8) (zs : List Op) (hc : CodeOk (.code c)) :
    (templ (ds.map .data ++ .code c :: zs)).dropWhile (· == OP_PUSHDATA1) = c :: templ zs := by
  have hne : (c == OP_PUSHDATA1) = false := by
    rw [beq_eq_false_iff_ne]
    rintro rfl
    exact absurd hc (by unfold CodeOk OP_PUSHDATA1; decide)
  induction ds with
  | nil =>
    rw [List.map_nil, List.nil_append]
    unfold templ
    rw [List.map_cons, List.dropWhile_cons]
    simp only [hne]
    rfl
  | cons d ds ih =>
    rw [← ih]
    rfl

theorem drop_pushes_all (ds : List Bytes) :
    (templ (ds.map .data)).dropWhile (· == OP_PUSHDATA1) = [] := by
  induction ds with
  | nil => rfl
  | cons d ds ih => rw [← ih]; rfl

theorem op_return_match_iff (xs : List Op) (hx : ∀ op ∈ xs, CodeOk op) :
    op_return_match (templ xs) = true ↔ ∃ (ds : List Bytes) (rest : List Op), xs = ds.map Op.data ++ .code 0x6a :: rest := by
  constructor
  · intro h
    obtain ⟨ds, ys, h1, h2⟩ := split_data xs
    rcases h2 with rfl | ⟨c, zs, rfl⟩
    · rw [h1, List.append_nil, op_return_match, drop_pushes_all] at h
      exact absurd h (by decide)
    · have hc : CodeOk (.code c) := hx _ (by rw [h1]; simp)
      rw [h1, op_return_match, drop_pushes _ _ _ hc] at h
      have : c = OP_RETURN := by simpa using h
      exact ⟨ds, zs, by rw [h1, this]; rfl⟩
  · rintro ⟨ds, rest, h⟩
    rw [h, op_return_match, drop_pushes _ _ _ (by unfold CodeOk; decide)]
    rfl

theorem multisig_match_iff (xs : List Op) (hx : ∀ op ∈ xs, CodeOk op) :
    multisig_match (templ xs) = true ↔ ∃ ds : List Bytes, 3 ≤ ds.length ∧ xs = ds.map Op.data ++ [.code 0xae] := by
  constructor
  · intro h
    obtain ⟨ds, ys, h1, h2⟩ := split_data xs
    rcases h2 with rfl | ⟨c, zs, rfl⟩
    · rw [h1, List.append_nil, multisig_match, drop_pushes_all] at h
      simp at h
    · have hc : CodeOk (.code c) := hx _ (by rw [h1]; simp)
      rw [h1, multisig_match, drop_pushes _ _ _ hc] at h
      simp only [Bool.and_eq_true, decide_eq_true_eq, Bool.or_eq_true, beq_iff_eq] at h
      obtain ⟨h3, h4⟩ := h
      have hlen : 3 ≤ ds.length := by
        rw [templ_append, templ_pushes, List.length_append, List.length_replicate, List.length_cons] at h3
        have : (templ (.code c :: zs)).length = (templ zs).length + 1 := by unfold templ; simp
        omega
      refine ⟨ds, hlen, ?_⟩
      have hz : zs = [] ∧ c = 0xae := by
        rcases h4 with h4 | h4
        · refine ⟨?_, (List.cons.inj h4).1⟩
          have := (List.cons.inj h4).2
          unfold templ at this
          exact List.map_eq_nil_iff.mp this
        · exfalso
          have h5 := (List.cons.inj h4).2
          cases zs with
          | nil => cases h5
          | cons z zs =>
            have hz : CodeOk z := hx _ (by rw [h1]; simp)
            have := (templ_code hz (by decide) h5).1
            rw [this] at hz
            exact absurd hz (by unfold CodeOk; decide)
      rw [h1, hz.1, hz.2]
  · rintro ⟨ds, hl, h⟩
    rw [h, multisig_match, drop_pushes _ _ _ (by unfold CodeOk; decide), templ_append, templ_pushes]
    have e : templ [] = [] := rfl
    have e2 : (templ [Op.code 0xae]).length = 1 := rfl
    rw [e, List.length_append, List.length_replicate, e2]
    simp only [List.length_singleton, Bool.and_eq_true, decide_eq_true_eq]
    exact ⟨by omega, by decide⟩

theorem pkh_match_iff (xs : List Op) (hx : ∀ op ∈ xs, CodeOk op) :
    (templ xs == [OP_DUP, OP_HASH160, OP_PUSHDATA1, OP_EQUALVERIFY, OP_CHECKSIG]) = true ↔
      ∃ d, xs = [.code 0x76, .code 0xa9, .data d, .code 0x88, .code 0xac] := by
  rw [beq_iff_eq]
  constructor
  · intro h
    match xs, hx, h with
    | [a, b, c, d, e], hx, h0 =>
      obtain ⟨e0, h1⟩ := templ_code (hx a (by simp)) (by decide) h0
      obtain ⟨e1, h2⟩ := templ_code (hx b (by simp)) (by decide) h1
      obtain ⟨⟨x, e2⟩, h3⟩ := templ_data (hx c (by simp)) h2
      obtain ⟨e3, h4⟩ := templ_code (hx d (by simp)) (by decide) h3
      obtain ⟨e4, h5⟩ := templ_code (hx e (by simp)) (by decide) h4
      exact ⟨x, by rw [e0, e1, e2, e3, e4]; rfl⟩
    | [], _, h => cases h
    | [_], _, h => exact absurd (congrArg List.length h) (by simp [templ])
    | [_, _], _, h => exact absurd (congrArg List.length h) (by simp [templ])
    | [_, _, _], _, h => exact absurd (congrArg List.length h) (by simp [templ])
    | [_, _, _, _], _, h => exact absurd (congrArg List.length h) (by simp [templ])
    | _ :: _ :: _ :: _ :: _ :: _ :: _, _, h => exact absurd (congrArg List.length h) (by simp [templ])
  · rintro ⟨d, rfl⟩
    rfl

theorem sh_match_iff (xs : List Op) (hx : ∀ op ∈ xs, CodeOk op) :
    (templ xs == [OP_HASH160, OP_PUSHDATA1, OP_EQUAL]) = true ↔
      ∃ d, xs = [.code 0xa9, .data d, .code 0x87] := by
  rw [beq_iff_eq]
  constructor
  · intro h
    match xs, hx, h with
    | [a, b, c], hx, h0 =>
      obtain ⟨e0, h1⟩ := templ_code (hx a (by simp)) (by decide) h0
      obtain ⟨⟨x, e1⟩, h2⟩ := templ_data (hx b (by simp)) h1
      obtain ⟨e2, h3⟩ := templ_code (hx c (by simp)) (by decide) h2
      exact ⟨x, by rw [e0, e1, e2]; rfl⟩
    | [], _, h => cases h
    | [_], _, h => exact absurd (congrArg List.length h) (by simp [templ])
    | [_, _], _, h => exact absurd (congrArg List.length h) (by simp [templ])
    | _ :: _ :: _ :: _ :: _, _, h => exact absurd (congrArg List.length h) (by simp [templ])
  · rintro ⟨d, rfl⟩
    rfl

theorem pk_match_iff (xs : List Op) (hx : ∀ op ∈ xs, CodeOk op) :
    (templ xs == [OP_PUSHDATA1, OP_CHECKSIG]) = true ↔ ∃ d, xs = [.data d, .code 0xac] := by
  rw [beq_iff_eq]
  constructor
  · intro h
    match xs, hx, h with
    | [a, b], hx, h0 =>
      obtain ⟨⟨x, e0⟩, h1⟩ := templ_data (hx a (by simp)) h0
      obtain ⟨e1, h2⟩ := templ_code (hx b (by simp)) (by decide) h1
      exact ⟨x, by rw [e0, e1]; rfl⟩
    | [], _, h => cases h
    | [_], _, h => exact absurd (congrArg List.length h) (by simp [templ])
    | _ :: _ :: _ :: _, _, h => exact absurd (congrArg List.length h) (by simp [templ])
  · rintro ⟨d, rfl⟩
    rfl

/-! ### Running through the templates -/

/-- The result of one constructor, when its template matches. -/
def settle {α : Type} (unknown : α) (r : Res α) : Res α :=
  match r with
  | .ok x => .ok x
  | .error e => if e.isValueError ∨ e = .typeError then .ok unknown else .error e

theorem loop_none {α : Type} (T : Bytes) (items : List Bytes) (u : α)
    (l : List ((Bytes → Bool) × (List Bytes → Res α))) (h : ∀ p ∈ l, p.1 T = false) :
    classify_loop T items u l = .ok u := by
  induction l with
  | nil => rfl
  | cons p l ih =>
    obtain ⟨t, f⟩ := p
    have h0 : t T = false := h (t, f) (by simp)
    rw [classify_loop, h0]
    simp only [Bool.false_eq_true, if_false]
    exact ih (fun p hp => h p (List.mem_cons_of_mem _ hp))

theorem loop_one {α : Type} (T : Bytes) (items : List Bytes) (u : α)
    (l1 l2 : List ((Bytes → Bool) × (List Bytes → Res α))) (t : Bytes → Bool) (f : List Bytes → Res α)
    (h1 : ∀ p ∈ l1, p.1 T = false) (h : t T = true) (h2 : ∀ p ∈ l2, p.1 T = false) :
    classify_loop T items u (l1 ++ (t, f) :: l2) = settle u (f items) := by
  induction l1 with
  | nil =>
    rw [List.nil_append, classify_loop, h]
    simp only [if_true]
    unfold settle
    cases f items with
    | ok x => rfl
    | error e =>
      dsimp only
      by_cases c : e.isValueError ∨ e = .typeError
      · rw [if_pos c, if_pos c, loop_none _ _ _ _ h2]
      · rw [if_neg c, if_neg c]
  | cons p l ih =>
    obtain ⟨t', f'⟩ := p
    have h0 : t' T = false := h1 (t', f') (by simp)
    rw [List.cons_append, classify_loop, h0]
    simp only [Bool.false_eq_true, if_false]
    exact ih (fun p hp => h1 p (List.mem_cons_of_mem _ hp))

theorem settle_ok {α : Type} {u x : α} : settle u (.ok x) = .ok x := rfl
theorem settle_value {α : Type} {u : α} : settle u (.error .valueError) = .ok u := rfl

theorem mapAll_ok {α β : Type} {f : α → Res β} {xs : List α} {ys : List β}
    (h : List.Forall₂ (fun x y => f x = .ok y) xs ys) : mapAll f xs = .ok ys := by
  induction h with
  | nil => rfl
  | cons h _ ih => rw [mapAll, h, ok_bind', ih, ok_bind', pure_ok']

theorem mapAll_inv {α β : Type} {f : α → Res β} {xs : List α} {ys : List β} (h : mapAll f xs = .ok ys) :
    List.Forall₂ (fun x y => f x = .ok y) xs ys := by
  induction xs generalizing ys with
  | nil => cases h; exact .nil
  | cons x xs ih =>
    rw [mapAll] at h
    obtain ⟨y, h1, h⟩ := bind_eq_ok.mp h
    obtain ⟨ys', h2, h⟩ := bind_eq_ok.mp h
    cases h
    exact .cons h1 (ih h2)

theorem mapAll_error {α β : Type} {f : α → Res β} {xs : List α} {e : Err} (h : mapAll f xs = .error e) :
    ∃ x ∈ xs, f x = .error e := by
  induction xs with
  | nil => cases h
  | cons x xs ih =>
    rw [mapAll] at h
    rcases bind_eq_error.mp h with h | ⟨y, _, h⟩
    · exact ⟨x, by simp, h⟩
    · rcases bind_eq_error.mp h with h | ⟨ys', _, h⟩
      · obtain ⟨x', h1, h2⟩ := ih h
        exact ⟨x', List.mem_cons_of_mem _ h1, h2⟩
      · cases h

theorem forall₂_length {α β : Type} {R : α → β → Prop} {xs : List α} {ys : List β}
    (h : List.Forall₂ R xs ys) : xs.length = ys.length := by
  induction h with
  | nil => rfl
  | cons _ _ ih => simp [ih]

/-- The multisig constructor. -/
theorem from_template_cases (L : Secp) (t : Bytes) (ds : List Bytes) (n : Bytes) :
    (∃ keys, P2MultiSig_from_template L (t :: (ds ++ [n])) = .ok (.P2MultiSig keys (itemValue t)) ∧
      List.Forall₂ (fun d k => PublicKey.from_bytes L d = .ok k) ds keys ∧ itemValue n = ds.length ∧
      1 ≤ itemValue t ∧ itemValue t ≤ ds.length) ∨
    (P2MultiSig_from_template L (t :: (ds ++ [n])) = .error .valueError ∧
      ¬ (itemValue n = ds.length ∧ 1 ≤ itemValue t ∧ itemValue t ≤ ds.length ∧
        ∃ keys, List.Forall₂ (fun d k => PublicKey.from_bytes L d = .ok k) ds keys)) := by
  have hdef : P2MultiSig_from_template L (t :: (ds ++ [n])) =
      if itemValue n ≠ ds.length then .error .valueError else P2MultiSig_Output L ds (itemValue t) := by
    simp only [P2MultiSig_from_template, List.getLast?_append, List.getLast?_singleton, Option.some_or,
      List.dropLast_concat, item_to_int_eq]
  rw [hdef]
  by_cases hn : itemValue n = ds.length
  · rw [if_neg (not_not.mpr hn), P2MultiSig_Output]
    cases hm : mapAll (PublicKey.from_bytes L) ds with
    | error e =>
      obtain ⟨d, _, hd⟩ := mapAll_error hm
      rw [error_bind', (C78_accepts L d).2 e hd]
      refine .inr ⟨rfl, ?_⟩
      rintro ⟨_, _, _, keys, hk⟩
      rw [mapAll_ok hk] at hm
      cases hm
    | ok keys =>
      have hk := mapAll_inv hm
      have hl := forall₂_length hk
      rw [ok_bind', P2MultiSig_of_keys]
      rw [← hl]
      by_cases ht : 1 ≤ itemValue t ∧ itemValue t ≤ (ds.length : Int)
      · rw [if_neg (not_not.mpr ht)]
        exact .inl ⟨keys, rfl, hk, hn, ht⟩
      · rw [if_pos ht]
        exact .inr ⟨rfl, fun h => ht ⟨h.2.1, h.2.2.1⟩⟩
  · rw [if_pos hn]
    exact .inr ⟨rfl, fun h => hn h.1⟩

/-- C42: `P2MultiSig_Output.from_template` for any items: the first is the threshold, the last the number of the others,
which are public keys; whatever else is given, also less than two items, is a `ValueError`. -/
theorem C42_template (L : Secp) (items : List Bytes) :
    (∀ o, P2MultiSig_from_template L items = .ok o ↔ ∃ t ds n keys, items = t :: (ds ++ [n]) ∧
      List.Forall₂ (fun d k => PublicKey.from_bytes L d = .ok k) ds keys ∧ itemValue n = ds.length ∧
      1 ≤ itemValue t ∧ itemValue t ≤ ds.length ∧ o = .P2MultiSig keys (itemValue t)) ∧
    (∀ e, P2MultiSig_from_template L items = .error e → e = .valueError) := by
  rcases items with _ | ⟨t, rest⟩
  · refine ⟨fun o => ⟨(fun h => by cases h), ?_⟩, fun e h => by cases h; rfl⟩
    rintro ⟨t, ds, n, keys, h, _⟩
    cases h
  · rcases List.eq_nil_or_concat' rest with rfl | ⟨ds, n, rfl⟩
    · refine ⟨fun o => ⟨(fun h => by cases h), ?_⟩, fun e h => by cases h; rfl⟩
      rintro ⟨t, ds, n, keys, h, _⟩
      simp at h
    · rcases from_template_cases L t ds n with ⟨keys, h1, h2, h3, h4, h5⟩ | ⟨h1, h2⟩
      · rw [h1]
        refine ⟨fun o => ⟨fun h => ⟨t, ds, n, keys, rfl, h2, h3, h4, h5, (Except.ok.inj h).symm⟩, ?_⟩, fun e h => by cases h⟩
        rintro ⟨t', ds', n', keys', h, hk, _, _, _, rfl⟩
        obtain ⟨rfl, h'⟩ := List.cons.inj h
        obtain ⟨rfl, _⟩ := List.append_inj' h' rfl
        have := (mapAll_ok h2).symm.trans (mapAll_ok hk)
        rw [Except.ok.inj this]
      · rw [h1]
        refine ⟨fun o => ⟨(fun h => by cases h), ?_⟩, fun e h => (Except.error.inj h).symm⟩
        rintro ⟨t', ds', n', keys', h, hk, a, b, c, rfl⟩
        obtain ⟨rfl, h'⟩ := List.cons.inj h
        obtain ⟨rfl, h''⟩ := List.append_inj' h' rfl
        cases h''
        exact absurd ⟨a, b, c, keys', hk⟩ h2

/-- The code that comes first in a standard form. -/
def outCode {L : Secp} : Output L → Option UInt8
  | .address (.P2PKH _ _) => some 0x76
  | .address (.P2SH _ _) => some 0xa9
  | .P2PK _ _ => some 0xac
  | .OP_RETURN => some 0x6a
  | .P2MultiSig _ _ => some 0xae
  | .Unknown => none

theorem Spec.Standard.firstCode {L : Secp} {coin : Coin} {xs : List Op} {o : Output L}
    (h : Standard L coin xs o) : firstCode xs = outCode o := by
  cases h with
  | op_return ds rest => rw [firstCode_data]; rfl
  | multisig t ds n keys =>
    show Bitcoinx.firstCode (ds.map Op.data ++ [.data n, .code 0xae]) = _
    rw [firstCode_data]; rfl
  | _ => rfl

theorem map_data_inj {ds es : List Bytes} (h : ds.map Op.data = es.map Op.data) : ds = es :=
  (List.map_injective_iff.mpr (fun a b h => by injection h)) h

theorem forall₂_fun {α β : Type} {R : α → β → Prop} (hR : ∀ a b c, R a b → R a c → b = c)
    {xs : List α} {ys zs : List β} (h : List.Forall₂ R xs ys) (h' : List.Forall₂ R xs zs) : ys = zs := by
  induction h generalizing zs with
  | nil => cases h'; rfl
  | cons h _ ih =>
    cases h' with
    | cons g g' => rw [hR _ _ _ h g, ih g']

/-- A list of operations has one standard form at most. -/
theorem Spec.Standard.unique {L : Secp} {coin : Coin} {xs : List Op} {o o' : Output L} (h : Standard L coin xs o)
    (h' : Standard L coin xs o') : o = o' := by
  have e := h.firstCode.symm.trans h'.firstCode
  cases h with
  | pubkeyhash a _ =>
    generalize hw : [Op.code 0x76, .code 0xa9, .data a, .code 0x88, .code 0xac] = w at h'
    cases h' with
    | pubkeyhash => cases hw; rfl
    | _ => exact absurd e (by simp only [outCode, Option.some.injEq]; decide)
  | scripthash a _ =>
    generalize hw : [Op.code 0xa9, .data a, .code 0x87] = w at h'
    cases h' with
    | scripthash => cases hw; rfl
    | _ => exact absurd e (by simp only [outCode, Option.some.injEq]; decide)
  | pubkey d k hk =>
    generalize hw : [Op.data d, .code 0xac] = w at h'
    cases h' with
    | pubkey _ k' hk' => cases hw; rw [hk] at hk'; cases hk'; rfl
    | _ => exact absurd e (by simp only [outCode, Option.some.injEq]; decide)
  | op_return ds rest =>
    generalize ds.map Op.data ++ .code 0x6a :: rest = w at h'
    cases h' with
    | op_return => rfl
    | _ => exact absurd e (by simp only [outCode, Option.some.injEq]; decide)
  | multisig t ds n keys hk h1 h2 h3 =>
    generalize hw : Op.data t :: (ds.map Op.data ++ [.data n, .code 0xae]) = w at h'
    cases h' with
    | multisig t' ds' n' keys' hk' _ _ _ =>
      obtain ⟨e1, e2⟩ := List.cons.inj hw
      injection e1 with e1
      obtain ⟨e3, _⟩ := List.append_inj' e2 rfl
      have e4 := map_data_inj e3
      subst e4
      have : keys = keys' := forall₂_fun (fun a b c h h' => by rw [h] at h'; exact Except.ok.inj h') hk hk'
      rw [this, e1]
    | _ => exact absurd e (by simp only [outCode, Option.some.injEq]; decide)

/-- **C42**.  Every script is classified, never with an exception: as the standard form of its
stripped operations if they have one, otherwise as unknown. -/
theorem C42_classify (L : Secp) (script : Bytes) (coin : Coin) (o : Output L) :
    classify_output_script L script coin = .ok o ↔
      Standard L coin (Script.stripped_ops script) o ∨
        (o = .Unknown ∧ ¬ ∃ o', Standard L coin (Script.stripped_ops script) o') := by
  -- it is enough to find one right classification
  suffices h : ∃ o, classify_output_script L script coin = .ok o ∧
      (Standard L coin (Script.stripped_ops script) o ∨
        (o = .Unknown ∧ ¬ ∃ o', Standard L coin (Script.stripped_ops script) o')) by
    obtain ⟨o1, h1, h2⟩ := h
    rw [h1]
    constructor
    · intro e; rw [← Except.ok.inj e]; exact h2
    · intro h3
      rcases h2 with h2 | ⟨h2, h2'⟩ <;> rcases h3 with h3 | ⟨h3, h3'⟩
      · rw [h2.unique h3]
      · exact absurd ⟨_, h2⟩ h3'
      · exact absurd ⟨_, h3⟩ h2'
      · rw [h2, h3]
  have hx := stripped_codes script
  have hdef : classify_output_script L script coin = classify_loop (templ (Script.stripped_ops script))
      (itemsOf (Script.stripped_ops script)) .Unknown (coin_output_script_templates L coin) := rfl
  rw [hdef]
  generalize Script.stripped_ops script = xs at hx
  have m1 := pkh_match_iff xs hx
  have m2 := sh_match_iff xs hx
  have m3 := pk_match_iff xs hx
  have m4 := op_return_match_iff xs hx
  have m5 := multisig_match_iff xs hx
  -- which code comes first tells the templates apart
  have f1 : (∃ d, xs = [.code 0x76, .code 0xa9, .data d, .code 0x88, .code 0xac]) → firstCode xs = some 0x76 := by
    rintro ⟨d, rfl⟩; rfl
  have f2 : (∃ d, xs = [.code 0xa9, .data d, .code 0x87]) → firstCode xs = some 0xa9 := by
    rintro ⟨d, rfl⟩; rfl
  have f3 : (∃ d, xs = [.data d, .code 0xac]) → firstCode xs = some 0xac := by
    rintro ⟨d, rfl⟩; rfl
  have f4 : (∃ (ds : List Bytes) (rest : List Op), xs = ds.map Op.data ++ .code 0x6a :: rest) → firstCode xs = some 0x6a := by
    rintro ⟨ds, rest, rfl⟩; rw [firstCode_data]; rfl
  have f5 : (∃ ds : List Bytes, 3 ≤ ds.length ∧ xs = ds.map Op.data ++ [.code 0xae]) → firstCode xs = some 0xae := by
    rintro ⟨ds, _, rfl⟩; rw [firstCode_data]; rfl
  have nb : ∀ {b : Bool} {P : Prop} {c d : UInt8}, (b = true ↔ P) → (P → firstCode xs = some c) →
      firstCode xs = some d → c ≠ d → b = false := by
    intro b P c d h1 h2 h3 h4
    cases b with
    | false => rfl
    | true =>
      have := h2 (h1.mp rfl)
      rw [h3] at this
      exact absurd (Option.some.inj this).symm h4
  by_cases c1 : ∃ d, xs = [.code 0x76, .code 0xa9, .data d, .code 0x88, .code 0xac]
  · have e := f1 c1
    have n2 := nb m2 f2 e (by decide)
    have n3 := nb m3 f3 e (by decide)
    have n4 := nb m4 f4 e (by decide)
    have n5 := nb m5 f5 e (by decide)
    have hl := loop_one (templ xs) (itemsOf xs) (Output.Unknown (L := L)) []
      (t := (· == [OP_DUP, OP_HASH160, OP_PUSHDATA1, OP_EQUALVERIFY, OP_CHECKSIG]))
      (f := one_argument (fun x => do return Output.address (← P2PKH_Address x coin)))
      (by simp) (m1.mpr c1) (l2 := (coin_output_script_templates L coin).tail)
      (by
        intro p hp
        simp only [coin_output_script_templates, List.tail_cons, List.mem_cons, List.not_mem_nil, or_false] at hp
        rcases hp with rfl | rfl | rfl | rfl
        · exact n2
        · exact n3
        · exact n4
        · exact n5)
    obtain ⟨d, rfl⟩ := c1
    rw [show coin_output_script_templates L coin = [] ++ _ :: (coin_output_script_templates L coin).tail from rfl,
      hl, show itemsOf [.code 0x76, .code 0xa9, .data d, .code 0x88, .code 0xac] = [d] from rfl, one_argument]
    rcases P2PKH_Address_cases d coin with ⟨hd, hh⟩ | ⟨hd, hh⟩
    · rw [hh, ok_bind', pure_ok']
      exact ⟨_, settle_ok, .inl (.pubkeyhash d hd)⟩
    · rw [hh, error_bind']
      refine ⟨_, settle_value, .inr ⟨rfl, ?_⟩⟩
      rintro ⟨o', ho⟩
      have ho1 := ho.firstCode
      rw [e] at ho1
      generalize hw : [Op.code 0x76, .code 0xa9, .data d, .code 0x88, .code 0xac] = w at ho
      cases ho with
      | pubkeyhash h hh => cases hw; exact hd hh
      | _ => exact absurd ho1 (by simp only [outCode, Option.some.injEq]; decide)
  by_cases c2 : ∃ d, xs = [.code 0xa9, .data d, .code 0x87]
  · have e := f2 c2
    have n1 := nb m1 f1 e (by decide)
    have n3 := nb m3 f3 e (by decide)
    have n4 := nb m4 f4 e (by decide)
    have n5 := nb m5 f5 e (by decide)
    have hl := loop_one (templ xs) (itemsOf xs) (Output.Unknown (L := L)) 
      ((coin_output_script_templates L coin).take 1)
      (t := (· == [OP_HASH160, OP_PUSHDATA1, OP_EQUAL]))
      (f := one_argument (fun x => do return Output.address (← P2SH_Address x coin)))
      (by
        intro p hp
        simp only [coin_output_script_templates, List.take_succ_cons, List.take_zero, List.mem_cons, List.not_mem_nil, or_false] at hp
        rcases hp with rfl
        exact n1) (m2.mpr c2) (l2 := (coin_output_script_templates L coin).drop 2)
      (by
        intro p hp
        simp only [coin_output_script_templates, List.drop_succ_cons, List.drop_zero, List.mem_cons, List.not_mem_nil, or_false] at hp
        rcases hp with rfl | rfl | rfl
        · exact n3
        · exact n4
        · exact n5)
    obtain ⟨d, rfl⟩ := c2
    rw [show coin_output_script_templates L coin = (coin_output_script_templates L coin).take 1 ++ _ ::
      (coin_output_script_templates L coin).drop 2 from rfl,
      hl, show itemsOf [.code 0xa9, .data d, .code 0x87] = [d] from rfl, one_argument]
    rcases P2SH_Address_cases d coin with ⟨hd, hh⟩ | ⟨hd, hh⟩
    · rw [hh, ok_bind', pure_ok']
      exact ⟨_, settle_ok, .inl (.scripthash d hd)⟩
    · rw [hh, error_bind']
      refine ⟨_, settle_value, .inr ⟨rfl, ?_⟩⟩
      rintro ⟨o', ho⟩
      have ho1 := ho.firstCode
      rw [e] at ho1
      generalize hw : [Op.code 0xa9, .data d, .code 0x87] = w at ho
      cases ho with
      | scripthash h hh => cases hw; exact hd hh
      | _ => exact absurd ho1 (by simp only [outCode, Option.some.injEq]; decide)
  by_cases c3 : ∃ d, xs = [.data d, .code 0xac]
  · have e := f3 c3
    have n1 := nb m1 f1 e (by decide)
    have n2 := nb m2 f2 e (by decide)
    have n4 := nb m4 f4 e (by decide)
    have n5 := nb m5 f5 e (by decide)
    have hl := loop_one (templ xs) (itemsOf xs) (Output.Unknown (L := L)) 
      ((coin_output_script_templates L coin).take 2)
      (t := (· == [OP_PUSHDATA1, OP_CHECKSIG]))
      (f := one_argument (fun x => P2PK_Output L x coin))
      (by
        intro p hp
        simp only [coin_output_script_templates, List.take_succ_cons, List.take_zero, List.mem_cons, List.not_mem_nil, or_false] at hp
        rcases hp with rfl | rfl
        · exact n1
        · exact n2) (m3.mpr c3) (l2 := (coin_output_script_templates L coin).drop 3)
      (by
        intro p hp
        simp only [coin_output_script_templates, List.drop_succ_cons, List.drop_zero, List.mem_cons, List.not_mem_nil, or_false] at hp
        rcases hp with rfl | rfl
        · exact n4
        · exact n5)
    obtain ⟨d, rfl⟩ := c3
    rw [show coin_output_script_templates L coin = (coin_output_script_templates L coin).take 2 ++ _ ::
      (coin_output_script_templates L coin).drop 3 from rfl,
      hl, show itemsOf [.data d, .code 0xac] = [d] from rfl, one_argument, P2PK_Output]
    cases hk : PublicKey.from_bytes L d with
    | ok k =>
      rw [ok_bind', pure_ok']
      exact ⟨_, settle_ok, .inl (.pubkey d k hk)⟩
    | error er =>
      rw [error_bind', (C78_accepts L d).2 er hk]
      refine ⟨_, settle_value, .inr ⟨rfl, ?_⟩⟩
      rintro ⟨o', ho⟩
      have ho1 := ho.firstCode
      rw [e] at ho1
      generalize hw : [Op.data d, .code 0xac] = w at ho
      cases ho with
      | pubkey d' k hh => cases hw; rw [hk] at hh; cases hh
      | _ => exact absurd ho1 (by simp only [outCode, Option.some.injEq]; decide)
  by_cases c4 : ∃ (ds : List Bytes) (rest : List Op), xs = ds.map Op.data ++ .code 0x6a :: rest
  · have e := f4 c4
    have n1 := nb m1 f1 e (by decide)
    have n2 := nb m2 f2 e (by decide)
    have n3 := nb m3 f3 e (by decide)
    have n5 := nb m5 f5 e (by decide)
    have hl := loop_one (templ xs) (itemsOf xs) (Output.Unknown (L := L)) 
      ((coin_output_script_templates L coin).take 3) op_return_match (fun _ => .ok .OP_RETURN)
      (by
        intro p hp
        simp only [coin_output_script_templates, List.take_succ_cons, List.take_zero, List.mem_cons, List.not_mem_nil, or_false] at hp
        rcases hp with rfl | rfl | rfl
        · exact n1
        · exact n2
        · exact n3) (m4.mpr c4) (l2 := (coin_output_script_templates L coin).drop 4)
      (by
        intro p hp
        simp only [coin_output_script_templates, List.drop_succ_cons, List.drop_zero, List.mem_cons, List.not_mem_nil, or_false] at hp
        rcases hp with rfl
        exact n5)
    rw [show coin_output_script_templates L coin = (coin_output_script_templates L coin).take 3 ++ _ ::
      (coin_output_script_templates L coin).drop 4 from rfl, hl]
    obtain ⟨ds, rest, rfl⟩ := c4
    exact ⟨_, settle_ok, .inl (.op_return ds rest)⟩
  by_cases c5 : ∃ ds : List Bytes, 3 ≤ ds.length ∧ xs = ds.map Op.data ++ [.code 0xae]
  · have e := f5 c5
    have n1 := nb m1 f1 e (by decide)
    have n2 := nb m2 f2 e (by decide)
    have n3 := nb m3 f3 e (by decide)
    have n4 := nb m4 f4 e (by decide)
    have hl := loop_one (templ xs) (itemsOf xs) (Output.Unknown (L := L)) 
      ((coin_output_script_templates L coin).take 4) multisig_match (P2MultiSig_from_template L)
      (by
        intro p hp
        simp only [coin_output_script_templates, List.take_succ_cons, List.take_zero, List.mem_cons, List.not_mem_nil, or_false] at hp
        rcases hp with rfl | rfl | rfl | rfl
        · exact n1
        · exact n2
        · exact n3
        · exact n4) (m5.mpr c5) (l2 := [])
      (by simp)
    rw [show coin_output_script_templates L coin = (coin_output_script_templates L coin).take 4 ++ [_] from rfl, hl]
    obtain ⟨ds, h3, rfl⟩ := c5
    -- split the items
    obtain ⟨t, ds1, rfl⟩ : ∃ t ds1, ds = t :: ds1 := by
      cases ds with
      | nil => simp at h3
      | cons t ds1 => exact ⟨t, ds1, rfl⟩
    obtain ⟨ds, n, rfl⟩ : ∃ ds n, ds1 = ds ++ [n] := by
      rcases List.eq_nil_or_concat ds1 with rfl | ⟨ds, n, rfl⟩
      · simp at h3
      · exact ⟨ds, n, by rw [List.concat_eq_append]⟩
    have hxs : (t :: (ds ++ [n])).map Op.data ++ [.code 0xae] =
        .data t :: (ds.map .data ++ [.data n, .code 0xae]) := by simp
    have hit : itemsOf ((t :: (ds ++ [n])).map Op.data ++ [.code 0xae]) = t :: (ds ++ [n]) := by
      rw [itemsOf_pushes]; simp [itemsOf]
    rw [hit]
    rcases from_template_cases L t ds n with ⟨keys, h4, h5, h6, h7, h8⟩ | ⟨h4, h5⟩
    · rw [h4, hxs]
      exact ⟨_, settle_ok, .inl (.multisig t ds n keys h5 h6 h7 h8)⟩
    · rw [h4]
      refine ⟨_, settle_value, .inr ⟨rfl, ?_⟩⟩
      rintro ⟨o', ho⟩
      have ho1 := ho.firstCode
      rw [e] at ho1
      rw [hxs] at ho
      generalize hw : Op.data t :: (ds.map Op.data ++ [.data n, .code 0xae]) = w at ho
      cases ho with
      | multisig t' ds' n' keys' k1 k2 k3 k4 =>
        obtain ⟨e1, e2⟩ := List.cons.inj hw
        injection e1 with e1
        obtain ⟨e3, e4⟩ := List.append_inj' e2 rfl
        have e5 := map_data_inj e3
        have e6 : n = n' := by injection (List.cons.inj e4).1
        subst e1 e5 e6
        exact h5 ⟨k2, k3, k4, keys', k1⟩
      | _ => exact absurd ho1 (by simp only [outCode, Option.some.injEq]; decide)
  · have b : ∀ {b : Bool} {P : Prop}, (b = true ↔ P) → ¬ P → b = false := by
      intro b P h1 h2
      cases b with
      | false => rfl
      | true => exact absurd (h1.mp rfl) h2
    have n1 := b m1 c1
    have n2 := b m2 c2
    have n3 := b m3 c3
    have n4 := b m4 c4
    have n5 := b m5 c5
    refine ⟨.Unknown, loop_none _ _ _ _ ?_, .inr ⟨rfl, ?_⟩⟩
    · intro p hp
      simp only [coin_output_script_templates, List.mem_cons, List.not_mem_nil, or_false] at hp
      rcases hp with rfl | rfl | rfl | rfl | rfl
      · exact n1
      · exact n2
      · exact n3
      · exact n4
      · exact n5
    · rintro ⟨o', ho⟩
      cases ho with
      | pubkeyhash h _ => exact c1 ⟨h, rfl⟩
      | scripthash h _ => exact c2 ⟨h, rfl⟩
      | pubkey d _ _ => exact c3 ⟨d, rfl⟩
      | op_return ds rest => exact c4 ⟨ds, rest, rfl⟩
      | multisig t ds n keys k1 k2 k3 k4 =>
        refine c5 ⟨t :: (ds ++ [n]), ?_, by simp⟩
        rw [List.length_cons, List.length_append, List.length_singleton]
        omega

/-! ### Completeness -/

/-- The outputs with a standard script: 20-byte hashes, keys other than infinity, a threshold between
1 and the number of keys (and less than 2^62 keys). -/
def OutputValid {L : Secp} : Output L → Prop
  | .address a => AddressValid a
  | .P2PK k _ => PubValid k
  | .P2MultiSig keys t => (∀ k ∈ keys, PubValid k) ∧ 1 ≤ t ∧ t ≤ keys.length ∧ keys.length < 2 ^ 62
  | .OP_RETURN => True
  | .Unknown => False

theorem opsOf_parts {parts : List Bytes} {xs : List Op} (h : List.Forall₂ Encodes parts xs) :
    opsOf parts.flatten = xs := by
  have := Script.ops_encodes_all h []
  rw [List.append_nil, Script.ops_nil] at this
  unfold opsOf
  rw [this]
  simp

theorem stripped_parts {parts : List Bytes} {xs : List Op} (h : List.Forall₂ Encodes parts xs) :
    Script.stripped_ops parts.flatten = (xs.foldl Script.strip_step []).reverse := by
  rw [stripped_eq, opsOf_parts h]

theorem push_number (t : Int) (h : t.natAbs < 2 ^ 62) :
    ∃ s d, push_int t = .ok s ∧ Encodes s (.data d) ∧ itemValue d = t := by
  obtain ⟨s, d, h1, h2, _, h3, _⟩ := C38_push_int t 8 (by omega) (by omega)
  exact ⟨s, d, h1, (C37_single_push d s).mp h2, h3⟩

theorem key_push {L : Secp} (k : PublicKey L) :
    ∃ e, push_item k.to_bytes = .ok e ∧ Encodes e (.data k.to_bytes) := by
  obtain ⟨e, h1, h2, _⟩ := push_item_ok k.to_bytes (by
    rw [PublicKey.to_bytes, L.serialize_length]; split <;> omega)
  exact ⟨e, h1, h2⟩

theorem keys_push {L : Secp} (keys : List (PublicKey L)) :
    ∃ parts, packAll (fun k : PublicKey L => push_item k.to_bytes) keys = .ok parts ∧
      List.Forall₂ Encodes parts (keys.map (fun k => Op.data k.to_bytes)) := by
  induction keys with
  | nil => exact ⟨[], rfl, .nil⟩
  | cons k keys ih =>
    obtain ⟨parts, h1, h2⟩ := ih
    obtain ⟨e, h3, h4⟩ := key_push k
    refine ⟨e :: parts, ?_, .cons h4 h2⟩
    rw [packAll, h3, ok_bind', h1, ok_bind', pure_ok']

theorem forall₂_append {α β : Type} {R : α → β → Prop} {a b : List α} {c d : List β}
    (h : List.Forall₂ R a c) (h' : List.Forall₂ R b d) : List.Forall₂ R (a ++ b) (c ++ d) := by
  induction h with
  | nil => exact h'
  | cons h _ ih => exact .cons h ih

/-- **C42** (completeness).  The script of a valid output is classified as an equal output, and for
an address of the coin as the address itself. -/
theorem C42_roundtrip (L : Secp) (o : Output L) (h : OutputValid o) (coin : Coin) :
    ∃ s o', o.to_script_bytes = .ok s ∧ classify_output_script L s coin = .ok o' ∧ o.eq o' = true ∧
      (∀ a, o = .address a → a.coin = coin → o' = .address a) := by
  suffices hs : ∃ s o', o.to_script_bytes = .ok s ∧ Standard L coin (Script.stripped_ops s) o' ∧ o.eq o' = true ∧
      (∀ a, o = .address a → a.coin = coin → o' = .address a) by
    obtain ⟨s, o', h1, h2, h3⟩ := hs
    exact ⟨s, o', h1, (C42_classify L s coin o').mpr (.inl h2), h3⟩
  have code : ∀ c : UInt8, 0x60 < c.toNat → Encodes [c] (.code c) := fun c hc => .code c (.inl hc)
  cases o with
  | Unknown => cases h
  | OP_RETURN =>
    refine ⟨[0x6a], .OP_RETURN, ?_, ?_, rfl, fun a e => by cases e⟩
    · rw [Output.to_script_bytes, pack_byte_uint8]; rfl
    · exact Standard.op_return [] []
  | P2PK k c =>
    obtain ⟨e, h1, h2⟩ := key_push k
    refine ⟨e ++ [OP_CHECKSIG], .P2PK { point := k.point, compressed := k.compressed, coin := Bitcoin } coin,
      ?_, ?_, ?_, fun a e => by cases e⟩
    · rw [Output.to_script_bytes, h1, ok_bind', pack_byte_uint8, ok_bind', pure_ok']
    · have hp : e ++ [OP_CHECKSIG] = [e, [OP_CHECKSIG]].flatten := by simp
      rw [hp, stripped_parts (.cons h2 (.cons (code OP_CHECKSIG (by decide)) .nil))]
      have := (C78_bytes L k h none).1
      exact Standard.pubkey _ _ this
    · rw [Output.eq, PublicKey.eq, PublicKey.to_bytes, PublicKey.to_bytes]
      exact beq_self_eq_true _
  | address a =>
    cases a with
    | P2PKH hash c =>
      have hl : hash.length = 20 := h
      obtain ⟨e, h1, h2, _⟩ := push_item_ok hash (by omega)
      refine ⟨[OP_DUP, OP_HASH160] ++ e ++ [OP_EQUALVERIFY, OP_CHECKSIG], .address (.P2PKH hash coin), ?_, ?_, ?_, ?_⟩
      · simp only [Output.to_script_bytes, Address.to_script_bytes, h1, ok_bind', pure_ok']
      · have hp : [OP_DUP, OP_HASH160] ++ e ++ [OP_EQUALVERIFY, OP_CHECKSIG] =
            [[OP_DUP], [OP_HASH160], e, [OP_EQUALVERIFY], [OP_CHECKSIG]].flatten := by simp
        rw [hp, stripped_parts (.cons (code OP_DUP (by decide)) (.cons (code OP_HASH160 (by decide)) (.cons h2
          (.cons (code OP_EQUALVERIFY (by decide)) (.cons (code OP_CHECKSIG (by decide)) .nil)))))]
        exact Standard.pubkeyhash hash hl
      · rw [Output.eq, Address.eq]; exact beq_self_eq_true _
      · intro a ha hc
        injection ha with ha
        subst ha
        rw [← hc]
        dsimp only [Address.coin]
    | P2SH hash c =>
      have hl : hash.length = 20 := h
      obtain ⟨e, h1, h2, _⟩ := push_item_ok hash (by omega)
      refine ⟨[OP_HASH160] ++ e ++ [OP_EQUAL], .address (.P2SH hash coin), ?_, ?_, ?_, ?_⟩
      · simp only [Output.to_script_bytes, Address.to_script_bytes, h1, pack_byte_uint8, ok_bind', pure_ok']
      · have hp : [OP_HASH160] ++ e ++ [OP_EQUAL] = [[OP_HASH160], e, [OP_EQUAL]].flatten := by simp
        rw [hp, stripped_parts (.cons (code OP_HASH160 (by decide)) (.cons h2
          (.cons (code OP_EQUAL (by decide)) .nil)))]
        exact Standard.scripthash hash hl
      · rw [Output.eq, Address.eq]; exact beq_self_eq_true _
      · intro a ha hc
        injection ha with ha
        subst ha
        rw [← hc]
        dsimp only [Address.coin]
  | P2MultiSig keys t =>
    obtain ⟨hv, ht1, ht2, hlen⟩ := h
    obtain ⟨s1, d1, h1, h2, h3⟩ := push_number t (by omega)
    obtain ⟨s2, d2, h4, h5, h6⟩ := push_number (keys.length : Int) (by omega)
    obtain ⟨parts, h7, h8⟩ := keys_push keys
    have hmap : keys.map (fun k => Op.data k.to_bytes) = (keys.map (fun k => k.to_bytes)).map Op.data := by
      rw [List.map_map]; rfl
    refine ⟨([s1] ++ parts ++ [s2] ++ [[OP_CHECKMULTISIG]]).flatten,
      .P2MultiSig (keys.map (fun k => { point := k.point, compressed := k.compressed, coin := Bitcoin })) t,
      ?_, ?_, ?_, fun a e => by cases e⟩
    · simp only [Output.to_script_bytes, Output.multisig_script_bytes, h1, h4, h7, pack_byte_uint8, ok_bind', pure_ok']
    · have hall : List.Forall₂ Encodes ([s1] ++ parts ++ [s2] ++ [[OP_CHECKMULTISIG]])
          ([Op.data d1] ++ keys.map (fun k => Op.data k.to_bytes) ++ [Op.data d2] ++ [.code OP_CHECKMULTISIG]) :=
        forall₂_append (forall₂_append (forall₂_append (.cons h2 .nil) h8) (.cons h5 .nil))
          (.cons (code OP_CHECKMULTISIG (by decide)) .nil)
      have hx : [Op.data d1] ++ keys.map (fun k => Op.data k.to_bytes) ++ [Op.data d2] =
          (d1 :: (keys.map (fun k => k.to_bytes) ++ [d2])).map Op.data := by
        rw [hmap]; simp
      rw [stripped_parts hall, hx, List.foldl_append, strip_pushes, List.foldl_cons, List.foldl_nil, List.append_nil]
      have hstep : ∀ R, Script.strip_step R (.code OP_CHECKMULTISIG) = .code OP_CHECKMULTISIG :: R := fun R => rfl
      rw [hstep, List.reverse_cons, ← List.map_reverse, List.reverse_reverse]
      have := Standard.multisig (L := L) (coin := coin) d1 (keys.map (fun k => k.to_bytes)) d2
        (keys.map (fun k => { point := k.point, compressed := k.compressed, coin := Bitcoin }))
        (by
          clear h7 h8 hmap hall hx ht2 hlen h4 h5 h6
          induction keys with
          | nil => exact .nil
          | cons k keys ih =>
            refine .cons ?_ (ih (fun k hk => hv k (List.mem_cons_of_mem _ hk)))
            exact (C78_bytes L k (hv k (by simp)) none).1)
        (by rw [h6, List.length_map]) (by rw [h3]; exact ht1) (by rw [h3, List.length_map]; exact ht2)
      rw [h3] at this
      simpa [OP_CHECKMULTISIG] using this
    · simp only [Output.eq, List.length_map, beq_self_eq_true, Bool.true_and, Bool.and_true]
      clear h7 h8 hmap hv ht2 hlen h4 h5 h6
      induction keys with
      | nil => rfl
      | cons k keys ih =>
        rw [List.map_cons, List.zipWith_cons_cons, List.all_cons, ih, PublicKey.eq, PublicKey.to_bytes, PublicKey.to_bytes]
        simp

/-- **C42** (soundness for the hash forms).  A classification as P2PKH or P2SH is of the coin, has a
20-byte hash, and is given only to a script with that template and that item. -/
theorem C42_hash_forms (L : Secp) (script : Bytes) (coin c : Coin) (h : Bytes) :
    (classify_output_script L script coin = .ok (.address (.P2PKH h c)) ↔
      c = coin ∧ h.length = 20 ∧ Script.to_template script = ([0x76, 0xa9, 0x4c, 0x88, 0xac], [h])) ∧
    (classify_output_script L script coin = .ok (.address (.P2SH h c)) ↔
      c = coin ∧ h.length = 20 ∧ Script.to_template script = ([0xa9, 0x4c, 0x87], [h])) := by
  have hx := stripped_codes script
  have ht : Script.to_template script = (templ (Script.stripped_ops script), itemsOf (Script.stripped_ops script)) := rfl
  rw [C42_classify, C42_classify, ht]
  generalize Script.stripped_ops script = xs at hx
  constructor
  · constructor
    · rintro (hs | ⟨hu, _⟩)
      · cases hs with
        | pubkeyhash _ hl => exact ⟨rfl, hl, rfl⟩
      · cases hu
    · rintro ⟨rfl, hl, he⟩
      obtain ⟨h1, h2⟩ := Prod.mk.inj he
      obtain ⟨d, rfl⟩ := (pkh_match_iff xs hx).mp (beq_iff_eq.mpr h1)
      have : d = h := (List.cons.inj h2).1
      subst this
      exact .inl (.pubkeyhash d hl)
  · constructor
    · rintro (hs | ⟨hu, _⟩)
      · cases hs with
        | scripthash _ hl => exact ⟨rfl, hl, rfl⟩
      · cases hu
    · rintro ⟨rfl, hl, he⟩
      obtain ⟨h1, h2⟩ := Prod.mk.inj he
      obtain ⟨d, rfl⟩ := (sh_match_iff xs hx).mp (beq_iff_eq.mpr h1)
      have : d = h := (List.cons.inj h2).1
      subst this
      exact .inl (.scripthash d hl)

example : OutputValid (L := toySecp) (.P2MultiSig [⟨toySecp.gen, true, Bitcoin⟩, ⟨2 • toySecp.gen, false, Bitcoin⟩] 2) := by
  refine ⟨?_, by decide, by simp, by simp⟩
  intro k hk
  rcases List.mem_cons.1 hk with rfl | hk
  · exact toySecp.gen_ne
  · rw [List.mem_singleton.1 hk]
    unfold PubValid
    show 2 • toySecp.gen ≠ 0
    decide +kernel

/-- Not the standard script, but it has the standard template: a dropped push before it. -/
example : Script.to_template ([0x51, 0x75, 0xa9, 0x14] ++ zeros 20 ++ [0x61, 0x87]) = ([0xa9, 0x4c, 0x87], [zeros 20]) := by
  decide +kernel

theorem hash160_length (H : Hashes) (x : Bytes) : (H.hash160 x).length = 20 := H.ripemd160_length _

/-! ## C82: JSON of scripts -/

/-- **C82** (failure).  With classification, the JSON of every P2SH output script is `AttributeError`. -/
theorem C82_scripthash (H : Hashes) (L : Secp) (script : Bytes) (coin : Coin) (h : Bytes)
    (hs : Standard L coin (Script.stripped_ops script) (.address (.P2SH h coin))) :
    Script.to_json H L script true false coin = .error .attributeError := by
  have := (C42_classify L script coin _).mpr (.inl hs)
  unfold Script.to_json
  rw [if_pos (by simp), this, ok_bind', Output.KIND, error_bind']

/-- The type of an output in JSON. -/
def jsonType {L : Secp} : Output L → Str
  | .address (.P2PKH _ _) => "pubkeyhash".toList
  | .address (.P2SH _ _) => "scripthash".toList
  | .P2PK _ _ => "pubkey".toList
  | .P2MultiSig _ _ => "multisig".toList
  | .OP_RETURN => "op_return".toList
  | .Unknown => "unknown".toList

/-- **C82**.  With classification, the JSON of any other output script has the hex and ASM of the
script and the type of its classification; for P2PKH and P2PK also an address string, which `from_string` reads
back as the address of the hash, and for P2PK the hex of the key. -/
theorem C82_others (C : PyCase) (H : Hashes) (L : Secp) (script : Bytes) (coin : Coin) (hc : coin ∈ all_coins)
    (o : Output L) (ho : classify_output_script L script coin = .ok o)
    (hne : ∀ h c, o ≠ .address (.P2SH h c)) :
    ∃ j, Script.to_json H L script true false coin = .ok j ∧ j.hex = hex script ∧
      j.asm = Script.to_asm L script false ∧ j.type = some (jsonType o) ∧
      (match o with
        | .address a => j.pubkey = none ∧ ∃ t, j.address = some t ∧ Address.from_string C H t coin = .ok a
        | .P2PK k _ => j.pubkey = some k.to_hex ∧ ∃ t, j.address = some t ∧
            Address.from_string C H t coin = .ok (.P2PKH (H.hash160 k.to_bytes) coin)
        | _ => j.pubkey = none ∧ j.address = none) := by
  have hstd := (C42_classify L script coin o).mp ho
  cases o with
  | address a =>
    cases a with
    | P2SH h c => exact absurd rfl (hne h c)
    | P2PKH h c =>
      rcases hstd with hstd | ⟨hu, _⟩
      · generalize Script.stripped_ops script = xs at hstd
        have : c = coin ∧ h.length = 20 := by
          cases hstd with
          | pubkeyhash _ hl => exact ⟨rfl, hl⟩
        obtain ⟨rfl, hl⟩ := this
        obtain ⟨t, h1, _, h2⟩ := C53_roundtrip C H (.P2PKH h c) hl hc
        refine ⟨_, by unfold Script.to_json; rw [if_pos (by simp), ho, ok_bind', Output.KIND, ok_bind']; dsimp only; rw [h1, ok_bind', pure_ok'], rfl, rfl, rfl, rfl, t, rfl, h2⟩
      · cases hu
  | P2PK k c =>
    rcases hstd with hstd | ⟨hu, _⟩
    · generalize Script.stripped_ops script = xs at hstd
      have : c = coin := by
        cases hstd with
        | pubkey _ _ _ => rfl
      subst this
      have hl : (H.hash160 k.to_bytes).length = 20 := hash160_length H _
      obtain ⟨t, h1, _, h2⟩ := C53_roundtrip C H (.P2PKH (H.hash160 k.to_bytes) c) hl hc
      have ha : k.to_address H none (some c) = .ok (.P2PKH (H.hash160 k.to_bytes) c) := by
        rw [PublicKey.to_address, PublicKey.hash160, Option.getD_some]
        exact P2PKH_Address_ok c hl
      refine ⟨_, by unfold Script.to_json; rw [if_pos (by simp), ho, ok_bind', Output.KIND, ok_bind']; dsimp only; rw [ha, ok_bind', h1, ok_bind', pure_ok'], rfl, rfl, rfl, rfl, t, rfl, h2⟩
    · cases hu
  | P2MultiSig keys t => exact ⟨_, by unfold Script.to_json; rw [if_pos (by simp), ho, ok_bind', Output.KIND, ok_bind']; dsimp only; rw [pure_ok'], rfl, rfl, rfl, rfl, rfl⟩
  | OP_RETURN => exact ⟨_, by unfold Script.to_json; rw [if_pos (by simp), ho, ok_bind', Output.KIND, ok_bind']; dsimp only; rw [pure_ok'], rfl, rfl, rfl, rfl, rfl⟩
  | Unknown => exact ⟨_, by unfold Script.to_json; rw [if_pos (by simp), ho, ok_bind', Output.KIND, ok_bind']; dsimp only; rw [pure_ok'], rfl, rfl, rfl, rfl, rfl⟩

/-- Every P2SH address has such a script. -/
theorem C82_every_scripthash (H : Hashes) (L : Secp) (coin : Coin) (h : Bytes) (hl : h.length = 20) :
    ∃ s, (Address.P2SH h coin).to_script_bytes = .ok s ∧
      Script.to_json H L s true false coin = .error .attributeError := by
  obtain ⟨s, o', h1, h2, _, h4⟩ := C42_roundtrip L (.address (.P2SH h coin)) hl coin
  have ho : o' = .address (.P2SH h coin) := h4 _ rfl rfl
  rw [ho] at h2
  refine ⟨s, h1, C82_scripthash H L s coin h ?_⟩
  rcases (C42_classify L s coin _).mp h2 with h | ⟨h, _⟩
  · exact h
  · cases h

/-! ## C84: signed messages and address strings -/

/-- **C84**.  A message signed by a key verifies against the string of both its addresses, for any coin. -/
theorem C84_signed (H : Hashes) (L : Secp) (k : PrivateKey) (hk : PrivValid k) (p : PublicKey L)
    (hp : k.public_key L = .ok p) (m : Bytes) (hm : m.length < 2 ^ 64) (hasher : Bytes → Bytes)
    (hh : ∀ x, (hasher x).length = 32) :
    ∃ s, k.sign_message L m (some hasher) = .ok s ∧ ∀ (c : Bool) (coin : Coin), ∃ a t,
      p.to_address H (some c) (some coin) = .ok a ∧ a.coin = coin ∧ a.to_string H = .ok t ∧
      PublicKey.verify_message_and_address H L s m t (some hasher) = .ok true := by
  obtain ⟨s, h1, _, _, _, h2⟩ := C63_signed H L k hk p hp m hm hasher hh
  refine ⟨s, h1, fun c coin => ?_⟩
  have hl : (p.hash160 H (some c)).length = 20 := hash160_length H _
  refine ⟨.P2PKH (p.hash160 H (some c)) coin, _, ?_, by dsimp only [Address.coin], address_string_eq H _, ?_⟩
  · rw [PublicKey.to_address, Option.getD_some]
    exact P2PKH_Address_ok coin hl
  · rw [PublicKey.verify_message_and_address, (C09_roundtrip H _ []).1, ok_bind', pure_ok', List.drop_succ_cons,
      List.drop_zero]
    exact h2 c

/-- **C84** (soundness).  Verification against a string gives a truth value, or `Base58Error` for a
string that is not a checked Base58 text; it is true only if the string encodes a version byte and
the hash of a key for which the signature is valid. -/
theorem C84_sound (H : Hashes) (L : Secp) (s m : Bytes) (t : Str) (hm : m.length < 2 ^ 64)
    (hasher : Bytes → Bytes) (hh : ∀ x, (hasher x).length = 32) :
    ((∃ b, PublicKey.verify_message_and_address H L s m t (some hasher) = .ok b) ∨
      (PublicKey.verify_message_and_address H L s m t (some hasher) = .error .base58Error ∧
        ¬ ∃ raw, t = base58_encode_check H raw)) ∧
    (PublicKey.verify_message_and_address H L s m t (some hasher) = .ok true →
      IsMessageSig s ∧ ∃ (q : PublicKey L) (v : UInt8) (c : Bool), q.point ≠ 0 ∧
        q.verify_message s m (some hasher) = .ok true ∧
        t = base58_encode_check H (v :: H.ripemd160 (H.sha256 (L.serialize c q.point)))) := by
  unfold PublicKey.verify_message_and_address
  cases hd : base58_decode_check H t with
  | ok raw =>
    have ht := ((C09_check_iff H t).1 raw).mp hd
    rw [ok_bind', pure_ok']
    obtain ⟨h1, h2⟩ := C63_sound H L s m (raw.drop 1) hm hasher hh
    constructor
    · rcases h1 with h1 | h1 <;> exact .inl ⟨_, h1⟩
    · intro h
      obtain ⟨h3, q, h4, h5, h6⟩ := h2 h
      refine ⟨h3, q, ?_⟩
      obtain ⟨c, hc⟩ : ∃ c, raw.drop 1 = H.hash160 (L.serialize c q.point) := by
        rcases h6 with h6 | h6
        · exact ⟨true, h6⟩
        · exact ⟨false, h6⟩
      cases raw with
      | nil =>
        have := congrArg List.length hc
        rw [hash160_length] at this
        simp at this
      | cons v rest =>
        have hr : rest = H.hash160 (L.serialize c q.point) := hc
        exact ⟨v, c, h4, h5, by rw [ht, hr]; rfl⟩
  | error e =>
    have he := base58_decode_check_error hd
    subst he
    have hno : ¬ ∃ raw, t = base58_encode_check H raw := by
      rintro ⟨raw, hr⟩
      rw [((C09_check_iff H t).1 raw).mpr hr] at hd
      cases hd
    rw [error_bind']
    obtain ⟨h1, _⟩ := C63_sound H L s m [] hm hasher hh
    unfold PublicKey.verify_message_and_hash160 at h1 ⊢
    cases hf : PublicKey.from_signed_message L s m (some hasher) with
    | ok q => exact ⟨.inr ⟨rfl, hno⟩, fun h => by cases h⟩
    | error e =>
      rw [hf] at h1
      cases e with
      | invalidSignatureError => exact ⟨.inl ⟨false, rfl⟩, fun h => by cases h⟩
      | _ => rcases h1 with h1 | h1 <;> cases h1

/-- **C84** (exceptions).  The signature is looked at first: bytes that are no signature, and signatures from which no key
is recovered, are `False` whatever the string is; with a signature that gives a key a string that is not a checked Base58
text raises `Base58Error`. -/
theorem C84_order (H : Hashes) (L : Secp) (s m : Bytes) (t : Str) (hm : m.length < 2 ^ 64)
    (hasher : Bytes → Bytes) (hh : ∀ x, (hasher x).length = 32) :
    ((¬ IsMessageSig s ∨ ¬ ∃ q, PublicKey.from_signed_message L s m (some hasher) = .ok q) →
      PublicKey.verify_message_and_address H L s m t (some hasher) = .ok false) ∧
    ((∃ q, PublicKey.from_signed_message L s m (some hasher) = .ok q) → (¬ ∃ raw, t = base58_encode_check H raw) →
      PublicKey.verify_message_and_address H L s m t (some hasher) = .error .base58Error) := by
  have hbad : ∀ e, PublicKey.from_signed_message L s m (some hasher) = .error e →
      PublicKey.verify_message_and_address H L s m t (some hasher) = .ok false := by
    intro e hf
    obtain ⟨h1, _⟩ := C63_sound H L s m [] hm hasher hh
    unfold PublicKey.verify_message_and_address
    unfold PublicKey.verify_message_and_hash160 at h1 ⊢
    rw [hf] at h1 ⊢
    cases e with
    | invalidSignatureError => rfl
    | _ => rcases h1 with h1 | h1 <;> cases h1
  constructor
  · intro h
    cases hf : PublicKey.from_signed_message L s m (some hasher) with
    | error e => exact hbad e hf
    | ok q =>
      rcases h with h | h
      · exfalso
        unfold PublicKey.from_signed_message at hf
        obtain ⟨x, -, h2⟩ := bind_eq_ok.mp hf
        obtain ⟨y, h3, -⟩ := bind_eq_ok.mp h2
        rw [(C55_accepts s).2 h] at h3
        cases h3
      · exact absurd ⟨q, hf⟩ h
  · rintro ⟨q, hf⟩ hno
    unfold PublicKey.verify_message_and_address PublicKey.verify_message_and_hash160
    cases hd : base58_decode_check H t with
    | ok raw => exact absurd ⟨raw, ((C09_check_iff H t).1 raw).mp hd⟩ hno
    | error e =>
      have he := base58_decode_check_error hd
      subst he
      rw [hf]
      rfl

end Bitcoinx
