import Verif.Lemmas.CurveOrder
import Verif.Lemmas.Misc

/-! # The encodings of points -/

namespace Bitcoinx.K1

open Spec

theorem powMod_field_lt (a e : Nat) (he : e < 2 ^ 256) : powMod FIELD a 256 e < FIELD := by
  rw [powMod_eq _ _ _ _ he]; exact Nat.mod_lt _ field_prime.pos

theorem quarter_lt : (FIELD + 1) / 4 < 2 ^ 256 := by have := field_lt; omega

/-- The root found for the first coordinate of a point is plus or minus the second. -/
theorem root_curveEq {x y : Nat} (h : valid (some (x, y)) = true) :
    curveEq x (powMod FIELD ((x * x * x + 7) % FIELD) 256 ((FIELD + 1) / 4)) = true := by
  have n := (nonsingular_iff _ _).1 ((curveEq_iff x y).1 (valid_some.1 h).2.2)
  rw [curveEq_iff, nonsingular_iff, powMod_eq _ _ _ _ quarter_lt, cast_mod, Nat.cast_pow, cast_mod]
  push_cast
  rw [show (x : F) * x * x = (x : F) ^ 3 by ring, ← n, ← pow_mul, ← pow_mul,
    show 2 * ((FIELD + 1) / 4 * 2) = FIELD + 1 by norm_num [FIELD], pow_succ, ZMod.pow_card]
  ring

theorem lift_iff (x : Nat) (odd : Bool) (r : Raw) : lift x odd = some r ↔
    ∃ y, r = some (x, y) ∧ valid (some (x, y)) = true ∧ decide (y % 2 = 1) = odd := by
  have hodd := Pt.field_odd
  unfold lift
  simp only
  have hlt := powMod_field_lt ((x * x * x + 7) % FIELD) _ quarter_lt
  have hroot : ∀ y, valid (some (x, y)) = true →
      curveEq x (powMod FIELD ((x * x * x + 7) % FIELD) 256 ((FIELD + 1) / 4)) = true :=
    fun y => root_curveEq
  generalize powMod FIELD ((x * x * x + 7) % FIELD) 256 ((FIELD + 1) / 4) = y0 at *
  constructor
  · intro h
    split at h
    · next hc =>
      have hv : valid (some (x, y0)) = true := valid_some.2 ⟨hc.1, hlt, hc.2⟩
      have hpos := Pt.y_ne_zero hv
      have hn := valid_neg _ hv
      simp only [Option.some.injEq] at h
      by_cases hp : decide (y0 % 2 = 1) = odd
      · rw [if_pos hp] at h
        exact ⟨y0, h.symm, hv, hp⟩
      · rw [if_neg hp] at h
        refine ⟨(FIELD - y0) % FIELD, h.symm, hn, ?_⟩
        have e : (FIELD - y0) % FIELD = FIELD - y0 := Nat.mod_eq_of_lt (by omega)
        rw [e]
        cases odd <;> simp at hp ⊢ <;> omega
    · cases h
  · rintro ⟨y, rfl, hv, rfl⟩
    have hc := hroot y hv
    have hx := (valid_some.1 hv).1
    have hv0 : valid (some (x, y0)) = true := valid_some.2 ⟨hx, hlt, hc⟩
    rw [if_pos ⟨hx, hc⟩]
    rcases Pt.y_eq hv hv0 with rfl | ⟨he, h1, h2⟩
    · simp
    · have : ¬ decide (y0 % 2 = 1) = decide (y % 2 = 1) := by
        rw [decide_eq_decide]; omega
      rw [if_neg this, Nat.mod_eq_of_lt (by omega)]
      have : FIELD - y0 = y := by omega
      rw [this]

/-- The hybrid form of a point. -/
def hybrid (x y : Nat) : Bytes := (if y % 2 = 1 then 7 else 6) :: (beBytes 32 x ++ beBytes 32 y)

theorem field_lt' : FIELD < 256 ^ 32 := by
  have := field_lt; rwa [show (2 : Nat) ^ 256 = 256 ^ 32 by norm_num] at this

theorem be32 {x : Nat} (h : x < FIELD) : be_bytes_to_int (beBytes 32 x) = x := by
  rw [be_bytes_to_int_eq, beValue_beBytes _ _ (h.trans field_lt')]

theorem be32' (t : Bytes) (h : t.length = 32) : beBytes 32 (be_bytes_to_int t) = t := by
  rw [be_bytes_to_int_eq, ← h, beBytes_beValue]

/-- What is parsed, and to what. -/
theorem parse_iff (b : Bytes) (r : Raw) : parse b = some r ↔
    ∃ x y, r = some (x, y) ∧ valid (some (x, y)) = true ∧
      (b = serialize true (some (x, y)) ∨ b = serialize false (some (x, y)) ∨ b = hybrid x y) := by
  constructor
  · intro h
    unfold parse at h
    match b, h with
    | [], h => cases h
    | c :: t, h =>
      simp only at h
      split at h
      · next hc =>
        obtain ⟨y, rfl, hv, hp⟩ := (lift_iff _ _ _).1 h
        refine ⟨_, y, rfl, hv, .inl ?_⟩
        simp only [serialize, if_true, be32' t hc.1]
        congr 1
        rw [decide_eq_decide] at hp
        rcases hc.2 with rfl | rfl
        · rw [if_neg]; rw [hp]; decide
        · rw [if_pos]; rw [hp]
      · split at h
        · next hc =>
          split at h
          · next hcc =>
            simp only [Option.some.injEq] at h
            refine ⟨_, _, h.symm, valid_some.2 ⟨hcc.1, hcc.2.1, hcc.2.2.1⟩, .inr ?_⟩
            simp only [serialize, Bool.false_eq_true, if_false, hybrid]
            rw [be32' (t.take 32) (by simp; omega), be32' (t.drop 32) (by simp; omega),
              List.take_append_drop]
            rcases hc.2 with rfl | rfl | rfl
            · exact .inl rfl
            · right
              have := hcc.2.2.2
              simp at this
              rw [if_neg (by omega)]
            · right
              have := hcc.2.2.2
              simp at this
              rw [if_pos (by omega)]
          · cases h
        · cases h
  · rintro ⟨x, y, rfl, hv, h⟩
    obtain ⟨hx, hy, hc⟩ := valid_some.1 hv
    have e1 : (beBytes 32 x ++ beBytes 32 y).take 32 = beBytes 32 x := List.take_left' (by simp)
    have e2 : (beBytes 32 x ++ beBytes 32 y).drop 32 = beBytes 32 y := List.drop_left' (by simp)
    rcases h with rfl | rfl | rfl
    · simp only [serialize, if_true, parse]
      rw [if_pos ⟨by simp, by split <;> simp⟩, lift_iff, be32 hx]
      refine ⟨y, rfl, hv, ?_⟩
      split
      · next hp => simp [hp]
      · next hp => simp [hp]
    · simp only [serialize, Bool.false_eq_true, if_false, parse]
      rw [if_neg (by simp), if_pos ⟨by simp, by simp⟩]
      rw [e1, e2, be32 hx, be32 hy, if_pos ⟨hx, hy, hc, .inl trivial⟩]
    · simp only [hybrid, parse]
      rw [if_neg (by simp), if_pos ⟨by simp, by split <;> simp⟩]
      rw [e1, e2, be32 hx, be32 hy, if_pos]
      refine ⟨hx, hy, hc, .inr ?_⟩
      split
      · next hp => simp [hp]
      · next hp => simp [hp]

theorem parse_valid (b : Bytes) (r : Raw) (h : parse b = some r) : valid r = true := by
  obtain ⟨x, y, rfl, hv, _⟩ := (parse_iff b r).1 h
  exact hv

namespace Pt

/-- `parse`, giving a point. -/
def parse (b : Bytes) : Option Pt :=
  match h : K1.parse b with
  | none => none
  | some r => some ⟨r, parse_valid b r h⟩

theorem parse_eq_some (b : Bytes) (p : Pt) : parse b = some p ↔ K1.parse b = some p.1 := by
  unfold parse
  split
  · next h => simp [h]
  · next r h =>
    constructor
    · intro he; rw [← Option.some.inj he]; exact h
    · intro he
      have : r = p.1 := Option.some.inj (h.symm.trans he)
      exact congrArg some (ext this)

theorem serialize_length (c : Bool) (p : Raw) : (serialize c p).length = if c then 33 else 65 := by
  cases p with
  | none => cases c <;> simp [serialize, zeros]
  | some q => obtain ⟨x, y⟩ := q; cases c <;> simp [serialize]

theorem parse_spec (b : Bytes) (p : Pt) : parse b = some p ↔
    p ≠ 0 ∧ (b = serialize true p.1 ∨ b = serialize false p.1 ∨
      ∃ x y, p.1 = some (x, y) ∧ b = hybrid x y) := by
  rw [parse_eq_some, parse_iff]
  constructor
  · rintro ⟨x, y, h1, hv, h⟩
    refine ⟨by rw [ne_eq, eq_zero_iff, h1]; simp, ?_⟩
    rw [h1]
    rcases h with h | h | h
    · exact .inl h
    · exact .inr (.inl h)
    · exact .inr (.inr ⟨x, y, rfl, h⟩)
  · rintro ⟨h0, h⟩
    obtain ⟨r, hr⟩ := p
    cases r with
    | none => exact absurd rfl h0
    | some q =>
      obtain ⟨x, y⟩ := q
      refine ⟨x, y, rfl, hr, ?_⟩
      rcases h with h | h | ⟨x', y', h1, h⟩
      · exact .inl h
      · exact .inr (.inl h)
      · simp only [Option.some.injEq, Prod.mk.injEq] at h1
        rw [h1.1, h1.2]; exact .inr (.inr h)

end Pt

end Bitcoinx.K1
