import Verif.Lemmas.Ecdsa

/-! # The DER form of signatures -/

namespace Bitcoinx.K1

open Spec

/-- The bytes of a number that is not negative, without padding. -/
def Minimal : Bytes → Prop
  | [] => False
  | [a] => a.toNat < 128
  | a :: b :: _ => a.toNat < 128 ∧ (a ≠ 0 ∨ 128 ≤ b.toNat)

theorem Minimal.upper {b : Bytes} (h : Minimal b) : beValue b < 128 * 256 ^ (b.length - 1) := by
  match b, h with
  | [a], h => simpa [beValue, Minimal] using h
  | a :: c :: t, h =>
    have h1 := beValue_lt (c :: t)
    have h2 : a.toNat + 1 ≤ 128 := h.1
    rw [beValue]
    calc a.toNat * 256 ^ (c :: t).length + beValue (c :: t)
        < a.toNat * 256 ^ (c :: t).length + 256 ^ (c :: t).length := by omega
      _ = (a.toNat + 1) * 256 ^ (c :: t).length := by ring
      _ ≤ 128 * 256 ^ (c :: t).length := Nat.mul_le_mul_right _ h2

theorem Minimal.lower {b : Bytes} (h : Minimal b) (hl : 2 ≤ b.length) :
    128 * 256 ^ (b.length - 2) ≤ beValue b := by
  match b, h with
  | [a], h => simp at hl
  | a :: c :: t, h =>
    simp only [beValue, List.length_cons, Nat.add_sub_cancel]
    rcases h.2 with h0 | h0
    · have : 1 ≤ a.toNat := by
        rcases Nat.eq_zero_or_pos a.toNat with h1 | h1
        · exact absurd (UInt8.toNat_inj.1 (by simpa using h1)) h0
        · exact h1
      have h2 : 1 * 256 ^ (t.length + 1) ≤ a.toNat * 256 ^ (t.length + 1) := Nat.mul_le_mul_right _ this
      have h3 : 256 ^ (t.length + 1) = 256 * 256 ^ t.length := by ring
      have : t.length + 1 + 1 - 2 = t.length := by omega
      rw [this]
      omega
    · have h2 : 128 * 256 ^ t.length ≤ c.toNat * 256 ^ t.length := Nat.mul_le_mul_right _ h0
      have : t.length + 1 + 1 - 2 = t.length := by omega
      rw [this]
      omega

theorem Minimal.pos {b : Bytes} (h : Minimal b) : 1 ≤ b.length := by
  match b, h with
  | [a], h => simp
  | a :: c :: t, h => simp

theorem Minimal.unique {a b : Bytes} (ha : Minimal a) (hb : Minimal b) (h : beValue a = beValue b) : a = b := by
  have key : ∀ {a b : Bytes}, Minimal a → Minimal b → beValue a = beValue b → a.length < b.length → False := by
    intro a b ha hb h hl
    have h1 := ha.upper
    have h2 := hb.lower (by have := ha.pos; omega)
    have h3 : 256 ^ (a.length - 1) ≤ 256 ^ (b.length - 2) := Nat.pow_le_pow_right (by norm_num) (by have := ha.pos; omega)
    omega
  apply beValue_inj _ _ _ h
  rcases Nat.lt_trichotomy a.length b.length with hl | hl | hl
  · exact (key ha hb h hl).elim
  · exact hl
  · exact (key hb ha h.symm hl).elim

theorem Minimal.length_le {b : Bytes} (h : Minimal b) (hv : beValue b < 256 ^ 32) : b.length ≤ 33 := by
  by_contra hc
  have h1 := h.lower (by omega)
  have h2 : 256 ^ 32 ≤ 256 ^ (b.length - 2) := Nat.pow_le_pow_right (by norm_num) (by omega)
  omega

theorem derBody_spec (b : Bytes) : Minimal (derBody b) ∧ beValue (derBody b) = beValue b ∧
    (derBody b).length ≤ b.length + 1 := by
  induction b with
  | nil => simp [derBody, Minimal, beValue]
  | cons a t ih =>
    unfold derBody
    split
    · next h =>
      subst h
      refine ⟨ih.1, by rw [ih.2.1]; simp [beValue], by have := ih.2.2; simp only [List.length_cons]; omega⟩
    · next h =>
      split
      · next h2 =>
        refine ⟨?_, rfl, by simp⟩
        cases t with
        | nil => exact h2
        | cons c u => exact ⟨h2, .inl h⟩
      · next h2 =>
        refine ⟨⟨by simp, .inr (by omega)⟩, ?_, by simp⟩
        rw [beValue]; simp

theorem derBody_minimal {b : Bytes} (h : Minimal b) (hv : beValue b < 256 ^ 32) :
    derBody (beBytes 32 (beValue b)) = b :=
  (derBody_spec _).1.unique h (by rw [(derBody_spec _).2.1, beValue_beBytes _ _ hv])

theorem derLen_short (n : Nat) (h : n < 128) (rest : Bytes) : derLen (UInt8.ofNat n :: rest) = some (n, rest) := by
  have e : (UInt8.ofNat n).toNat = n := by rw [UInt8.toNat_ofNat']; omega
  unfold derLen
  simp only [e]
  rw [if_neg (by omega), if_pos h]

/-- What reading a length tells about the input. -/
theorem derLen_some {b : Bytes} {n : Nat} {rest : Bytes} (h : derLen b = some (n, rest)) :
    rest.length + 1 ≤ b.length ∧ (n < 128 → b = UInt8.ofNat n :: rest) := by
  unfold derLen at h
  split at h
  · cases h
  · next a t =>
    simp only at h
    split at h
    · cases h
    · split at h
      · next h1 =>
        simp only [Option.some.injEq, Prod.mk.injEq] at h
        obtain ⟨rfl, rfl⟩ := h
        exact ⟨by simp, fun _ => by simp⟩
      · split at h
        · cases h
        · split at h
          · cases h
          · split at h
            · cases h
            · next h3 =>
              simp only [Option.some.injEq, Prod.mk.injEq] at h
              obtain ⟨rfl, rfl⟩ := h
              refine ⟨by simp, fun hl => ?_⟩
              push Not at h3
              omega

theorem order_lt_256 : CURVE_ORDER < 256 ^ 32 := curve_order_lt

/-- Reading a number that was written. -/
theorem derInt_body (body rest : Bytes) (h : Minimal body) (hv : beValue body < CURVE_ORDER) :
    derInt (2 :: UInt8.ofNat body.length :: body ++ rest) = some (beValue body, rest) := by
  have hl := h.length_le (hv.trans order_lt_256)
  have hp := h.pos
  have e1 : (body ++ rest).take body.length = body := List.take_left' rfl
  have e2 : (body ++ rest).drop body.length = rest := List.drop_left' rfl
  have hrw : 2 :: UInt8.ofNat body.length :: body ++ rest = 2 :: (UInt8.ofNat body.length :: (body ++ rest)) := rfl
  rw [hrw, derInt, derLen_short _ (by omega)]
  simp only
  rw [if_neg (by simp only [List.length_append]; omega), e1, e2, be_bytes_to_int_eq]
  match body, h with
  | [a], h =>
    have h' : a.toNat < 128 := h
    simp only [List.headD_cons, List.length_cons, List.length_nil, List.drop_succ_cons, List.drop_zero]
    rw [if_neg (by omega), if_neg (by omega)]
    exact congrArg (fun v => some (v, rest)) (if_neg (show ¬ (128 ≤ a.toNat ∨ CURVE_ORDER ≤ beValue [a]) by omega))
  | a :: c :: t, h =>
    obtain ⟨h1, h2⟩ := h
    simp only [List.headD_cons, List.drop_succ_cons, List.drop_zero]
    have h3 : ¬ (a.toNat = 0 ∧ 1 < (a :: c :: t).length ∧ c.toNat < 128) := by
      rintro ⟨h0, _, h4⟩
      rcases h2 with h2 | h2
      · exact h2 (UInt8.toNat_inj.1 (by simpa using h0))
      · omega
    rw [if_neg h3, if_neg (by omega)]
    exact congrArg (fun v => some (v, rest))
      (if_neg (show ¬ (128 ≤ a.toNat ∨ CURVE_ORDER ≤ beValue (a :: c :: t)) by omega))

/-- What reading a number tells about the input. -/
theorem derInt_some {b : Bytes} {v : Nat} {rest : Bytes} (h : derInt b = some (v, rest)) :
    rest.length + 3 ≤ b.length ∧ v < CURVE_ORDER ∧
      (v ≠ 0 → ∃ body, Minimal body ∧ beValue body = v ∧ b = 2 :: UInt8.ofNat body.length :: body ++ rest) := by
  unfold derInt at h
  split at h
  · next t =>
    split at h
    · cases h
    · next n u hu =>
      obtain ⟨hu1, hu2⟩ := derLen_some hu
      split at h
      · cases h
      · next hn =>
        push Not at hn
        simp only at h
        split at h
        · cases h
        · next c1 =>
          split at h
          · cases h
          · next c2 =>
            simp only [Option.some.injEq, Prod.mk.injEq] at h
            obtain ⟨rfl, rfl⟩ := h
            refine ⟨by simp only [List.length_drop, List.length_cons]; omega, ?_, ?_⟩
            · have := curve_order_pos
              split <;> omega
            · intro hv
              split at hv
              · exact absurd rfl hv
              · next hv2 =>
                rw [if_neg hv2]
                push Not at hv2
                have hlen : (u.take n).length = n := by rw [List.length_take]; omega
                have hmin : Minimal (u.take n) := by
                  generalize hb : u.take n = body at *
                  match body, hlen with
                  | [], hl => exact absurd hl.symm hn.1
                  | [a], _ => simpa [Minimal] using hv2.1
                  | a :: c :: w, hl =>
                    simp only [List.headD_cons, List.drop_succ_cons, List.drop_zero] at c1 hv2
                    have : 1 < n := by rw [← hl]; simp
                    refine ⟨hv2.1, ?_⟩
                    by_contra hc
                    push Not at hc
                    exact c1 ⟨by simp [hc.1], this, hc.2⟩
                have hval : beValue (u.take n) < 256 ^ 32 := by
                  rw [← be_bytes_to_int_eq]; exact hv2.2.trans order_lt_256
                have hle := hmin.length_le hval
                refine ⟨u.take n, hmin, (be_bytes_to_int_eq _).symm, ?_⟩
                rw [hlen, hu2 (by omega)]
                simp
  · cases h

theorem serialize_der_eq (sig : Bytes) (h : sig.length = 64) :
    serialize_der sig = 48 :: UInt8.ofNat (4 + (derBody (sig.take 32)).length + (derBody (sig.drop 32)).length) ::
      (2 :: UInt8.ofNat (derBody (sig.take 32)).length :: derBody (sig.take 32) ++
        2 :: UInt8.ofNat (derBody (sig.drop 32)).length :: derBody (sig.drop 32)) := by
  have e : (sig.drop 32).take 32 = sig.drop 32 := List.take_of_length_le (by simp [h])
  rw [serialize_der, e]

theorem serialize_der_length (sig : Bytes) :
    8 ≤ (serialize_der sig).length ∧ (serialize_der sig).length ≤ 72 := by
  have h1 := (derBody_spec (sig.take 32))
  have h2 := (derBody_spec ((sig.drop 32).take 32))
  have p1 := h1.1.pos
  have p2 := h2.1.pos
  have l1 : (sig.take 32).length ≤ 32 := by simp
  have l2 : ((sig.drop 32).take 32).length ≤ 32 := by simp
  simp only [serialize_der, List.length_cons, List.length_append]
  omega

theorem parse_serialize_der (sig : Bytes) (h : sig.length = 64) (hr : be_bytes_to_int (sig.take 32) < CURVE_ORDER)
    (hs : be_bytes_to_int (sig.drop 32) < CURVE_ORDER) : parse_der (serialize_der sig) = some sig := by
  rw [be_bytes_to_int_eq] at hr hs
  obtain ⟨m1, v1, l1⟩ := derBody_spec (sig.take 32)
  obtain ⟨m2, v2, l2⟩ := derBody_spec (sig.drop 32)
  have k1 : (sig.take 32).length = 32 := by simp [h]
  have k2 : (sig.drop 32).length = 32 := by simp [h]
  rw [serialize_der_eq sig h, parse_der, derLen_short _ (by omega)]
  simp only
  rw [if_neg (by simp only [List.length_cons, List.length_append]; omega),
    derInt_body _ _ m1 (by rw [v1]; exact hr)]
  simp only
  have e := derInt_body _ [] m2 (by rw [v2]; exact hs)
  rw [List.append_nil] at e
  rw [e]
  simp only
  rw [v1, v2, compact]
  have e1 := beBytes_beValue (sig.take 32)
  have e2 := beBytes_beValue (sig.drop 32)
  rw [k1] at e1
  rw [k2] at e2
  rw [e1, e2, List.take_append_drop]

/-- What parsing a signature tells about the input. -/
theorem parse_der_some {b sig : Bytes} (h : parse_der b = some sig) :
    8 ≤ b.length ∧ ∃ r s, sig = compact r s ∧ r < CURVE_ORDER ∧ s < CURVE_ORDER ∧
      (r ≠ 0 → s ≠ 0 → b = serialize_der sig) := by
  unfold parse_der at h
  split at h
  · next t =>
    split at h
    · cases h
    · next n u hu =>
      obtain ⟨hu1, hu2⟩ := derLen_some hu
      split at h
      · cases h
      · next hn =>
        push Not at hn
        split at h
        · cases h
        · next r w hw =>
          obtain ⟨a1, a2, a3⟩ := derInt_some hw
          split at h
          · next s hs =>
            obtain ⟨b1, b2, b3⟩ := derInt_some hs
            simp only [Option.some.injEq] at h
            subst h
            refine ⟨by simp only [List.length_cons, List.length_nil] at *; omega, r, s, rfl, a2, b2, ?_⟩
            intro hr0 hs0
            obtain ⟨B1, m1, v1, e1⟩ := a3 hr0
            obtain ⟨B2, m2, v2, e2⟩ := b3 hs0
            have hr' := a2.trans order_lt_256
            have hs' := b2.trans order_lt_256
            have L1 := m1.length_le (by rw [v1]; exact hr')
            have L2 := m2.length_le (by rw [v2]; exact hs')
            have hlen : (compact r s).length = 64 := by simp [compact]
            have t1 : (compact r s).take 32 = beBytes 32 r := List.take_left' (by simp)
            have t2 : (compact r s).drop 32 = beBytes 32 s := List.drop_left' (by simp)
            have d1 : derBody (beBytes 32 r) = B1 := by rw [← v1]; exact derBody_minimal m1 (by rw [v1]; exact hr')
            have d2 : derBody (beBytes 32 s) = B2 := by rw [← v2]; exact derBody_minimal m2 (by rw [v2]; exact hs')
            rw [serialize_der_eq _ hlen, t1, t2, d1, d2]
            rw [List.append_nil] at e2
            subst e2
            subst e1
            have hnl : n = 4 + B1.length + B2.length := by
              rw [hn]; simp only [List.length_cons, List.length_append]; omega
            rw [hu2 (by omega), hnl]
          · cases h
  · cases h

end Bitcoinx.K1
