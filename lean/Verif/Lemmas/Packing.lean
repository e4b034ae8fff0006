import Verif.Lemmas.Misc
import Verif.Spec.Stream

namespace Bitcoinx
open Spec

@[simp] theorem ok_bind' {α β : Type} (a : α) (f : α → Res β) : (Except.ok a >>= f) = f a := rfl
@[simp] theorem error_bind' {α β : Type} (e : Err) (f : α → Res β) :
    ((Except.error e : Res α) >>= f) = Except.error e := rfl
@[simp] theorem pure_ok' {α : Type} (a : α) : (pure a : Res α) = Except.ok a := rfl

theorem bind_eq_ok {α β : Type} {x : Res α} {f : α → Res β} {b : β} :
    (x >>= f) = .ok b ↔ ∃ a, x = .ok a ∧ f a = .ok b := by
  cases x <;> simp

theorem bind_eq_error {α β : Type} {x : Res α} {f : α → Res β} {e : Err} :
    (x >>= f) = .error e ↔ x = .error e ∨ ∃ a, x = .ok a ∧ f a = .error e := by
  cases x <;> simp

theorem unpackU_leBytes (w n : Nat) (h : n < 256 ^ w) : unpackU w (leBytes w n) = .ok (n : Int) := by
  simp [unpackU, le_bytes_to_int_eq, leValue_leBytes w n h]

theorem packU_ok (w n : Nat) (h : n < 256 ^ w) : packU w (n : Int) = .ok (leBytes w n) := by
  have : (n : Int) < 256 ^ w := by exact_mod_cast h
  simp [packU, this]

theorem packU_eq_ok {w : Nat} {v : Int} {b : Bytes} (h : packU w v = .ok b) :
    0 ≤ v ∧ v < 256 ^ w ∧ b = leBytes w v.toNat := by
  unfold packU at h
  split at h
  · next hv => exact ⟨hv.1, hv.2, by simpa using h.symm⟩
  · simp at h

theorem readFixed_append (w : Nat) (unpack : Bytes → Res Int) (b rest : Bytes) (v : Int)
    (hb : b.length = w) (h : unpack b = .ok v) : readFixed w unpack (b ++ rest) = .ok (v, rest) := by
  subst hb; simp [readFixed, h]

/-- The shape shared by all `unpack_*`: total on the right width, `struct.error` otherwise. -/
def WidthChecked (w : Nat) (unpack : Bytes → Res Int) : Prop :=
  (∀ b, b.length = w → ∃ v, unpack b = .ok v) ∧ (∀ b, b.length ≠ w → unpack b = .error .structError)

theorem widthChecked_unpackU (w : Nat) : WidthChecked w (unpackU w) := by
  constructor <;> intro b hb <;> simp [unpackU, hb]

theorem widthChecked_unpackS (w : Nat) : WidthChecked w (unpackS w) := by
  constructor <;> intro b hb <;> simp [unpackS, hb]

theorem widthChecked_unpackUBE (w : Nat) : WidthChecked w (unpackUBE w) := by
  constructor <;> intro b hb <;> simp [unpackUBE, unpackU, hb]

theorem readFixed_readsExactly {w : Nat} {unpack : Bytes → Res Int} (h : WidthChecked w unpack) :
    ReadsExactly (readFixed w unpack) := by
  intro s v rest hs
  simp only [readFixed, bind_eq_ok] at hs
  obtain ⟨a, ha, hs⟩ := hs
  simp only [pure_ok', Except.ok.injEq, Prod.mk.injEq] at hs
  obtain ⟨rfl, rfl⟩ := hs
  have hl : (s.take w).length = w := by
    by_contra hc
    rw [h.2 _ hc] at ha; simp at ha
  refine ⟨s.take w, (List.take_append_drop w s).symm, fun t => readFixed_append _ _ _ _ _ hl ha, ?_⟩
  intro q hq hne
  have hql : q.length < w := by
    rcases Nat.lt_or_ge q.length w with h' | h'
    · exact h'
    · exact absurd (hq.eq_of_length (by have := hq.length_le; omega)) hne
  have : (q.take w).length ≠ w := by rw [List.length_take]; omega
  simp [readFixed, h.2 _ this]

theorem readFixed_onlyStructError {w : Nat} {unpack : Bytes → Res Int} (h : WidthChecked w unpack) :
    OnlyStructError (readFixed w unpack) := by
  intro s e hs
  simp only [readFixed, bind_eq_error] at hs
  rcases hs with hs | ⟨a, _, hs⟩
  · by_cases hc : (s.take w).length = w
    · obtain ⟨v, hv⟩ := h.1 _ hc; rw [hv] at hs; simp at hs
    · rw [h.2 _ hc] at hs; exact (Except.error.inj hs).symm
  · simp at hs

theorem prefix_append_cases {α : Type} {q p1 p2 : List α} (h : q <+: p1 ++ p2) :
    (q <+: p1 ∧ q ≠ p1) ∨ ∃ q2, q = p1 ++ q2 ∧ q2 <+: p2 := by
  rcases Nat.lt_or_ge q.length p1.length with hl | hl
  · left
    refine ⟨List.prefix_of_prefix_length_le h (List.prefix_append _ _) (by omega), ?_⟩
    rintro rfl; omega
  · right
    have : p1 <+: q := List.prefix_of_prefix_length_le (List.prefix_append _ _) h hl
    obtain ⟨q2, rfl⟩ := this
    exact ⟨q2, rfl, (List.prefix_append_right_inj p1).1 h⟩

/-- Sequencing of two readers. -/
def Reader.andThen {α β : Type} (r : Reader α) (f : α → Reader β) : Reader β := fun s => do
  let (a, s) ← r s
  f a s

theorem Spec.ReadsExactly.andThen {α β : Type} {r : Reader α} {f : α → Reader β}
    (hr : ReadsExactly r) (hf : ∀ a, ReadsExactly (f a)) : ReadsExactly (Reader.andThen r f) := by
  intro s v rest hs
  simp only [Reader.andThen, bind_eq_ok] at hs
  obtain ⟨⟨a, s1⟩, h1, h2⟩ := hs
  obtain ⟨p1, rfl, hp1, hq1⟩ := hr _ _ _ h1
  obtain ⟨p2, rfl, hp2, hq2⟩ := hf a _ _ _ h2
  refine ⟨p1 ++ p2, by simp, fun t => ?_, fun q hq hne => ?_⟩
  · simp [Reader.andThen, List.append_assoc, hp1, hp2]
  · rcases prefix_append_cases hq with ⟨ha, hb⟩ | ⟨q2, rfl, ha⟩
    · simp [Reader.andThen, hq1 q ha hb]
    · simp [Reader.andThen, hp1, hq2 q2 ha (by rintro rfl; exact hne rfl)]

theorem Spec.OnlyStructError.andThen {α β : Type} {r : Reader α} {f : α → Reader β}
    (hr : OnlyStructError r) (hf : ∀ a, OnlyStructError (f a)) :
    OnlyStructError (Reader.andThen r f) := by
  intro s e hs
  simp only [Reader.andThen, bind_eq_error] at hs
  rcases hs with hs | ⟨⟨a, s1⟩, _, h2⟩
  · exact hr _ _ hs
  · exact hf _ _ _ h2

theorem Spec.OnlyReadError.andThen {α β : Type} {r : Reader α} {f : α → Reader β}
    (hr : OnlyReadError r) (hf : ∀ a, OnlyReadError (f a)) :
    OnlyReadError (Reader.andThen r f) := by
  intro s e hs
  simp only [Reader.andThen, bind_eq_error] at hs
  rcases hs with hs | ⟨⟨a, s1⟩, _, h2⟩
  · exact hr _ _ hs
  · exact hf _ _ _ h2

theorem Spec.OnlyStructError.weaken {α : Type} {r : Reader α} (h : OnlyStructError r) : OnlyReadError r :=
  fun s e hs => .inl (h s e hs)

/-- A reader that consumes nothing. -/
def Reader.ret {α : Type} (a : α) : Reader α := fun s => .ok (a, s)

theorem Spec.ReadsExactly.ret {α : Type} (a : α) : ReadsExactly (Reader.ret a) := by
  intro s v rest hs
  simp only [Reader.ret, Except.ok.injEq, Prod.mk.injEq] at hs
  obtain ⟨rfl, rfl⟩ := hs
  refine ⟨[], by simp, fun t => by simp [Reader.ret], fun q hq hne => ?_⟩
  simp at hq; exact absurd hq hne

theorem Spec.OnlyStructError.ret {α : Type} (a : α) : OnlyStructError (Reader.ret a) := by
  intro s e hs; simp [Reader.ret] at hs

/-- The exact-length read with a length check, as in `read_varbytes`. -/
def Reader.takeN (n : Nat) : Reader Bytes := fun s =>
  if (s.take n).length ≠ n then .error .structError else .ok (s.take n, s.drop n)

theorem Spec.ReadsExactly.takeN (n : Nat) : ReadsExactly (Reader.takeN n) := by
  intro s v rest hs
  unfold Reader.takeN at hs
  split at hs
  · simp at hs
  · next h =>
    simp only [Except.ok.injEq, Prod.mk.injEq] at hs
    obtain ⟨rfl, rfl⟩ := hs
    have hl : (s.take n).length = n := not_not.1 h
    refine ⟨s.take n, (List.take_append_drop n s).symm, fun t => ?_, fun q hq hne => ?_⟩
    · unfold Reader.takeN
      rw [List.take_left' hl, List.drop_left' hl, if_neg (by simp [hl])]
    · have hql : q.length < n := by
        rcases Nat.lt_or_ge q.length n with h' | h'
        · exact h'
        · exact absurd (hq.eq_of_length (by have := hq.length_le; omega)) hne
      unfold Reader.takeN
      rw [if_pos (by rw [List.length_take]; omega)]

theorem Spec.OnlyStructError.takeN (n : Nat) : OnlyStructError (Reader.takeN n) := by
  intro s e hs
  unfold Reader.takeN at hs
  split at hs
  · exact (Except.error.inj hs).symm
  · simp at hs

theorem read_varint_eq : read_varint = Reader.andThen (readFixed 1 unpack_byte) (fun n =>
    if n < 253 then Reader.ret n else if n = 253 then read_le_uint16
    else if n = 254 then read_le_uint32 else read_le_uint64) := by
  funext s
  simp only [read_varint, Reader.andThen]
  congr 1
  funext ⟨n, s⟩
  split
  · rfl
  · split
    · rfl
    · split <;> rfl

/-- A read of any length. -/
def Reader.takeAny (n : Int) : Reader Bytes := fun s =>
  if n ≥ 2 ^ 63 then .error .overflowError else Reader.takeN n.toNat s

theorem Spec.ReadsExactly.takeAny (n : Int) : ReadsExactly (Reader.takeAny n) := by
  by_cases h : n ≥ 2 ^ 63
  · intro s v rest hs
    simp only [Reader.takeAny, if_pos h] at hs
    cases hs
  · have : Reader.takeAny n = Reader.takeN n.toNat := by
      funext s; simp only [Reader.takeAny, if_neg h]
    rw [this]; exact .takeN _

theorem Spec.OnlyReadError.takeAny (n : Int) : OnlyReadError (Reader.takeAny n) := by
  intro s e hs
  simp only [Reader.takeAny] at hs
  split at hs
  · exact .inr (Except.error.inj hs).symm
  · exact .inl (OnlyStructError.takeN _ _ _ hs)

theorem read_varbytes_eq : read_varbytes = Reader.andThen read_varint Reader.takeAny := by
  funext s
  simp only [read_varbytes, Reader.andThen]
  congr 1

theorem readN_succ_eq {α : Type} (r : Reader α) (n : Nat) :
    readN r (n + 1) = Reader.andThen r (fun x => Reader.andThen (readN r n)
      (fun xs => Reader.ret (x :: xs))) := by
  funext s
  simp only [readN, Reader.andThen]
  rfl

theorem read_list_eq {α : Type} (r : Reader α) :
    read_list r = Reader.andThen read_varint (fun n => readN r n.toNat) := by
  funext s
  simp only [read_list, Reader.andThen]

theorem read_varint_readsExactly : ReadsExactly read_varint := by
  rw [read_varint_eq]
  refine (readFixed_readsExactly (widthChecked_unpackU 1)).andThen fun n => ?_
  split
  · exact .ret _
  · split
    · exact readFixed_readsExactly (widthChecked_unpackU 2)
    · split
      · exact readFixed_readsExactly (widthChecked_unpackU 4)
      · exact readFixed_readsExactly (widthChecked_unpackU 8)

theorem read_varint_onlyStructError : OnlyStructError read_varint := by
  rw [read_varint_eq]
  refine (readFixed_onlyStructError (widthChecked_unpackU 1)).andThen fun n => ?_
  split
  · exact .ret _
  · split
    · exact readFixed_onlyStructError (widthChecked_unpackU 2)
    · split
      · exact readFixed_onlyStructError (widthChecked_unpackU 4)
      · exact readFixed_onlyStructError (widthChecked_unpackU 8)

theorem read_varbytes_readsExactly : ReadsExactly read_varbytes := by
  rw [read_varbytes_eq]
  exact read_varint_readsExactly.andThen fun n => .takeAny _

theorem read_varbytes_onlyReadError : OnlyReadError read_varbytes := by
  rw [read_varbytes_eq]
  exact OnlyReadError.andThen read_varint_onlyStructError.weaken fun n => .takeAny _

theorem readN_readsExactly {α : Type} {r : Reader α} (h : ReadsExactly r) (n : Nat) :
    ReadsExactly (readN r n) := by
  induction n with
  | zero => exact .ret _
  | succ n ih => rw [readN_succ_eq]; exact h.andThen fun x => ih.andThen fun xs => .ret _

theorem readN_onlyStructError {α : Type} {r : Reader α} (h : OnlyStructError r) (n : Nat) :
    OnlyStructError (readN r n) := by
  induction n with
  | zero => exact .ret _
  | succ n ih => rw [readN_succ_eq]; exact h.andThen fun x => ih.andThen fun xs => .ret _

theorem read_list_readsExactly {α : Type} {r : Reader α} (h : ReadsExactly r) :
    ReadsExactly (read_list r) := by
  rw [read_list_eq]; exact read_varint_readsExactly.andThen fun n => readN_readsExactly h _

theorem read_list_onlyStructError {α : Type} {r : Reader α} (h : OnlyStructError r) :
    OnlyStructError (read_list r) := by
  rw [read_list_eq]; exact read_varint_onlyStructError.andThen fun n => readN_onlyStructError h _

theorem readN_onlyReadError {α : Type} {r : Reader α} (h : OnlyReadError r) (n : Nat) :
    OnlyReadError (readN r n) := by
  induction n with
  | zero => exact (OnlyStructError.ret _).weaken
  | succ n ih =>
    rw [readN_succ_eq]
    exact h.andThen fun x => OnlyReadError.andThen ih fun xs => (OnlyStructError.ret _).weaken

theorem read_list_onlyReadError {α : Type} {r : Reader α} (h : OnlyReadError r) :
    OnlyReadError (read_list r) := by
  rw [read_list_eq]
  exact OnlyReadError.andThen read_varint_onlyStructError.weaken fun n => readN_onlyReadError h _

/-! ## varint -/

theorem pack_varint_ok (n : Nat) (h : n < 2 ^ 64) :
    ∃ b, pack_varint (n : Int) = .ok b ∧ varint_len (n : Int) = .ok b.length ∧
      (∀ rest, read_varint (b ++ rest) = .ok ((n : Int), rest)) ∧ b ≠ [] := by
  have h64 : n < 256 ^ 8 := by omega
  have c0 : (n : Int) ≥ 0 := by omega
  have c4 : (n : Int) ≤ 18446744073709551615 := by omega
  have rd1 : ∀ (k : Nat) (rest : Bytes), k < 256 →
      readFixed 1 unpack_byte (UInt8.ofNat k :: rest) = .ok ((k : Int), rest) := by
    intro k rest hk
    have := readFixed_append 1 unpack_byte [UInt8.ofNat k] rest k rfl
      (by simp [unpack_byte, unpackU, le_bytes_to_int]; omega)
    simpa using this
  by_cases h1 : n < 253
  · have c1 : (n : Int) < 253 := by omega
    simp only [pack_varint, varint_len, c0, c1, if_true]
    refine ⟨leBytes 1 n, packU_ok 1 n (by omega), by simp, fun rest => ?_, by simp [leBytes]⟩
    have : leBytes 1 n = [UInt8.ofNat n] := by simp [leBytes, Nat.mod_eq_of_lt (by omega : n < 256)]
    simp only [read_varint, this, List.cons_append, List.nil_append, rd1 n rest (by omega), ok_bind']
    rw [if_pos (by omega)]; rfl
  · have c1 : ¬ (n : Int) < 253 := by omega
    by_cases h2 : n < 65536
    · have c2 : (n : Int) < 65536 := by omega
      simp only [pack_varint, varint_len, c0, c1, c2, if_true, if_false]
      refine ⟨0xfd :: leBytes 2 n, by simp [pack_le_uint16, packU_ok 2 n (by omega)], by simp,
        fun rest => ?_, by simp⟩
      have := rd1 253 (leBytes 2 n ++ rest) (by omega)
      simp only [read_varint, List.cons_append]
      rw [show (0xfd : UInt8) = UInt8.ofNat 253 from rfl, this]
      simp only [ok_bind']
      rw [if_neg (by decide), if_pos (by decide)]
      exact readFixed_append _ _ _ _ _ (by simp) (unpackU_leBytes 2 n (by omega))
    · have c2 : ¬ (n : Int) < 65536 := by omega
      by_cases h3 : n < 4294967296
      · have c3 : (n : Int) < 4294967296 := by omega
        simp only [pack_varint, varint_len, c0, c1, c2, c3, if_true, if_false]
        refine ⟨0xfe :: leBytes 4 n, by simp [pack_le_uint32, packU_ok 4 n (by omega)], by simp,
          fun rest => ?_, by simp⟩
        have := rd1 254 (leBytes 4 n ++ rest) (by omega)
        simp only [read_varint, List.cons_append]
        rw [show (0xfe : UInt8) = UInt8.ofNat 254 from rfl, this]
        simp only [ok_bind']
        rw [if_neg (by decide), if_neg (by decide), if_pos (by decide)]
        exact readFixed_append _ _ _ _ _ (by simp) (unpackU_leBytes 4 n (by omega))
      · have c3 : ¬ (n : Int) < 4294967296 := by omega
        simp only [pack_varint, varint_len, c0, c1, c2, c3, c4, if_true, if_false]
        refine ⟨0xff :: leBytes 8 n, by simp [pack_le_uint64, packU_ok 8 n (by omega)], by simp,
          fun rest => ?_, by simp⟩
        have := rd1 255 (leBytes 8 n ++ rest) (by omega)
        simp only [read_varint, List.cons_append]
        rw [show (0xff : UInt8) = UInt8.ofNat 255 from rfl, this]
        simp only [ok_bind']
        rw [if_neg (by decide), if_neg (by decide), if_neg (by decide)]
        exact readFixed_append _ _ _ _ _ (by simp) (unpackU_leBytes 8 n (by omega))

theorem pack_varint_err (n : Int) (h : ¬ (0 ≤ n ∧ n < 2 ^ 64)) :
    pack_varint n = .error .structError ∧ varint_len n = .error .valueError := by
  constructor
  · unfold pack_varint
    split
    · simp only [pack_byte, packU]; rw [if_neg (by omega)]
    · split
      · omega
      · split
        · omega
        · have : packU 8 n = .error .structError := by unfold packU; rw [if_neg (by omega)]
          simp [pack_le_uint64, this]
  · unfold varint_len
    split
    · rw [if_neg (by omega), if_neg (by omega), if_neg (by omega), if_neg (by omega)]
    · rfl

theorem pack_varbytes_ok (d : Bytes) (h : d.length < 2 ^ 64) :
    ∃ b, pack_varbytes d = .ok (b ++ d) ∧ pack_varint d.length = .ok b ∧
      (d.length < 2 ^ 63 → ∀ rest, read_varbytes ((b ++ d) ++ rest) = .ok (d, rest)) := by
  obtain ⟨b, hb, _, hr, _⟩ := pack_varint_ok d.length h
  refine ⟨b, by simp [pack_varbytes, hb], hb, fun h63 rest => ?_⟩
  have : ¬ (d.length : Int) ≥ 2 ^ 63 := by omega
  simp only [read_varbytes, List.append_assoc, hr, ok_bind', this, if_false]
  simp

theorem packAll_readN {α : Type} {pack_one : α → Res Bytes} {read_one : Reader α} {items : List α}
    (h : InvertsOn pack_one read_one items) :
    ∃ bs, packAll pack_one items = .ok bs ∧
      ∀ rest, readN read_one items.length (bs.flatten ++ rest) = .ok (items, rest) := by
  induction items with
  | nil => exact ⟨[], rfl, fun rest => rfl⟩
  | cons x xs ih =>
    obtain ⟨b, hb, hr⟩ := h x (by simp)
    obtain ⟨bs, hbs, hrs⟩ := ih (fun y hy => h y (by simp [hy]))
    refine ⟨b :: bs, by simp [packAll, hb, hbs], fun rest => ?_⟩
    simp [readN, List.append_assoc, hr, hrs]

theorem pack_list_ok {α : Type} {pack_one : α → Res Bytes} {read_one : Reader α} {items : List α}
    (hl : items.length < 2 ^ 64) (h : InvertsOn pack_one read_one items) :
    ∃ b, pack_list items pack_one = .ok b ∧ ∀ rest, read_list read_one (b ++ rest) = .ok (items, rest) := by
  obtain ⟨n, hn, _, hr, _⟩ := pack_varint_ok items.length hl
  obtain ⟨bs, hbs, hrs⟩ := packAll_readN h
  refine ⟨n ++ bs.flatten, by simp [pack_list, hn, hbs], fun rest => ?_⟩
  simp only [read_list, List.append_assoc, hr, ok_bind']
  simpa using hrs rest

end Bitcoinx
