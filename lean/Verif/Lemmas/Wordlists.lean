import Verif.Spec.Mnemonic
import Verif.Model.English
import Mathlib.Data.List.Nodup

/-! # The word lists -/

namespace Bitcoinx
open Spec

/-- A number for a word. -/
def wordCode (w : Str) : Nat := w.foldl (fun a c => Nat.add (Nat.mul a 128) c.toNat) 0

/-- A number for a word of at most eight characters, in alphabetical order. -/
def wordKey (w : Str) : Nat := Nat.mul (wordCode w) (Nat.pow 128 (8 - w.length))

/-- A list of numbers in ascending order. -/
def ascending : List Nat → Bool
  | a :: b :: l => Nat.blt a b && ascending (b :: l)
  | _ => true

theorem ascending_nodup (l : List Nat) (h : ascending l = true) : l.Pairwise (· < ·) := by
  induction l with
  | nil => exact .nil
  | cons a l ih =>
    cases l with
    | nil => exact List.pairwise_singleton _ _
    | cons b l =>
      rw [ascending, Bool.and_eq_true] at h
      have h1 := ih h.2
      have hab : a < b := by simpa [Nat.blt_eq] using h.1
      refine .cons ?_ h1
      intro x hx
      rcases List.mem_cons.1 hx with rfl | hx
      · exact hab
      · exact Nat.lt_trans hab (List.rel_of_pairwise_cons h1 hx)

/-- No number occurs twice. -/
def distinct : List Nat → Bool
  | [] => true
  | a :: l => l.all (fun b => !Nat.beq a b) && distinct l

theorem distinct_nodup (l : List Nat) (h : distinct l = true) : l.Nodup := by
  induction l with
  | nil => exact .nil
  | cons a l ih =>
    rw [distinct, Bool.and_eq_true, List.all_eq_true] at h
    refine List.nodup_cons.2 ⟨fun ha => ?_, ih h.2⟩
    have := h.1 a ha
    simp at this

/-- The numbers with a given remainder. -/
def bucket (r : Nat) (l : List Nat) : List Nat := l.filter (fun x => Nat.beq (Nat.mod x 64) r)

/-- No number occurs twice, by remainders less than `k`. -/
def buckets (l : List Nat) : Nat → Bool
  | 0 => true
  | k + 1 => distinct (bucket k l) && buckets l k

theorem buckets_nodup (l : List Nat) (h : buckets l 64 = true) : l.Nodup := by
  have h1 : ∀ k, buckets l k = true → ∀ r < k, (bucket r l).Nodup := by
    intro k
    induction k with
    | zero => intro _ r hr; omega
    | succ k ih =>
      intro h r hr
      rw [buckets, Bool.and_eq_true] at h
      rcases Nat.lt_succ_iff_lt_or_eq.1 hr with hr | rfl
      · exact ih h.2 r hr
      · exact distinct_nodup _ h.1
  rw [List.nodup_iff_count_le_one]
  intro a
  have h2 := List.nodup_iff_count_le_one.1 (h1 64 h (a % 64) (Nat.mod_lt _ (by decide))) a
  rw [bucket, List.count_filter (by simp; rfl)] at h2
  exact h2

/-- A word of the letters a to z. -/
def lettersOnly (w : Str) : Bool := !w.isEmpty && w.all (fun c => Nat.ble 97 c.toNat && Nat.ble c.toNat 122)

theorem toLower_letter (c : Char) (h1 : 97 ≤ c.toNat) (h2 : c.toNat ≤ 122) : c.toLower = c := by
  unfold Char.toLower
  rw [dif_neg]
  intro ⟨_, h⟩
  have : c.toNat ≤ 'Z'.toNat := h
  have : 'Z'.toNat = 90 := rfl
  omega

theorem isAsciiSplit_letter (c : Char) (h1 : 97 ≤ c.toNat) (h2 : c.toNat ≤ 122) : isAsciiSplit c = false := by
  have : ∀ n : Fin 128, 97 ≤ n.1 → isAsciiSplit (Char.ofNat n.1) = false := by decide
  have := this ⟨c.toNat, by omega⟩ h1
  simpa using this

/-- Words of letters are normalized. -/
theorem lettersOnly_word (U : PyUni) (w : Str) (h : lettersOnly w = true) : Word U w := by
  rw [lettersOnly, Bool.and_eq_true, List.all_eq_true] at h
  have hc : ∀ c ∈ w, 97 ≤ c.toNat ∧ c.toNat ≤ 122 := by
    intro c hc
    have := h.2 c hc
    simpa [Nat.ble_eq] using this
  have ha : ∀ c ∈ w, c.toNat < 128 := fun c h => by have := hc c h; omega
  refine ⟨?_, fun c h => ?_, U.nfkd_ascii w ha, ?_⟩
  · rintro rfl
    simp at h
  · rw [U.text.isspace_ascii c (ha c h)]
    exact isAsciiSplit_letter c (hc c h).1 (hc c h).2
  · rw [U.case.lower_ascii w ha]
    conv_rhs => rw [← List.map_id w]
    exact List.map_congr_left fun c h => toLower_letter c (hc c h).1 (hc c h).2

theorem english_length : english_wordlist.length = 2048 := by decide +kernel

theorem english_letters : english_wordlist.all lettersOnly = true := by decide +kernel

theorem english_ascending : ascending (english_wordlist.map wordKey) = true := by decide +kernel

/-- The English list consists of distinct normalized words. -/
theorem english_wordlist_spec (U : PyUni) : Wordlist U english_wordlist where
  nodup := by
    have h := (ascending_nodup _ english_ascending).imp (S := (· ≠ ·)) fun h => Nat.ne_of_lt h
    exact List.Nodup.of_map _ h
  word w hw := lettersOnly_word U w (List.all_eq_true.1 english_letters w hw)

theorem electrum_length : original_electrum_wordlist.length = 1626 := by decide +kernel

theorem electrum_letters : original_electrum_wordlist.all lettersOnly = true := by decide +kernel

/-- The numbers of the words. -/
def electrumCodes : List Nat := original_electrum_wordlist.map wordCode

theorem electrum_distinct : buckets electrumCodes 64 = true := by decide +kernel

/-- The list of old Electrum words consists of distinct normalized words. -/
theorem electrum_wordlist_spec (U : PyUni) : Wordlist U original_electrum_wordlist where
  nodup := List.Nodup.of_map _ (buckets_nodup _ electrum_distinct)
  word w hw := lettersOnly_word U w (List.all_eq_true.1 electrum_letters w hw)

end Bitcoinx
