import Verif.Spec.Chain

/-! # Specification of what happens to a collection of headers over time -/

namespace Bitcoinx.Spec

/-- The second state is reached from the first by any sequence of `connect` (with whatever outcome),
`set_one` and closing and reopening the file, under the conditions of `Reachable`. -/
inductive Later (H : Hashes) (coin : Coin) (cp : CheckPoint) (S : Bytes → Prop) (s : Headers) : Headers → Prop
  | now : Later H coin cp S s s
  | connect {s1 s2 : Headers} {raw : Bytes} {r : Res (Header × Nat)} :
      Later H coin cp S s s1 → S raw → Room s1 → s1.connect raw = (s2, r) → Later H coin cp S s s2
  | set_one {s1 s2 : Headers} {height : Int} {raw : Bytes} {r : Res Unit} :
      Later H coin cp S s s1 → (height = cp.height → raw = cp.raw_header) →
      s1.set_one height raw = (s2, r) → Later H coin cp S s s2
  | reopen {s1 s2 : Headers} {f : Option Bytes} :
      Later H coin cp S s s1 →
      Headers.from_file H coin (some s1.storage.file) cp = (f, .ok s2) → Later H coin cp S s s2

/-- The header obeys the rules as a successor of the header at the height before on the chain, as the
collection is now: it has the bits required at its height and time, and its hash is not above the
target that they stand for. -/
def Obeys (s : Headers) (hd : Header) (c : Nat) : Prop :=
  s.required_bits c hd.height hd.timestamp = .ok hd.bits ∧
    ∃ target, bits_to_target hd.bits = .ok target ∧ leValue hd.hash ≤ target

/-- The histories of `Reachable` in which `set_one` is not used. -/
inductive Unset (H : Hashes) (coin : Coin) (cp : CheckPoint) (S : Bytes → Prop) : Headers → List Bytes → Prop
  | start {file f' : Option Bytes} {s : Headers} : file ≠ some [] →
      (∀ f, file = some f → ¬ Matches f cp.raw_header cp.height) →
      Headers.from_file H coin file cp = (f', .ok s) → Unset H coin cp S s [cp.raw_header]
  | accept {s s' : Headers} {A : List Bytes} {raw : Bytes} {r : Header × Nat} :
      Unset H coin cp S s A → S raw → Room s → s.connect raw = (s', .ok r) →
      Unset H coin cp S s' (A ++ [raw])
  | reject {s s' : Headers} {A : List Bytes} {raw : Bytes} {e : Err} :
      Unset H coin cp S s A → S raw → Room s → s.connect raw = (s', .error e) → Unset H coin cp S s' A
  | reopen {s s' : Headers} {A : List Bytes} {f' : Option Bytes} :
      Unset H coin cp S s A →
      Headers.from_file H coin (some s.storage.file) cp = (f', .ok s') → Unset H coin cp S s' A

theorem Unset.reachable {H : Hashes} {coin : Coin} {cp : CheckPoint} {S : Bytes → Prop} {s : Headers}
    {A : List Bytes} (h : Unset H coin cp S s A) : Reachable H coin cp S s A := by
  induction h with
  | start h1 h2 h3 => exact .start h1 h2 h3
  | accept _ h1 h2 h3 ih => exact .accept ih h1 h2 h3
  | reject _ h1 h2 h3 ih => exact .reject ih h1 h2 h3
  | reopen _ h1 ih => exact .reopen ih h1

end Bitcoinx.Spec
