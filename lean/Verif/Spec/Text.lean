import Verif.Model.Base

/-! # Specification vocabulary for digit strings -/

namespace Bitcoinx.Spec

/-- Position of a character in an alphabet. -/
def digitOf (alphabet : Str) (c : Char) : Option Nat :=
  match alphabet with
  | [] => none
  | a :: as => if a = c then some 0 else (digitOf as c).map (· + 1)

/-- The number denoted by a numeral in the base given by the alphabet's size; `none` if some
character is not a digit.  The first character is the most significant. -/
def numeral (alphabet : Str) : Str → Option Nat
  | [] => some 0
  | c :: cs => do
    let d ← digitOf alphabet c
    let rest ← numeral alphabet cs
    return d * alphabet.length ^ cs.length + rest

/-- The Bitcoin base-58 alphabet. -/
def base58Alphabet : Str := "123456789ABCDEFGHJKLMNPQRSTUVWXYZabcdefghijkmnopqrstuvwxyz".toList

/-- Lower-case hexadecimal digits. -/
def hexAlphabet : Str := "0123456789abcdef".toList

/-- Decimal digits. -/
def decAlphabet : Str := "0123456789".toList

/-- A text over an alphabet. -/
def Over (alphabet t : Str) : Prop := ∀ c ∈ t, c ∈ alphabet

/-- Number of leading occurrences of `x`. -/
def leading {α : Type} [DecidableEq α] (x : α) : List α → Nat
  | [] => 0
  | y :: ys => if y = x then leading x ys + 1 else 0

/-- The words of a text: what is left when it is cut at white space, any amount of it, around and between them. -/
inductive Split (space : Char → Bool) : Str → List Str → Prop
  | blank (t : Str) : (∀ c ∈ t, space c = true) → Split space t []
  | word (s w rest : Str) (ws : List Str) : (∀ c ∈ s, space c = true) → w ≠ [] → (∀ c ∈ w, space c = false) →
    (∀ c, rest.head? = some c → space c = true) → Split space rest ws → Split space (s ++ w ++ rest) (w :: ws)

end Bitcoinx.Spec
