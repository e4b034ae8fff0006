import Verif.Model.Base
import Verif.Spec.Bytes

/-! # Specification of the headers file -/

namespace Bitcoinx.Spec

/-- The value last written to index `i`, if any. -/
def latest (writes : List (Nat × Bytes)) (i : Nat) : Option Bytes :=
  (writes.reverse.find? (fun w => w.1 == i)).map Prod.snd

/-- The file `f` is a headers file of version 0 whose header at `height` is `raw`: a little-endian
uint16 size of the reserved area, a uint16 version, then (after the reserved area) 80 bytes per
header. -/
def Matches (f : Bytes) (raw : Bytes) (height : Nat) : Prop :=
  8 ≤ f.length ∧ leValue (slice f 2 4) = 0 ∧
    slice f (leValue (slice f 0 2) + 80 * height) (leValue (slice f 0 2) + 80 * height + 80) = raw

/-- The 80 bytes of the header with index `i` in a headers file. -/
def storedAt (f : Bytes) (i : Nat) : Bytes := slice f (8 + 80 * i) (8 + 80 * i + 80)

/-- The file `f` has the layout that the library writes: size 8 of the reserved area, version 0, the
number `n` of headers, and room for `cap` headers of which those from `n` on are empty. -/
structure HeadersFile (f : Bytes) (n cap : Nat) : Prop where
  head : slice f 0 4 = [8, 0, 0, 0]
  count : leValue (slice f 4 8) = n
  length : f.length = 8 + 80 * cap
  count_le : n ≤ cap
  rest : ∀ i, n ≤ i → i < cap → storedAt f i = zeros 80

/-- The headers with the `k` indices from `start` on. -/
def storedFrom (f : Bytes) (start k : Nat) : List Bytes := (List.range' start k).map (storedAt f)

end Bitcoinx.Spec
