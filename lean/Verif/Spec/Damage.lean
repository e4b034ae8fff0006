import Verif.Spec.History

/-! # Specification of damaged headers files -/

namespace Bitcoinx.Spec

/-- What can be left of a headers file `f` after a power failure, or if it was cut: the first four bytes and the
checkpoint are there, the number of headers is `n`, and in the place of each header from the checkpoint up to that number
there is the header, or zeros because it never reached the disk, or less than 80 bytes because the file ends there.
Nothing is said of what comes after. -/
structure Remains (cp : CheckPoint) (f g : Bytes) (n : Nat) : Prop where
  length : 8 ≤ g.length
  head : slice g 0 4 = slice f 0 4
  count : leValue (slice g 4 8) = n
  checkpoint : storedAt g cp.height = storedAt f cp.height
  headers : ∀ i, cp.height < i → i < n →
    storedAt g i = storedAt f i ∨ storedAt g i = zeros 80 ∨ (storedAt g i).length < 80

/-- Two collections answer every question about the headers from the height of the checkpoint on alike. -/
structure SameFrom (cp : CheckPoint) (s s' : Headers) : Prop where
  chains : s.chains = s'.chains
  len : s.len = s'.len
  lookup : ∀ hash, hash ≠ [] → s.lookup hash = s'.lookup hash
  raw_header : ∀ c (h : Int), cp.height ≤ h → s.raw_header_at_height c h = s'.raw_header_at_height c h

/-- What is raised for a place in which there is no header. -/
def damageError (x : Bytes) : Err := if x = [] ∨ x = zeros 80 then .missingHeader else .structError

end Bitcoinx.Spec
