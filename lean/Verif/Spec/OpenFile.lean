import Verif.Spec.Chain

/-! # Specification of opening a headers file -/

namespace Bitcoinx.Spec

/-- The bits of a header. -/
def bitsOf (raw : Bytes) : Int := leValue (slice raw 72 76)

/-- The number of headers, in a list with the latest first, that have an earlier one with the same
predecessor. -/
def forksRev : List Bytes → Nat
  | [] => 0
  | x :: earlier => forksRev earlier + if ∃ y ∈ earlier, header_prev_hash y = header_prev_hash x then 1 else 0

/-- The number of headers of the list that have an earlier one with the same predecessor. -/
def forks (L : List Bytes) : Nat := forksRev L.reverse

/-- The header `x` can follow the checkpoint and the headers `u` in a file: it is not empty, its
predecessor comes before it, its bits stand for a target, and at most 65535 headers so far begin a new
chain.  There is no condition that the bits are the required ones, nor on the hash. -/
structure Fits (H : Hashes) (cp : CheckPoint) (u : List Bytes) (x : Bytes) : Prop where
  nonzero : x ≠ zeros 80
  parent : ∃ y ∈ cp.raw_header :: u, header_hash H y = header_prev_hash x
  bits : ∃ t, bits_to_target (bitsOf x) = .ok t
  chains : forks (u ++ [x]) < 65536

/-- The header `x` cannot follow the checkpoint and the headers `u`, and this is the error. -/
inductive Refused (H : Hashes) (cp : CheckPoint) (u : List Bytes) (x : Bytes) : Err → Prop
  | missing : (x = zeros 80 ∨ ∀ y ∈ cp.raw_header :: u, header_hash H y ≠ header_prev_hash x) →
      Refused H cp u x .missingHeader
  | bits {e : Err} : x ≠ zeros 80 → (∃ y ∈ cp.raw_header :: u, header_hash H y = header_prev_hash x) →
      bits_to_target (bitsOf x) = .error e → Refused H cp u x e
  | chains : x ≠ zeros 80 → (∃ y ∈ cp.raw_header :: u, header_hash H y = header_prev_hash x) →
      (∃ t, bits_to_target (bitsOf x) = .ok t) → 65536 ≤ forks (u ++ [x]) → Refused H cp u x .overflowError

end Bitcoinx.Spec
