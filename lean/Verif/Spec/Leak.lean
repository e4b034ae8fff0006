import Verif.Spec.Bip32

/-! # Specification vocabulary for what an extended public key gives away -/

namespace Bitcoinx.Spec

/-- The number that leads from the secret of a key to that of its descendant along a path without hardened indexes: the sum
of `parse256(I_L)` over the path.  It is made of the extended public key alone. -/
def pathOffset (H : Hashes) {L : Secp} : BIP32PublicKey L → List Int → Nat
  | _, [] => 0
  | p, n :: path =>
    beValue ((H.hmac_sha512 p.derivation.chain_code (L.serialize true p.key.point ++ beBytes 4 n.toNat)).take 32) +
      match p.child H n with
      | .ok c => pathOffset H c path
      | .error _ => 0

end Bitcoinx.Spec
