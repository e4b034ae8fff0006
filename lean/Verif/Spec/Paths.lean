import Verif.Spec.Bip32

/-! # Specification vocabulary for keys at the end of different paths -/

namespace Bitcoinx.Spec

/-- What BIP32 takes the HMAC of, with the chain code as key, for the child of `k` number `n`. -/
def ckdMessage (L : Secp) (k : BIP32PrivateKey) (n : Nat) : Bytes :=
  (if 2 ^ 31 ≤ n then 0 :: beBytes 32 (secretNumber k.key) else L.serialize true (secretNumber k.key • L.gen)) ++ beBytes 4 n

/-- On the way from `k` along `path` and from `k'` along `path'`, at the same distance, HMAC-SHA512 is used on two different
pairs of key and message and gives the same last 32 bytes. -/
def PathCollision (H : Hashes) (L : Secp) (k k' : BIP32PrivateKey) (path path' : List Int) : Prop :=
  ∃ (u u' : List Int) (n m : Nat) (a b : BIP32PrivateKey), (u ++ [(n : Int)]) <+: path ∧ (u' ++ [(m : Int)]) <+: path' ∧
    u.length = u'.length ∧ derivePriv H L k u = .ok a ∧ derivePriv H L k' u' = .ok b ∧
    (a.derivation.chain_code, ckdMessage L a n) ≠ (b.derivation.chain_code, ckdMessage L b m) ∧
    (H.hmac_sha512 a.derivation.chain_code (ckdMessage L a n)).drop 32 =
      (H.hmac_sha512 b.derivation.chain_code (ckdMessage L b m)).drop 32

end Bitcoinx.Spec
