import Verif.Model.Keys

/-! # Specification vocabulary for keys -/

namespace Bitcoinx.Spec

/-- The numbers that are secrets of private keys. -/
def Secret (n : Nat) : Prop := 0 < n ∧ n < CURVE_ORDER

/-- The private keys there are: 32 big-endian bytes of a number in `1 .. CURVE_ORDER - 1`. -/
def PrivValid (k : PrivateKey) : Prop :=
  k.secret.length = 32 ∧ 0 < be_bytes_to_int k.secret ∧ be_bytes_to_int k.secret < CURVE_ORDER

/-- The public keys there are: the points other than infinity. -/
def PubValid {L : Secp} (k : PublicKey L) : Prop := k.point ≠ 0

/-- The secret number of a private key. -/
def secretNumber (k : PrivateKey) : Nat := be_bytes_to_int k.secret

/-- `p` is the public key of `k`: the generator times the secret, with the same flag and coin. -/
def IsPublicKeyOf {L : Secp} (p : PublicKey L) (k : PrivateKey) : Prop :=
  p.point = secretNumber k • L.gen ∧ p.compressed = k.compressed ∧ p.coin = k.coin

/-- PKCS#7: a whole number of 16-byte blocks, made of the data and 1 to 16 bytes that say how many
they are. -/
def IsPadded (data padded : Bytes) : Prop :=
  ∃ n : UInt8, 1 ≤ n.toNat ∧ n.toNat ≤ 16 ∧ padded = data ++ List.replicate n.toNat n ∧ padded.length % 16 = 0

end Bitcoinx.Spec
