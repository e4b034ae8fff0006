import Verif.Spec.Tx
import Verif.Spec.Keys

/-! # Specification of signed and of encrypted messages -/

namespace Bitcoinx.Spec

/-- What is signed for a message: a length byte, "Bitcoin Signed Message:" and a line feed, then the message with
its length before it. -/
def signedText (m : Bytes) : Bytes :=
  [0x18, 0x42, 0x69, 0x74, 0x63, 0x6f, 0x69, 0x6e, 0x20, 0x53, 0x69, 0x67, 0x6e, 0x65, 0x64, 0x20, 0x4d, 0x65, 0x73,
    0x73, 0x61, 0x67, 0x65, 0x3a, 0x0a] ++ varbytes m

/-- An encrypted message: the magic bytes, the ephemeral public key, the ciphertext of the padded message, and an
HMAC of all of this.  The initialization vector, the key of the cipher and the key of the HMAC are the parts of the
SHA-512 of the shared point. -/
def IsEncrypted (H : Hashes) (L : Secp) (E : Cipher) (magic : Bytes) (ephemeral shared : L.Point) (m c : Bytes) : Prop :=
  ∃ iv key_e key_m padded body, iv.length = 16 ∧ key_e.length = 16 ∧ key_m.length = 32 ∧
    iv ++ key_e ++ key_m = H.sha512 (L.serialize true shared) ∧ IsPadded m padded ∧
    body = magic ++ L.serialize true ephemeral ++ E.encrypt key_e iv padded ∧ c = body ++ H.hmac_sha256 key_m body

end Bitcoinx.Spec
