import Verif.Model.Digests
import Verif.Model.Secp256k1

/-! # The digests have their sizes -/

namespace Bitcoinx.Digest

theorem foldl_length {α β : Type} (f : List α → β → List α) (n : Nat)
    (hf : ∀ h b, h.length = n → (f h b).length = n) (l : List β) (h : List α) (hh : h.length = n) :
    (l.foldl f h).length = n := by
  induction l generalizing h with
  | nil => exact hh
  | cons b l ih => exact ih _ (hf h b hh)

theorem flatMap_length {α : Type} (f : α → Bytes) (k : Nat) (hf : ∀ a, (f a).length = k) (l : List α) :
    (l.flatMap f).length = l.length * k := by
  induction l with
  | nil => simp
  | cons a l ih => simp only [List.flatMap_cons, List.length_append, hf, ih, List.length_cons]; ring

theorem round256_length (h : List UInt32) (kw : UInt32 × UInt32) (hh : h.length = 8) : (round256 h kw).length = 8 := by
  unfold round256
  split
  · rfl
  · exact hh

theorem sha256_length (x : Bytes) : (sha256 x).length = 32 := by
  rw [sha256, flatMap_length bytes32 4 (fun _ => rfl), foldl_length compress256 8 ?_ _ _ rfl]
  intro h b hh
  rw [compress256, List.length_zipWith, hh, foldl_length round256 8 round256_length _ _ hh]; rfl

theorem round512_length (h : List UInt64) (kw : UInt64 × UInt64) (hh : h.length = 8) : (round512 h kw).length = 8 := by
  unfold round512
  split
  · rfl
  · exact hh

theorem sha512_length (x : Bytes) : (sha512 x).length = 64 := by
  rw [sha512, flatMap_length bytes64 8 (fun _ => rfl), foldl_length compress512 8 ?_ _ _ rfl]
  intro h b hh
  rw [compress512, List.length_zipWith, hh, foldl_length round512 8 round512_length _ _ hh]; rfl

theorem ripemd160_length (x : Bytes) : (ripemd160 x).length = 20 := by
  rw [ripemd160, flatMap_length _ 4 (fun _ => rfl), foldl_length compressRipemd 5 ?_ _ _ rfl]
  intro h b hh
  unfold compressRipemd
  simp only
  split
  · rfl
  · exact hh

/-- The digests of bitcoinx/hashes.py:39-66 and 101-102, written out. -/
def fips : Hashes where
  sha256 := sha256
  sha512 := sha512
  ripemd160 := ripemd160
  hmac_sha256 := hmac 64 sha256
  hmac_sha512 := hmac 128 sha512
  sha256_length := sha256_length
  sha512_length := sha512_length
  ripemd160_length := ripemd160_length
  hmac_sha256_length _ _ := sha256_length _
  hmac_sha512_length _ _ := sha512_length _

/-- The nonces of `secp256k1_nonce_function_rfc6979`, the first `n`: HMAC_DRBG of RFC 6979, seeded
with the secret and the digest (which the library does not reduce). -/
def drbg : Nat → Bytes → Bytes → List Nat
  | 0, _, _ => []
  | n + 1, k, v =>
    let v := hmac 64 sha256 k v
    let k' := hmac 64 sha256 k (v ++ [0])
    be_bytes_to_int v :: drbg n k' (hmac 64 sha256 k' v)

/-- The first two nonces that libsecp256k1 tries. -/
def rfc6979 (msg secret : Bytes) : List Nat :=
  let v := List.replicate 32 1
  let k := hmac 64 sha256 (zeros 32) (v ++ [0] ++ secret ++ msg)
  let v := hmac 64 sha256 k v
  let k := hmac 64 sha256 k (v ++ [1] ++ secret ++ msg)
  drbg 2 k (hmac 64 sha256 k v)

end Bitcoinx.Digest
