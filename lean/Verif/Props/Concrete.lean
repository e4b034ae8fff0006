import Verif.Lemmas.Aes128
import Verif.Lemmas.Digests
import Verif.Lemmas.Secp256k1
import Verif.Model.Address
import Verif.Model.Bip32
import Verif.Model.Coin

/-! # The parameters written out

The theorems hold for any digests, cipher and curve library that satisfy the fields of `Hashes`,
`Cipher` and `Secp`.  The functions that the code really calls are such instances: SHA-2, RIPEMD-160
and HMAC (`Digest.fips`), AES-128-CBC (`Aes128.aes128`) and secp256k1 (`K1.secp256k1`).  Below are
published vectors, evaluated by the kernel; they are examples, and settle no claim. -/

namespace Bitcoinx

/-- FIPS 180-4, "abc". -/
example : Digest.sha256 [97, 98, 99] =
    [0xba, 0x78, 0x16, 0xbf, 0x8f, 0x01, 0xcf, 0xea, 0x41, 0x41, 0x40, 0xde, 0x5d, 0xae, 0x22, 0x23, 0xb0, 0x03,
     0x61, 0xa3, 0x96, 0x17, 0x7a, 0x9c, 0xb4, 0x10, 0xff, 0x61, 0xf2, 0x00, 0x15, 0xad] := by decide +kernel

example : Digest.ripemd160 [97, 98, 99] =
    [0x8e, 0xb2, 0x08, 0xf7, 0xe0, 0x5d, 0x98, 0x7a, 0x9b, 0x04, 0x4a, 0x8e, 0x98, 0xc6, 0xb0, 0x87, 0xf1, 0x5a,
     0x0b, 0xfc] := by decide +kernel

example : Digest.sha512 [97, 98, 99] =
    [0xdd, 0xaf, 0x35, 0xa1, 0x93, 0x61, 0x7a, 0xba, 0xcc, 0x41, 0x73, 0x49, 0xae, 0x20, 0x41, 0x31, 0x12, 0xe6,
     0xfa, 0x4e, 0x89, 0xa9, 0x7e, 0xa2, 0x0a, 0x9e, 0xee, 0xe6, 0x4b, 0x55, 0xd3, 0x9a, 0x21, 0x92, 0x99, 0x2a,
     0x27, 0x4f, 0xc1, 0xa8, 0x36, 0xba, 0x3c, 0x23, 0xa3, 0xfe, 0xeb, 0xbd, 0x45, 0x4d, 0x44, 0x23, 0x64, 0x3c,
     0xe8, 0x0e, 0x2a, 0x9a, 0xc9, 0x4f, 0xa5, 0x4c, 0xa4, 0x9f] := by decide +kernel

/-- RFC 4231, test case 2: key "Jefe", data "what do ya want for nothing?". -/
example : Digest.fips.hmac_sha256 (utf8 "Jefe".toList) (utf8 "what do ya want for nothing?".toList) =
    [0x5b, 0xdc, 0xc1, 0x46, 0xbf, 0x60, 0x75, 0x4e, 0x6a, 0x04, 0x24, 0x26, 0x08, 0x95, 0x75, 0xc7, 0x5a, 0x00,
     0x3f, 0x08, 0x9d, 0x27, 0x39, 0x83, 0x9d, 0xec, 0x58, 0xb9, 0x64, 0xec, 0x38, 0x43] := by decide +kernel

/-- FIPS 197, appendix C.1. -/
example : Aes128.encryptBlock ((List.range 16).map UInt8.ofNat) ((List.range 16).map fun i => UInt8.ofNat (17 * i)) =
    [0x69, 0xc4, 0xe0, 0xd8, 0x6a, 0x7b, 0x04, 0x30, 0xd8, 0xcd, 0xb7, 0x80, 0x70, 0xb4, 0xc5, 0x5a] := by
  decide +kernel

/-- The hash of the first block of mainnet, tests/test_coin.py. -/
example : (fromhex mainnetGenesis).map (fun raw => hash_to_hex_str (Digest.fips.double_sha256 raw)) =
    .ok "000000000019d6689c085ae165831e934ff763ae46a2a6c172b3f1b60a8ce26f".toList := by decide +kernel

/-- The address of the secret 1. -/
example : (do
    let k ← PrivateKey.new (beBytes 32 1)
    let p ← k.public_key (K1.secp256k1 Digest.rfc6979)
    (← p.to_address Digest.fips).to_string Digest.fips : Res Str) =
    .ok "1BgGZ9tcN4rm9KBzDn7KprQz87SZ26SAMH".toList := by decide +kernel

/-- BIP32, test vector 1, chain m/0'/1, the public key. -/
example : (do
    let m ← BIP32PrivateKey.from_seed Digest.fips ((List.range 16).map UInt8.ofNat) Bitcoin
    let L := K1.secp256k1 Digest.rfc6979
    let k ← (← m.child Digest.fips L HARDENED).child Digest.fips L 1
    (← k.public_key L).to_extended_key_string Digest.fips : Res Str) =
    .ok ("xpub6ASuArnXKPbfEwhqN6e3mwBcDTgzisQN1wXN9BJcM47sSikHjJf3UFHKkNAWb" ++
      "WMiGj7Wf5uMash7SyYq527Hqck2AxYysAA7xmALppuCkwQ").toList := by
  decide +kernel

/-- RFC 6979 on secp256k1: secret 1, message "Satoshi Nakamoto" (a vector in wide use). -/
example : (do
    let k ← PrivateKey.new (beBytes 32 1)
    let s ← k.sign (K1.secp256k1 Digest.rfc6979) (utf8 "Satoshi Nakamoto".toList) (some Digest.fips.sha256)
    return s : Res Bytes) = .ok (beBytes 71
      0x3045022100934b1ea10a4b3c1757e2b0c017d0b6143ce3c9a7e6a4a49860d7a6ab210ee3d802202442ce9d2b916064108014783e923ec36b49743e2ffa1c4496f01a512aafd9e5) := by
  decide +kernel

end Bitcoinx
