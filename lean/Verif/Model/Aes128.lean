import Verif.Model.Aes

/-! # AES-128 in CBC mode

bitcoinx/aes.py:35-40 takes the cipher from `Cryptodome` or `pyaes`, and `Model/Aes.lean` leaves it as the
parameter `Cipher`.  Here it is written out as FIPS 197 and SP 800-38A define it.  `Lemmas/Aes128.lean`
proves the laws of `Cipher` for it.  Nothing here is a transcription of code in /repo. -/

namespace Bitcoinx.Aes128

/-- The substitution table (FIPS 197, 5.1.1). -/
def SBOX : List UInt8 := [
  0x63, 0x7c, 0x77, 0x7b, 0xf2, 0x6b, 0x6f, 0xc5, 0x30, 0x01, 0x67, 0x2b, 0xfe, 0xd7, 0xab, 0x76,
  0xca, 0x82, 0xc9, 0x7d, 0xfa, 0x59, 0x47, 0xf0, 0xad, 0xd4, 0xa2, 0xaf, 0x9c, 0xa4, 0x72, 0xc0,
  0xb7, 0xfd, 0x93, 0x26, 0x36, 0x3f, 0xf7, 0xcc, 0x34, 0xa5, 0xe5, 0xf1, 0x71, 0xd8, 0x31, 0x15,
  0x04, 0xc7, 0x23, 0xc3, 0x18, 0x96, 0x05, 0x9a, 0x07, 0x12, 0x80, 0xe2, 0xeb, 0x27, 0xb2, 0x75,
  0x09, 0x83, 0x2c, 0x1a, 0x1b, 0x6e, 0x5a, 0xa0, 0x52, 0x3b, 0xd6, 0xb3, 0x29, 0xe3, 0x2f, 0x84,
  0x53, 0xd1, 0x00, 0xed, 0x20, 0xfc, 0xb1, 0x5b, 0x6a, 0xcb, 0xbe, 0x39, 0x4a, 0x4c, 0x58, 0xcf,
  0xd0, 0xef, 0xaa, 0xfb, 0x43, 0x4d, 0x33, 0x85, 0x45, 0xf9, 0x02, 0x7f, 0x50, 0x3c, 0x9f, 0xa8,
  0x51, 0xa3, 0x40, 0x8f, 0x92, 0x9d, 0x38, 0xf5, 0xbc, 0xb6, 0xda, 0x21, 0x10, 0xff, 0xf3, 0xd2,
  0xcd, 0x0c, 0x13, 0xec, 0x5f, 0x97, 0x44, 0x17, 0xc4, 0xa7, 0x7e, 0x3d, 0x64, 0x5d, 0x19, 0x73,
  0x60, 0x81, 0x4f, 0xdc, 0x22, 0x2a, 0x90, 0x88, 0x46, 0xee, 0xb8, 0x14, 0xde, 0x5e, 0x0b, 0xdb,
  0xe0, 0x32, 0x3a, 0x0a, 0x49, 0x06, 0x24, 0x5c, 0xc2, 0xd3, 0xac, 0x62, 0x91, 0x95, 0xe4, 0x79,
  0xe7, 0xc8, 0x37, 0x6d, 0x8d, 0xd5, 0x4e, 0xa9, 0x6c, 0x56, 0xf4, 0xea, 0x65, 0x7a, 0xae, 0x08,
  0xba, 0x78, 0x25, 0x2e, 0x1c, 0xa6, 0xb4, 0xc6, 0xe8, 0xdd, 0x74, 0x1f, 0x4b, 0xbd, 0x8b, 0x8a,
  0x70, 0x3e, 0xb5, 0x66, 0x48, 0x03, 0xf6, 0x0e, 0x61, 0x35, 0x57, 0xb9, 0x86, 0xc1, 0x1d, 0x9e,
  0xe1, 0xf8, 0x98, 0x11, 0x69, 0xd9, 0x8e, 0x94, 0x9b, 0x1e, 0x87, 0xe9, 0xce, 0x55, 0x28, 0xdf,
  0x8c, 0xa1, 0x89, 0x0d, 0xbf, 0xe6, 0x42, 0x68, 0x41, 0x99, 0x2d, 0x0f, 0xb0, 0x54, 0xbb, 0x16]

/-- The inverse substitution table (FIPS 197, 5.3.2). -/
def INV_SBOX : List UInt8 := [
  0x52, 0x09, 0x6a, 0xd5, 0x30, 0x36, 0xa5, 0x38, 0xbf, 0x40, 0xa3, 0x9e, 0x81, 0xf3, 0xd7, 0xfb,
  0x7c, 0xe3, 0x39, 0x82, 0x9b, 0x2f, 0xff, 0x87, 0x34, 0x8e, 0x43, 0x44, 0xc4, 0xde, 0xe9, 0xcb,
  0x54, 0x7b, 0x94, 0x32, 0xa6, 0xc2, 0x23, 0x3d, 0xee, 0x4c, 0x95, 0x0b, 0x42, 0xfa, 0xc3, 0x4e,
  0x08, 0x2e, 0xa1, 0x66, 0x28, 0xd9, 0x24, 0xb2, 0x76, 0x5b, 0xa2, 0x49, 0x6d, 0x8b, 0xd1, 0x25,
  0x72, 0xf8, 0xf6, 0x64, 0x86, 0x68, 0x98, 0x16, 0xd4, 0xa4, 0x5c, 0xcc, 0x5d, 0x65, 0xb6, 0x92,
  0x6c, 0x70, 0x48, 0x50, 0xfd, 0xed, 0xb9, 0xda, 0x5e, 0x15, 0x46, 0x57, 0xa7, 0x8d, 0x9d, 0x84,
  0x90, 0xd8, 0xab, 0x00, 0x8c, 0xbc, 0xd3, 0x0a, 0xf7, 0xe4, 0x58, 0x05, 0xb8, 0xb3, 0x45, 0x06,
  0xd0, 0x2c, 0x1e, 0x8f, 0xca, 0x3f, 0x0f, 0x02, 0xc1, 0xaf, 0xbd, 0x03, 0x01, 0x13, 0x8a, 0x6b,
  0x3a, 0x91, 0x11, 0x41, 0x4f, 0x67, 0xdc, 0xea, 0x97, 0xf2, 0xcf, 0xce, 0xf0, 0xb4, 0xe6, 0x73,
  0x96, 0xac, 0x74, 0x22, 0xe7, 0xad, 0x35, 0x85, 0xe2, 0xf9, 0x37, 0xe8, 0x1c, 0x75, 0xdf, 0x6e,
  0x47, 0xf1, 0x1a, 0x71, 0x1d, 0x29, 0xc5, 0x89, 0x6f, 0xb7, 0x62, 0x0e, 0xaa, 0x18, 0xbe, 0x1b,
  0xfc, 0x56, 0x3e, 0x4b, 0xc6, 0xd2, 0x79, 0x20, 0x9a, 0xdb, 0xc0, 0xfe, 0x78, 0xcd, 0x5a, 0xf4,
  0x1f, 0xdd, 0xa8, 0x33, 0x88, 0x07, 0xc7, 0x31, 0xb1, 0x12, 0x10, 0x59, 0x27, 0x80, 0xec, 0x5f,
  0x60, 0x51, 0x7f, 0xa9, 0x19, 0xb5, 0x4a, 0x0d, 0x2d, 0xe5, 0x7a, 0x9f, 0x93, 0xc9, 0x9c, 0xef,
  0xa0, 0xe0, 0x3b, 0x4d, 0xae, 0x2a, 0xf5, 0xb0, 0xc8, 0xeb, 0xbb, 0x3c, 0x83, 0x53, 0x99, 0x61,
  0x17, 0x2b, 0x04, 0x7e, 0xba, 0x77, 0xd6, 0x26, 0xe1, 0x69, 0x14, 0x63, 0x55, 0x21, 0x0c, 0x7d]

/-- `SubBytes` on one byte. -/
def sub (b : UInt8) : UInt8 := SBOX.getD b.toNat 0

/-- `InvSubBytes` on one byte. -/
def invSub (b : UInt8) : UInt8 := INV_SBOX.getD b.toNat 0

/-- `ShiftRows` (FIPS 197, 5.1.2); the state is written by columns, as it comes in. -/
def shiftRows : Bytes → Bytes
  | [a0, a1, a2, a3, b0, b1, b2, b3, c0, c1, c2, c3, d0, d1, d2, d3] =>
    [a0, b1, c2, d3, b0, c1, d2, a3, c0, d1, a2, b3, d0, a1, b2, c3]
  | s => s

/-- `InvShiftRows` (FIPS 197, 5.3.1). -/
def invShiftRows : Bytes → Bytes
  | [a0, a1, a2, a3, b0, b1, b2, b3, c0, c1, c2, c3, d0, d1, d2, d3] =>
    [a0, d1, c2, b3, b0, a1, d2, c3, c0, b1, a2, d3, d0, c1, b2, a3]
  | s => s

/-- Multiplication by x in the field of 256 elements (FIPS 197, 4.2.1). -/
def xtime (b : UInt8) : UInt8 := (b <<< 1) ^^^ ((b >>> 7) * 0x1b)

/-- `MixColumns` (FIPS 197, 5.1.3). -/
def mixColumns : Bytes → Bytes
  | a :: b :: c :: d :: s =>
    (xtime a ^^^ (xtime b ^^^ b) ^^^ c ^^^ d) :: (a ^^^ xtime b ^^^ (xtime c ^^^ c) ^^^ d) ::
    (a ^^^ b ^^^ xtime c ^^^ (xtime d ^^^ d)) :: ((xtime a ^^^ a) ^^^ b ^^^ c ^^^ xtime d) :: mixColumns s
  | s => s

/-- Products with 9, 11, 13 and 14 in the field of 256 elements. -/
def mul9 (b : UInt8) : UInt8 := xtime (xtime (xtime b)) ^^^ b
@[inherit_doc mul9] def mul11 (b : UInt8) : UInt8 := xtime (xtime (xtime b)) ^^^ xtime b ^^^ b
@[inherit_doc mul9] def mul13 (b : UInt8) : UInt8 := xtime (xtime (xtime b)) ^^^ xtime (xtime b) ^^^ b
@[inherit_doc mul9] def mul14 (b : UInt8) : UInt8 := xtime (xtime (xtime b)) ^^^ xtime (xtime b) ^^^ xtime b

/-- `InvMixColumns` (FIPS 197, 5.3.3). -/
def invMixColumns : Bytes → Bytes
  | a :: b :: c :: d :: s =>
    (mul14 a ^^^ mul11 b ^^^ mul13 c ^^^ mul9 d) :: (mul9 a ^^^ mul14 b ^^^ mul11 c ^^^ mul13 d) ::
    (mul13 a ^^^ mul9 b ^^^ mul14 c ^^^ mul11 d) :: (mul11 a ^^^ mul13 b ^^^ mul9 c ^^^ mul14 d) ::
    invMixColumns s
  | s => s

/-- `AddRoundKey` (FIPS 197, 5.1.4). -/
def add (key s : Bytes) : Bytes := List.zipWith (· ^^^ ·) key s

/-- One step of the key expansion for a key of four words (FIPS 197, 5.2). -/
def nextKey (rcon : UInt8) : Bytes → Bytes
  | [a0, a1, a2, a3, b0, b1, b2, b3, c0, c1, c2, c3, d0, d1, d2, d3] =>
    let a0 := a0 ^^^ sub d1 ^^^ rcon
    let a1 := a1 ^^^ sub d2
    let a2 := a2 ^^^ sub d3
    let a3 := a3 ^^^ sub d0
    let b0 := b0 ^^^ a0
    let b1 := b1 ^^^ a1
    let b2 := b2 ^^^ a2
    let b3 := b3 ^^^ a3
    let c0 := c0 ^^^ b0
    let c1 := c1 ^^^ b1
    let c2 := c2 ^^^ b2
    let c3 := c3 ^^^ b3
    [a0, a1, a2, a3, b0, b1, b2, b3, c0, c1, c2, c3, d0 ^^^ c0, d1 ^^^ c1, d2 ^^^ c2, d3 ^^^ c3]
  | s => s

/-- The round keys that follow `key`, one for each of the given constants. -/
def expand (key : Bytes) : List UInt8 → List Bytes
  | [] => []
  | rcon :: rcons => nextKey rcon key :: expand (nextKey rcon key) rcons

/-- The constants of the ten rounds (FIPS 197, table 5). -/
def RCON : List UInt8 := [0x01, 0x02, 0x04, 0x08, 0x10, 0x20, 0x40, 0x80, 0x1b, 0x36]

/-- The rounds after the first key addition; the last has no `MixColumns` (FIPS 197, figure 5). -/
def rounds (s : Bytes) : List Bytes → Bytes
  | [] => s
  | [key] => add key (shiftRows (s.map sub))
  | key :: keys => rounds (add key (mixColumns (shiftRows (s.map sub)))) keys

/-- The rounds undone, last first (FIPS 197, figure 12). -/
def invRounds (s : Bytes) : List Bytes → Bytes
  | [] => s
  | [key] => (invShiftRows (add key s)).map invSub
  | key :: keys => (invShiftRows (invMixColumns (add key (invRounds s keys)))).map invSub

/-- `Cipher` on one block (FIPS 197, 5.1). -/
def encryptBlock (key block : Bytes) : Bytes := rounds (add key block) (expand key RCON)

/-- `InvCipher` on one block (FIPS 197, 5.3). -/
def decryptBlock (key block : Bytes) : Bytes := add key (invRounds block (expand key RCON))

/-- CBC encryption of so many blocks (SP 800-38A, 6.2). -/
def cbcEncrypt (key : Bytes) : Nat → Bytes → Bytes → Bytes
  | 0, _, _ => []
  | n + 1, iv, data =>
    let block := encryptBlock key (add iv (data.take 16))
    block ++ cbcEncrypt key n block (data.drop 16)

/-- CBC decryption of so many blocks (SP 800-38A, 6.2). -/
def cbcDecrypt (key : Bytes) : Nat → Bytes → Bytes → Bytes
  | 0, _, _ => []
  | n + 1, iv, data => add iv (decryptBlock key (data.take 16)) ++ cbcDecrypt key n (data.take 16) (data.drop 16)

end Bitcoinx.Aes128
