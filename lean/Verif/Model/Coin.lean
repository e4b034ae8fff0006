import Verif.Model.Work

/-! # Model of `bitcoinx/coin.py` -/

namespace Bitcoinx

/-- `Header`, bitcoinx/coin.py:41-53. -/
structure Header where
  version : Int
  prev_hash : Bytes
  merkle_root : Bytes
  timestamp : Int
  bits : Int
  nonce : Int
  hash : Bytes
  raw : Bytes
  height : Int
  deriving DecidableEq, Repr

/-- `Header.work()`, bitcoinx/coin.py:55-56. -/
def Header.work (h : Header) : Res Nat := bits_to_work h.bits

/-- `Header.target()`, bitcoinx/coin.py:58-59. -/
def Header.target (h : Header) : Res Nat := bits_to_target h.bits

/-- `Header.hash_value()`, bitcoinx/coin.py:61-62. -/
def Header.hash_value (h : Header) : Nat := hash_to_value h.hash

/-- Which of the functions of bitcoinx/work.py:142-187 the coin uses as `required_bits`. -/
inductive RequiredBits where
  | mainnet
  | testnet
  | scaling_testnet
  deriving DecidableEq, Repr

/-- `Coin`, bitcoinx/coin.py:77-94.  `name` and the template cache are omitted;
`genesis_bits` and `max_target` are computed by the constructor (see `Coin.new`). -/
structure Coin where
  genesis_header : Bytes
  genesis_bits : Int
  max_target : Nat
  required_bits : RequiredBits
  P2PKH_verbyte : UInt8
  P2SH_verbyte : UInt8
  WIF_byte : UInt8
  xpub_verbytes : Bytes
  xprv_verbytes : Bytes
  cashaddr_prefix : Str
  deriving DecidableEq, Repr

/-- `unpack_header`, bitcoinx/packing.py:60 and 89: `Struct('<i 32s 32s 3I').unpack`. -/
def unpack_header (raw : Bytes) : Res (Int × Bytes × Bytes × Int × Int × Int) :=
  if raw.length ≠ 80 then .error .structError
  else do
    let version ← unpack_le_int32 (slice raw 0 4)
    let timestamp ← unpack_le_uint32 (slice raw 68 72)
    let bits ← unpack_le_uint32 (slice raw 72 76)
    let nonce ← unpack_le_uint32 (slice raw 76 80)
    return (version, slice raw 4 36, slice raw 36 68, timestamp, bits, nonce)

/-- `Coin.header_hash(raw_header)`, bitcoinx/coin.py:103-104. -/
def header_hash (H : Hashes) (raw_header : Bytes) : Bytes := H.double_sha256 raw_header

/-- `Coin.deserialized_header(raw, height)`, bitcoinx/coin.py:99-101. -/
def deserialized_header (H : Hashes) (raw : Bytes) (height : Int) : Res Header := do
  let (version, prev_hash, merkle_root, timestamp, bits, nonce) ← unpack_header raw
  return { version, prev_hash, merkle_root, timestamp, bits, nonce,
           hash := header_hash H raw, raw, height }

/-- `Coin.header_prev_hash(raw_header)`, bitcoinx/coin.py:106-107. -/
def header_prev_hash (raw_header : Bytes) : Bytes := slice raw_header 4 36

/-- `Coin.header_timestamp(raw_header)`, bitcoinx/coin.py:109-111. -/
def header_timestamp (raw_header : Bytes) : Res Int := unpack_le_uint32 (slice raw_header 68 72)

/-- `Coin.header_bits(raw_header)`, bitcoinx/coin.py:113-115. -/
def header_bits (raw_header : Bytes) : Res Int := unpack_le_uint32 (slice raw_header 72 76)

/-- `Coin.header_work(raw_header)`, bitcoinx/coin.py:117-118. -/
def header_work (raw_header : Bytes) : Res Nat := do
  let bits ← header_bits raw_header
  bits_to_work bits

/-- `Coin.__init__`, bitcoinx/coin.py:79-94. -/
def Coin.new (genesis_header : Str) (required_bits : RequiredBits)
    (P2PKH_verbyte P2SH_verbyte WIF_byte : UInt8) (xpub_verbytes xprv_verbytes : Bytes)
    (cashaddr_prefix : Str) : Res Coin := do
  let genesis_header ← fromhex genesis_header
  let genesis_bits ← header_bits genesis_header
  let max_target ← bits_to_target genesis_bits
  return { genesis_header, genesis_bits, max_target, required_bits, P2PKH_verbyte, P2SH_verbyte,
           WIF_byte, xpub_verbytes, xprv_verbytes, cashaddr_prefix }

/-- Genesis header of mainnet, bitcoinx/coin.py:141-142. -/
def mainnetGenesis : Str :=
  ("0100000000000000000000000000000000000000000000000000000000000000000000003ba3edfd" ++
   "7a7b12b27ac72c3e67768f617fc81bc3888a51323a9fb8aa4b1e5e4a29ab5f49ffff001d1dac2b7c").toList

/-- Genesis header of the other networks, bitcoinx/coin.py:155-156, 168-169, 182-183. -/
def testnetGenesis : Str :=
  ("0100000000000000000000000000000000000000000000000000000000000000000000003ba3edfd" ++
   "7a7b12b27ac72c3e67768f617fc81bc3888a51323a9fb8aa4b1e5e4adae5494dffff001d1aa4ae18").toList

/-- The value of a `Coin.new` call that succeeds. -/
def Coin.get (c : Res Coin) (h : c.isOk = true) : Coin :=
  match c, h with
  | .ok c, _ => c

/-- `Bitcoin`, bitcoinx/coin.py:139-150. -/
def Bitcoin : Coin := Coin.get (Coin.new mainnetGenesis .mainnet 0x00 0x05 0x80
  [0x04, 0x88, 0xb2, 0x1e] [0x04, 0x88, 0xad, 0xe4] "bitcoincash".toList) (by decide +kernel)

/-- `BitcoinTestnet`, bitcoinx/coin.py:153-164. -/
def BitcoinTestnet : Coin := Coin.get (Coin.new testnetGenesis .testnet 0x6f 0xc4 0xef
  [0x04, 0x35, 0x87, 0xcf] [0x04, 0x35, 0x83, 0x94] "bchtest".toList) (by decide +kernel)

/-- `BitcoinScalingTestnet`, bitcoinx/coin.py:166-177. -/
def BitcoinScalingTestnet : Coin := Coin.get (Coin.new testnetGenesis .scaling_testnet 0x6f 0xc4 0xef
  [0x04, 0x35, 0x87, 0xcf] [0x04, 0x35, 0x83, 0x94] "bchtest".toList) (by decide +kernel)

/-- `BitcoinRegtest`, bitcoinx/coin.py:180-191. -/
def BitcoinRegtest : Coin := Coin.get (Coin.new testnetGenesis .testnet 0x6f 0xc4 0xef
  [0x04, 0x35, 0x87, 0xcf] [0x04, 0x35, 0x83, 0x94] "bchtest".toList) (by decide +kernel)

/-- `all_coins`, bitcoinx/coin.py:195. -/
def all_coins : List Coin := [Bitcoin, BitcoinTestnet, BitcoinScalingTestnet, BitcoinRegtest]

/-- `Coin.from_WIF_byte(WIF_byte)`, bitcoinx/coin.py:120-126. -/
def Coin.from_WIF_byte (WIF_byte : UInt8) : Res Coin :=
  match all_coins.find? (fun coin => WIF_byte == coin.WIF_byte) with
  | some coin => .ok coin
  | none => .error .valueError

/-- The loop of `Coin.lookup_xver_bytes`, bitcoinx/coin.py:131-136. -/
def lookupXver (xver_bytes : Bytes) : List Coin → Res (Coin × Bool)
  | [] => .error .valueError
  | coin :: rest =>
    if xver_bytes = coin.xpub_verbytes then .ok (coin, true)
    else if xver_bytes = coin.xprv_verbytes then .ok (coin, false)
    else lookupXver xver_bytes rest

/-- `Coin.lookup_xver_bytes(xver_bytes)`, bitcoinx/coin.py:128-136. -/
def Coin.lookup_xver_bytes (xver_bytes : Bytes) : Res (Coin × Bool) := lookupXver xver_bytes all_coins

end Bitcoinx
