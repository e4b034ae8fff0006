import Verif.Model.Address

/-! # BIP32 (bitcoinx/bip32.py)

`BIP32PrivateKey` and `BIP32PublicKey` inherit from `PrivateKey` and `PublicKey`; here they contain
one, and inherited behaviour is that of the key inside.  Inherited class methods such as
`BIP32PrivateKey.from_int` call the constructor with other arguments: see `Verif.Model.Inherited`.
`__str__` and `__repr__` are in `Verif.Model.Display`. -/

namespace Bitcoinx

/-- `HARDENED`, bitcoinx/bip32.py:46. -/
def HARDENED : Int := 2 ^ 31

/-- `BIP32Derivation`, bitcoinx/bip32.py:50-56. -/
structure BIP32Derivation where
  chain_code : Bytes
  n : Int
  depth : Int
  parent_fingerprint : Bytes
  deriving DecidableEq

/-- `derivation.extended_key(coin, raw_serkey)`, bitcoinx/bip32.py:58-75. -/
def BIP32Derivation.extended_key (d : BIP32Derivation) (coin : Coin) (raw_serkey : Bytes) : Res Bytes := do
  let (raw_serkey, ver_bytes) :=
    if raw_serkey.length = 32 then (0 :: raw_serkey, coin.xprv_verbytes) else (raw_serkey, coin.xpub_verbytes)
  if raw_serkey.length ≠ 33 then .error .assertionError else do
    return ver_bytes ++ (← pack_byte d.depth) ++ d.parent_fingerprint ++ (← pack_be_uint32 d.n) ++
      d.chain_code ++ raw_serkey

/-- `derivation.child(chain_code, n, parent_fingerprint)`, bitcoinx/bip32.py:77-78. -/
def BIP32Derivation.child (d : BIP32Derivation) (chain_code : Bytes) (n : Int) (parent_fingerprint : Bytes) :
    BIP32Derivation :=
  { chain_code, n, depth := d.depth + 1, parent_fingerprint }

/-- The fields of a `BIP32PrivateKey`, bitcoinx/bip32.py:86-96. -/
structure BIP32PrivateKey where
  key : PrivateKey
  derivation : BIP32Derivation

/-- The fields of a `BIP32PublicKey`, bitcoinx/bip32.py:176-189. -/
structure BIP32PublicKey (L : Secp) where
  key : PublicKey L
  derivation : BIP32Derivation

namespace BIP32PublicKey

variable {L : Secp}

/-- `BIP32PublicKey(public_key, derivation, coin)`, bitcoinx/bip32.py:185-189.  Whether it is given a
`PublicKey` or the library's object, only the point is used. -/
def new (point : L.Point) (derivation : BIP32Derivation) (coin : Coin) : BIP32PublicKey L :=
  { key := { point, compressed := true, coin }, derivation }

/-- `public_key._extended_key()`, bitcoinx/bip32.py:191-193. -/
def extended_key (k : BIP32PublicKey L) : Res Bytes :=
  k.derivation.extended_key k.key.coin k.key.to_bytes

/-- `public_key.identifier()`, bitcoinx/bip32.py:220-222. -/
def identifier (H : Hashes) (k : BIP32PublicKey L) : Bytes := H.hash160 k.key.to_bytes

/-- `public_key.fingerprint()`, bitcoinx/bip32.py:224-226. -/
def fingerprint (H : Hashes) (k : BIP32PublicKey L) : Bytes := (k.identifier H).take 4

/-- `public_key.child(n)`, bitcoinx/bip32.py:195-204. -/
def child (H : Hashes) (k : BIP32PublicKey L) (n : Int) : Res (BIP32PublicKey L) :=
  if ¬ (0 ≤ n ∧ n < HARDENED) then .error .valueError
  else do
    let msg := k.key.to_bytes ++ (← pack_be_uint32 n)
    let LR := H.hmac_sha512_halves k.derivation.chain_code msg
    let child_derivation := k.derivation.child LR.2 n (k.fingerprint H)
    return new (← k.key.add LR.1).point child_derivation k.key.coin

/-- `fuel` iterations of the loop of `public_key.child_safe`, bitcoinx/bip32.py:208-214.  Running
out of fuel is given by an exception the loop does not raise. -/
def child_safe_loop (H : Hashes) (k : BIP32PublicKey L) : Nat → Int → Res (BIP32PublicKey L)
  | 0, _ => .error .runtimeError
  | fuel + 1, n =>
    match k.child H n with
    | .ok c => .ok c
    | .error e =>
      if e.isValueError then
        if ¬ (0 ≤ n ∧ n < HARDENED) then .error e
        else child_safe_loop H k fuel (n + 1)
      else .error e

/-- `public_key.child_safe(n)`, bitcoinx/bip32.py:206-214.  The loop is cut off after `2 ** 33`
iterations; `C69_public` shows that it stops before that. -/
def child_safe (H : Hashes) (k : BIP32PublicKey L) (n : Int) : Res (BIP32PublicKey L) :=
  k.child_safe_loop H (2 ^ 33) n

/-- `public_key.to_extended_key_string()`, bitcoinx/bip32.py:228-230. -/
def to_extended_key_string (H : Hashes) (k : BIP32PublicKey L) : Res Str := do
  return base58_encode_check H (← k.extended_key)

end BIP32PublicKey

namespace BIP32PrivateKey

/-- `BIP32PrivateKey(secret, derivation, coin)`, bitcoinx/bip32.py:94-96. -/
def new (secret : Bytes) (derivation : BIP32Derivation) (coin : Coin) : Res BIP32PrivateKey := do
  return { key := ← PrivateKey.new secret true coin, derivation }

/-- `private_key._extended_key()`, bitcoinx/bip32.py:98-100. -/
def extended_key (k : BIP32PrivateKey) : Res Bytes := k.derivation.extended_key k.key.coin k.key.secret

/-- `BIP32PrivateKey._from_parts(privkey, chain_code, coin)`, bitcoinx/bip32.py:102-105. -/
def from_parts (privkey chain_code : Bytes) (coin : Coin) : Res BIP32PrivateKey :=
  new privkey { chain_code, n := 0, depth := 0, parent_fingerprint := zeros 4 } coin

/-- `BIP32PrivateKey.from_seed(seed, coin)`, bitcoinx/bip32.py:107-111. -/
def from_seed (H : Hashes) (seed : Bytes) (coin : Coin) : Res BIP32PrivateKey :=
  let LR := H.hmac_sha512_halves (utf8 "Bitcoin seed".toList) seed
  from_parts LR.1 LR.2 coin

/-- `BIP32PrivateKey.from_random(source=source)`, bitcoinx/bip32.py:113-121, given what successive
calls of `source(64)` return: the key and the draws left, or nothing if the draws run out first. -/
def from_random : List Bytes → Res (Option (BIP32PrivateKey × List Bytes))
  | [] => .ok none
  | data :: draws =>
    match from_parts (data.take 32) (data.drop 32) Bitcoin with
    | .ok k => .ok (some (k, draws))
    | .error e => if e.isValueError then from_random draws else .error e

/-- `private_key.public_key`, bitcoinx/bip32.py:123-126. -/
def public_key (L : Secp) (k : BIP32PrivateKey) : Res (BIP32PublicKey L) := do
  return BIP32PublicKey.new (← k.key.public_key L).point k.derivation k.key.coin

/-- `private_key.identifier()`, bitcoinx/bip32.py:160-162. -/
def identifier (H : Hashes) (L : Secp) (k : BIP32PrivateKey) : Res Bytes := do
  return (← k.public_key L).identifier H

/-- `private_key.fingerprint()`, bitcoinx/bip32.py:164-166. -/
def fingerprint (H : Hashes) (L : Secp) (k : BIP32PrivateKey) : Res Bytes := do
  return (← k.public_key L).fingerprint H

/-- `serkey` in `private_key.child(n)`, bitcoinx/bip32.py:133-136. -/
def child_serkey (L : Secp) (k : BIP32PrivateKey) (n : Int) : Res Bytes :=
  if n ≥ HARDENED then return 0 :: k.key.secret
  else do return (← k.public_key L).key.to_bytes

/-- `private_key.child(n)`, bitcoinx/bip32.py:128-142. -/
def child (H : Hashes) (L : Secp) (k : BIP32PrivateKey) (n : Int) : Res BIP32PrivateKey :=
  if ¬ (0 ≤ n ∧ n < 2 ^ 32) then .error .valueError
  else do
    let serkey ← k.child_serkey L n
    let msg := serkey ++ (← pack_be_uint32 n)
    let LR := H.hmac_sha512_halves k.derivation.chain_code msg
    let child_derivation := k.derivation.child LR.2 n (← k.fingerprint H L)
    new (← k.key.add LR.1).secret child_derivation k.key.coin

/-- `fuel` iterations of the loop of `private_key.child_safe`, bitcoinx/bip32.py:146-154; `n & (HARDENED
- 1)` is `n % HARDENED`.  Running out of fuel is given by an exception the loop does not raise. -/
def child_safe_loop (H : Hashes) (L : Secp) (k : BIP32PrivateKey) : Nat → Int → Res BIP32PrivateKey
  | 0, _ => .error .runtimeError
  | fuel + 1, n =>
    match k.child H L n with
    | .ok c => .ok c
    | .error e =>
      if e.isValueError then
        if ¬ (0 ≤ n ∧ n < 2 ^ 32) then .error e
        else if (n + 1) % HARDENED = 0 then .error .valueError
        else child_safe_loop H L k fuel (n + 1)
      else .error e

/-- `private_key.child_safe(n)`, bitcoinx/bip32.py:144-154.  The loop is cut off after `2 ** 33`
iterations; `C69_private` shows that it stops before that. -/
def child_safe (H : Hashes) (L : Secp) (k : BIP32PrivateKey) (n : Int) : Res BIP32PrivateKey :=
  k.child_safe_loop H L (2 ^ 33) n

/-- `private_key.to_extended_key_string()`, bitcoinx/bip32.py:168-170. -/
def to_extended_key_string (H : Hashes) (k : BIP32PrivateKey) : Res Str := do
  return base58_encode_check H (← k.extended_key)

end BIP32PrivateKey

/-- What `bip32_key_from_string` returns, bitcoinx/bip32.py:239-254. -/
inductive BIP32Key (L : Secp) where
  | priv (k : BIP32PrivateKey)
  | pub (k : BIP32PublicKey L)

/-- `_from_extended_key(ekey)`, bitcoinx/bip32.py:239-254. -/
def from_extended_key (L : Secp) (ekey : Bytes) : Res (BIP32Key L) :=
  if ekey.length ≠ 78 then .error .valueError
  else do
    let (coin, is_public_key) ← Coin.lookup_xver_bytes (ekey.take 4)
    let n ← unpack_be_uint32 (slice ekey 9 13)
    let derivation : BIP32Derivation :=
      { chain_code := slice ekey 13 45, n, depth := (ekey.getD 4 0).toNat, parent_fingerprint := slice ekey 5 9 }
    if is_public_key then do
      return .pub (BIP32PublicKey.new (← PublicKey.from_bytes L (ekey.drop 45)).point derivation coin)
    else if ekey.getD 45 0 ≠ 0 then .error .valueError
    else do return .priv (← BIP32PrivateKey.new (ekey.drop 46) derivation coin)

/-- `bip32_key_from_string(ekey_str)`, bitcoinx/bip32.py:257-265. -/
def bip32_key_from_string (H : Hashes) (L : Secp) (ekey_str : Str) : Res (BIP32Key L) := do
  from_extended_key L (← base58_decode_check H ekey_str)

/-- The loop behind `text.split(sep)` for a separator of one character: the parts of the text, the first one
continuing `acc`. -/
def splitCharLoop (sep : Char) : Str → Str → List Str
  | acc, [] => [acc]
  | acc, c :: cs => if c = sep then acc :: splitCharLoop sep [] cs else splitCharLoop sep (acc ++ [c]) cs

/-- `text.split(sep)` for a separator of one character. -/
def splitChar (sep : Char) (text : Str) : List Str := splitCharLoop sep [] text

/-- `PART_REGEX.match(part)` for the regular expression `([0-9]+)'?$` of bitcoinx/bip32.py:47: the text of
the group, or nothing if there is no match.  `$` matches at the end and just before a newline at the
end.  The group is the longest sequence of digits at the start, as what may follow is not a digit. -/
def part_match (part : Str) : Option Str :=
  let digits := part.takeWhile isAsciiDigit
  let rest := part.dropWhile isAsciiDigit
  let rest := if rest.head? = some '\'' then rest.drop 1 else rest
  if digits ≠ [] ∧ (rest = [] ∨ rest = ['\n']) then some digits else none

/-- One iteration of the loop of `bip32_decompose_chain_string`, bitcoinx/bip32.py:285-293. -/
def decompose_part (P : PyText) (part : Str) : Res Int :=
  match part_match part with
  | none => .error .valueError
  | some group => do
    let value ← P.intOfDigits group
    if (value : Int) ≥ HARDENED then .error .valueError
    else if part.getLast? = some '\'' then return value + HARDENED
    else return value

/-- `bip32_decompose_chain_string(chain_str)`, bitcoinx/bip32.py:268-294. -/
def bip32_decompose_chain_string (P : PyText) (chain_str : Str) : Res (List Int) :=
  match splitChar '/' chain_str with
  | [] => .error .valueError
  | m :: parts => if m ≠ ['m'] then .error .valueError else mapAll (decompose_part P) parts

/-- `bip32_is_valid_chain_string(chain_str)`, bitcoinx/bip32.py:297-303. -/
def bip32_is_valid_chain_string (P : PyText) (chain_str : Str) : Res Bool :=
  match bip32_decompose_chain_string P chain_str with
  | .ok _ => .ok true
  | .error e => if e.isValueError then .ok false else .error e

/-- `bip32_validate_derivation(derivation)` for integers, bitcoinx/bip32.py:306-317. -/
def bip32_validate_derivation (derivation : List Int) : Res (List Int) :=
  if derivation.all (fun n => 0 ≤ n && n < 2 ^ 32) then .ok derivation else .error .valueError

/-- One part of a chain string, bitcoinx/bip32.py:329-333. -/
def chain_part (n : Int) : Str := if n < HARDENED then strInt n else strInt (n - HARDENED) ++ ['\'']

/-- `bip32_build_chain_string(derivation)`, bitcoinx/bip32.py:320-335. -/
def bip32_build_chain_string (derivation : List Int) : Res Str := do
  return joinStr ['/'] (['m'] :: (← bip32_validate_derivation derivation).map chain_part)

end Bitcoinx
