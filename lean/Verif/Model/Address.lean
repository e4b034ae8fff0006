import Verif.Model.Cashaddr
import Verif.Model.Keys
import Verif.Model.Script

/-! # Model of `bitcoinx/address.py`, of the classification of scripts in `bitcoinx/script.py` and of
the methods of keys that make addresses and scripts

Not modelled: `__str__` (which is `to_string`), arguments of a wrong type.  `__hash__` is in
`Verif.Model.Objects`. -/

namespace Bitcoinx

/-- A `P2PKH_Address` or `P2SH_Address` object, bitcoinx/address.py:97-151. -/
inductive Address
  | P2PKH (hash160 : Bytes) (coin : Coin)
  | P2SH (hash160 : Bytes) (coin : Coin)

/-- `_validate_hash160(hash160)`, bitcoinx/address.py:260-265. -/
def validate_hash160 (hash160 : Bytes) : Res Bytes :=
  if hash160.length ≠ 20 then .error .valueError else .ok hash160

/-- `P2PKH_Address(hash160, coin)`, bitcoinx/address.py:101-103. -/
def P2PKH_Address (hash160 : Bytes) (coin : Coin) : Res Address := do
  return .P2PKH (← validate_hash160 hash160) coin

/-- `P2SH_Address(hash160, coin)`, bitcoinx/address.py:130-132. -/
def P2SH_Address (hash160 : Bytes) (coin : Coin) : Res Address := do
  return .P2SH (← validate_hash160 hash160) coin

namespace Address

/-- `address.hash160()`, bitcoinx/address.py:114-115 and 143-144. -/
def hash160 : Address → Bytes
  | .P2PKH h _ => h
  | .P2SH h _ => h

/-- `address.coin()`, bitcoinx/address.py:90-91. -/
def coin : Address → Coin
  | .P2PKH _ c => c
  | .P2SH _ c => c

/-- `address == other`, bitcoinx/address.py:105-106 and 134-135: the coin is ignored. -/
def eq : Address → Address → Bool
  | .P2PKH h _, .P2PKH h' _ => h == h'
  | .P2SH h _, .P2SH h' _ => h == h'
  | _, _ => false

/-- `address.to_string()`, bitcoinx/address.py:111-112 and 140-141. -/
def to_string (H : Hashes) : Address → Res Str
  | .P2PKH h coin => do return base58_encode_check H ((← pack_byte coin.P2PKH_verbyte.toNat) ++ h)
  | .P2SH h coin => do return base58_encode_check H ((← pack_byte coin.P2SH_verbyte.toNat) ++ h)

/-- `address.to_script_bytes()`, bitcoinx/address.py:117-122 and 146-148. -/
def to_script_bytes : Address → Res Bytes
  | .P2PKH h _ => do
    return [OP_DUP, OP_HASH160] ++ (← push_item h) ++ [OP_EQUALVERIFY, OP_CHECKSIG]
  | .P2SH h _ => do
    return (← pack_byte OP_HASH160.toNat) ++ (← push_item h) ++ (← pack_byte OP_EQUAL.toNat)

/-- `Address._from_cashaddr_string(text, coin)`, bitcoinx/address.py:74-88. -/
def from_cashaddr_string (C : PyCase) (text : Str) (coin : Coin) : Res Address := do
  let pre := coin.cashaddr_prefix
  let pre := if C.upper text = text then C.upper pre else pre
  let text := if ¬ startsWith (pre ++ [':']) text then joinStr [':'] [pre, text] else text
  let (addr_prefix, kind, hash160) ← cashaddr.decode C text
  if pre ≠ addr_prefix then .error .assertionError
  else if kind = cashaddr.PUBKEY_TYPE then P2PKH_Address hash160 coin
  else P2SH_Address hash160 coin

/-- The second half of `Address.from_string(text, coin)`, bitcoinx/address.py:61-72. -/
def from_base58_string (H : Hashes) (text : Str) (coin : Coin) : Res Address := do
  let raw ← base58_decode_check H text
  if raw.length ≠ 21 then .error .valueError
  else match raw with
    | [] => .error .indexError
    | verbyte :: hash160 =>
      if verbyte = coin.P2PKH_verbyte then P2PKH_Address hash160 coin
      else if verbyte = coin.P2SH_verbyte then P2SH_Address hash160 coin
      else .error .valueError

/-- `Address.from_string(text, coin)`, bitcoinx/address.py:52-72. -/
def from_string (C : PyCase) (H : Hashes) (text : Str) (coin : Coin) : Res Address :=
  if text.length > 35 then
    match from_cashaddr_string C text coin with
    | .ok a => .ok a
    | .error e => if e.isValueError then from_base58_string H text coin else .error e
  else from_base58_string H text coin

end Address

/-- What classification gives: an address, a `P2PK_Output` (bitcoinx/address.py:154-178), a
`P2MultiSig_Output` (bitcoinx/address.py:181-224), an `OP_RETURN_Output` (bitcoinx/address.py:227-246)
or an `Unknown_Output` (bitcoinx/address.py:249-257). -/
inductive Output (L : Secp)
  | address (a : Address)
  | P2PK (public_key : PublicKey L) (coin : Coin)
  | P2MultiSig (public_keys : List (PublicKey L)) (threshold : Int)
  | OP_RETURN
  | Unknown

/-- `P2PK_Output(data, coin)` for bytes, bitcoinx/address.py:158-160 and 268-275. -/
def P2PK_Output (L : Secp) (data : Bytes) (coin : Coin) : Res (Output L) := do
  return .P2PK (← PublicKey.from_bytes L data) coin

/-- The end of `P2MultiSig_Output(public_keys, threshold)`, bitcoinx/address.py:187-191. -/
def P2MultiSig_of_keys {L : Secp} (public_keys : List (PublicKey L)) (threshold : Int) :
    Res (Output L) :=
  let n : Int := public_keys.length
  if ¬ (1 ≤ threshold ∧ threshold ≤ n) then .error .valueError
  else .ok (.P2MultiSig public_keys threshold)

/-- `tuple(f(x) for x in xs)`. -/
def mapAll {α β : Type} (f : α → Res β) : List α → Res (List β)
  | [] => return []
  | x :: xs => do
    let y ← f x
    let ys ← mapAll f xs
    return y :: ys

/-- `P2MultiSig_Output(public_keys, threshold)` for a list of `bytes`, bitcoinx/address.py:185-191. -/
def P2MultiSig_Output (L : Secp) (public_keys : List Bytes) (threshold : Int) : Res (Output L) := do
  P2MultiSig_of_keys (← mapAll (PublicKey.from_bytes L) public_keys) threshold

/-- `P2MultiSig_Output.from_template(*items)`, bitcoinx/address.py:217-224.  `ValueError` if there are
less than two items to unpack. -/
def P2MultiSig_from_template (L : Secp) (items : List Bytes) : Res (Output L) :=
  match items with
  | [] => .error .valueError
  | threshold :: rest =>
    match rest.getLast? with
    | none => .error .valueError
    | some count =>
      let public_keys := rest.dropLast
      let n : Int := public_keys.length
      let count := item_to_int count
      if count ≠ n then .error .valueError
      else P2MultiSig_Output L public_keys (item_to_int threshold)

namespace Output

variable {L : Secp}

/-- `P2MultiSig_Output.to_script_bytes()`, bitcoinx/address.py:201-206. -/
def multisig_script_bytes (public_keys : List (PublicKey L)) (threshold : Int) : Res Bytes := do
  let first ← push_int threshold
  let parts ← packAll (fun k : PublicKey L => push_item k.to_bytes) public_keys
  let count ← push_int public_keys.length
  let last ← pack_byte OP_CHECKMULTISIG.toNat
  return ([first] ++ parts ++ [count] ++ [last]).flatten

/-- `output.to_script_bytes()`, bitcoinx/address.py:117-122, 146-148, 174-175, 201-206, 238-239 and
253-254. -/
def to_script_bytes : Output L → Res Bytes
  | .address a => a.to_script_bytes
  | .P2PK k _ => do return (← push_item k.to_bytes) ++ (← pack_byte OP_CHECKSIG.toNat)
  | .P2MultiSig keys threshold => multisig_script_bytes keys threshold
  | .OP_RETURN => pack_byte Bitcoinx.OP_RETURN.toNat
  | .Unknown => .error .runtimeError

/-- `output == other`, bitcoinx/address.py:105-106, 134-135, 162-163, 193-196 and 232-233: coins and
the forms of public keys are ignored.  (`Unknown_Output` has no `__eq__`: different objects of that
class are different.) -/
def eq : Output L → Output L → Bool
  | .address a, .address b => a.eq b
  | .P2PK k _, .P2PK k' _ => k.eq k'
  | .P2MultiSig ks t, .P2MultiSig ks' t' =>
    ks.length == ks'.length && (List.zipWith PublicKey.eq ks ks').all id && t == t'
  | .OP_RETURN, .OP_RETURN => true
  | _, _ => false

/-- `output.KIND`, bitcoinx/address.py:99, 156, 183, 230 and 251.  `P2SH_Address` has no such
attribute. -/
def KIND : Output L → Res Str
  | .address (.P2PKH _ _) => .ok "pubkeyhash".toList
  | .address (.P2SH _ _) => .error .attributeError
  | .P2PK _ _ => .ok "pubkey".toList
  | .P2MultiSig _ _ => .ok "multisig".toList
  | .OP_RETURN => .ok "op_return".toList
  | .Unknown => .ok "unknown".toList

end Output

/-- `re.compile(b'\x4c*\x6a').match(template)`, bitcoinx/script.py:301: a match at the start. -/
def op_return_match (template : Bytes) : Bool :=
  (template.dropWhile (· == OP_PUSHDATA1)).head? == some OP_RETURN

/-- `re.compile(b'\x4c{3,}\xae$').match(template)`, bitcoinx/script.py:303-304.  `$` matches at the
end and before a newline at the end. -/
def multisig_match (template : Bytes) : Bool :=
  let rest := template.dropWhile (· == OP_PUSHDATA1)
  decide (3 ≤ template.length - rest.length) &&
    (rest == [OP_CHECKMULTISIG] || rest == [OP_CHECKMULTISIG, 0x0a])

/-- Call of a constructor with one positional argument with the items, which is `TypeError` for
another number of them. -/
def one_argument {α : Type} (f : Bytes → Res α) (items : List Bytes) : Res α :=
  match items with
  | [x] => f x
  | _ => .error .typeError

/-- `_coin_output_script_templates(coin)`, bitcoinx/script.py:289-305. -/
def coin_output_script_templates (L : Secp) (coin : Coin) :
    List ((Bytes → Bool) × (List Bytes → Res (Output L))) :=
  [((· == [OP_DUP, OP_HASH160, OP_PUSHDATA1, OP_EQUALVERIFY, OP_CHECKSIG]),
      one_argument (fun x => do return .address (← P2PKH_Address x coin))),
   ((· == [OP_HASH160, OP_PUSHDATA1, OP_EQUAL]),
      one_argument (fun x => do return .address (← P2SH_Address x coin))),
   ((· == [OP_PUSHDATA1, OP_CHECKSIG]), one_argument (fun x => P2PK_Output L x coin)),
   (op_return_match, fun _ => .ok .OP_RETURN),
   (multisig_match, P2MultiSig_from_template L)]

/-- The loop of `_classify_script`, bitcoinx/script.py:272-286. -/
def classify_loop {α : Type} (our_template : Bytes) (items : List Bytes) (unknown : α) :
    List ((Bytes → Bool) × (List Bytes → Res α)) → Res α
  | [] => .ok unknown
  | (template, constructor) :: rest =>
    if template our_template then
      match constructor items with
      | .ok x => .ok x
      | .error e =>
        if e.isValueError ∨ e = .typeError then classify_loop our_template items unknown rest
        else .error e
    else classify_loop our_template items unknown rest

/-- `classify_output_script(script, coin)`, bitcoinx/script.py:308-314 and 269-286.  The templates
depend only on the coin, so keeping them in the coin is not modelled. -/
def classify_output_script (L : Secp) (script : Bytes) (coin : Coin) : Res (Output L) :=
  let (our_template, items) := Script.to_template script
  classify_loop our_template items .Unknown (coin_output_script_templates L coin)

namespace PublicKey

variable {L : Secp}

/-- `public_key.to_address(compressed=compressed, coin=coin)`, bitcoinx/keys.py:438-441. -/
def to_address (H : Hashes) (k : PublicKey L) (compressed : Option Bool := none)
    (coin : Option Coin := none) : Res Address :=
  P2PKH_Address (k.hash160 H compressed) (coin.getD k.coin)

/-- `public_key.P2PK_script()`, bitcoinx/keys.py:552-554. -/
def P2PK_script (k : PublicKey L) : Res Bytes := (Output.P2PK k k.coin).to_script_bytes

/-- `public_key.P2PKH_script()`, bitcoinx/keys.py:556-558. -/
def P2PKH_script (H : Hashes) (k : PublicKey L) : Res Bytes := do
  (← k.to_address H).to_script_bytes

/-- `PublicKey.verify_message_and_address(message_sig, message, address, hasher=hasher)`,
bitcoinx/keys.py:492-512, for a string. -/
def verify_message_and_address (H : Hashes) (L : Secp) (message_sig message : Bytes) (address : Str)
    (hasher : Option (Bytes → Bytes)) : Res Bool :=
  verify_message_and_hash160 H L message_sig message
    (do return (← base58_decode_check H address).drop 1) hasher

end PublicKey

/-- The object made by `script.to_json`. -/
structure ScriptJson where
  asm : Str
  hex : Str
  type : Option Str := none
  pubkey : Option Str := none
  address : Option Str := none
  deriving DecidableEq

/-- `script.to_json(flags, is_script_sig, coin)`, bitcoinx/script.py:441-458; `classify` is whether
`flags` has `CLASSIFY_OUTPUT_SCRIPT`. -/
def Script.to_json (H : Hashes) (L : Secp) (script : Bytes) (classify is_script_sig : Bool)
    (coin : Coin) : Res ScriptJson := do
  let asm := Script.to_asm L script is_script_sig
  let hex := hex script
  if ¬ is_script_sig ∧ classify then
    let output ← classify_output_script L script coin
    let type ← output.KIND
    match output with
    | .address (.P2PKH h c) =>
      let address ← (Address.P2PKH h c).to_string H
      return { asm, hex, type := some type, address := some address }
    | .P2PK k c =>
      let a ← k.to_address H none (some c)
      let address ← a.to_string H
      return { asm, hex, type := some type, pubkey := some k.to_hex, address := some address }
    | _ => return { asm, hex, type := some type }
  else return { asm, hex }

end Bitcoinx
