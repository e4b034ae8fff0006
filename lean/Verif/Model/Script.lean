import Verif.Model.Signature

/-! # Model of `bitcoinx/script.py`

A `Script` is its bytes.  Not modelled: hashing and comparison of `Script` objects with other
types.  Classification and `to_json` are in Model/Address.lean. -/

namespace Bitcoinx

/-- The names and values of `Ops`, in order of definition (aliases after the name they alias),
bitcoinx/script.py:56-188. -/
def opsTable : List (Str × UInt8) :=
  [
   ("OP_0".toList, 0x00), ("OP_FALSE".toList, 0x00), ("OP_PUSHDATA1".toList, 0x4c), ("OP_PUSHDATA2".toList, 0x4d),
   ("OP_PUSHDATA4".toList, 0x4e), ("OP_1NEGATE".toList, 0x4f), ("OP_RESERVED".toList, 0x50), ("OP_1".toList, 0x51),
   ("OP_TRUE".toList, 0x51), ("OP_2".toList, 0x52), ("OP_3".toList, 0x53), ("OP_4".toList, 0x54),
   ("OP_5".toList, 0x55), ("OP_6".toList, 0x56), ("OP_7".toList, 0x57), ("OP_8".toList, 0x58),
   ("OP_9".toList, 0x59), ("OP_10".toList, 0x5a), ("OP_11".toList, 0x5b), ("OP_12".toList, 0x5c),
   ("OP_13".toList, 0x5d), ("OP_14".toList, 0x5e), ("OP_15".toList, 0x5f), ("OP_16".toList, 0x60),
   ("OP_NOP".toList, 0x61), ("OP_VER".toList, 0x62), ("OP_IF".toList, 0x63), ("OP_NOTIF".toList, 0x64),
   ("OP_VERIF".toList, 0x65), ("OP_VERNOTIF".toList, 0x66), ("OP_ELSE".toList, 0x67), ("OP_ENDIF".toList, 0x68),
   ("OP_VERIFY".toList, 0x69), ("OP_RETURN".toList, 0x6a), ("OP_TOALTSTACK".toList, 0x6b), ("OP_FROMALTSTACK".toList, 0x6c),
   ("OP_2DROP".toList, 0x6d), ("OP_2DUP".toList, 0x6e), ("OP_3DUP".toList, 0x6f), ("OP_2OVER".toList, 0x70),
   ("OP_2ROT".toList, 0x71), ("OP_2SWAP".toList, 0x72), ("OP_IFDUP".toList, 0x73), ("OP_DEPTH".toList, 0x74),
   ("OP_DROP".toList, 0x75), ("OP_DUP".toList, 0x76), ("OP_NIP".toList, 0x77), ("OP_OVER".toList, 0x78),
   ("OP_PICK".toList, 0x79), ("OP_ROLL".toList, 0x7a), ("OP_ROT".toList, 0x7b), ("OP_SWAP".toList, 0x7c),
   ("OP_TUCK".toList, 0x7d), ("OP_CAT".toList, 0x7e), ("OP_SPLIT".toList, 0x7f), ("OP_NUM2BIN".toList, 0x80),
   ("OP_BIN2NUM".toList, 0x81), ("OP_SIZE".toList, 0x82), ("OP_INVERT".toList, 0x83), ("OP_AND".toList, 0x84),
   ("OP_OR".toList, 0x85), ("OP_XOR".toList, 0x86), ("OP_EQUAL".toList, 0x87), ("OP_EQUALVERIFY".toList, 0x88),
   ("OP_RESERVED1".toList, 0x89), ("OP_RESERVED2".toList, 0x8a), ("OP_1ADD".toList, 0x8b), ("OP_1SUB".toList, 0x8c),
   ("OP_2MUL".toList, 0x8d), ("OP_2DIV".toList, 0x8e), ("OP_NEGATE".toList, 0x8f), ("OP_ABS".toList, 0x90),
   ("OP_NOT".toList, 0x91), ("OP_0NOTEQUAL".toList, 0x92), ("OP_ADD".toList, 0x93), ("OP_SUB".toList, 0x94),
   ("OP_MUL".toList, 0x95), ("OP_DIV".toList, 0x96), ("OP_MOD".toList, 0x97), ("OP_LSHIFT".toList, 0x98),
   ("OP_RSHIFT".toList, 0x99), ("OP_BOOLAND".toList, 0x9a), ("OP_BOOLOR".toList, 0x9b), ("OP_NUMEQUAL".toList, 0x9c),
   ("OP_NUMEQUALVERIFY".toList, 0x9d), ("OP_NUMNOTEQUAL".toList, 0x9e), ("OP_LESSTHAN".toList, 0x9f), ("OP_GREATERTHAN".toList, 0xa0),
   ("OP_LESSTHANOREQUAL".toList, 0xa1), ("OP_GREATERTHANOREQUAL".toList, 0xa2), ("OP_MIN".toList, 0xa3), ("OP_MAX".toList, 0xa4),
   ("OP_WITHIN".toList, 0xa5), ("OP_RIPEMD160".toList, 0xa6), ("OP_SHA1".toList, 0xa7), ("OP_SHA256".toList, 0xa8),
   ("OP_HASH160".toList, 0xa9), ("OP_HASH256".toList, 0xaa), ("OP_CODESEPARATOR".toList, 0xab), ("OP_CHECKSIG".toList, 0xac),
   ("OP_CHECKSIGVERIFY".toList, 0xad), ("OP_CHECKMULTISIG".toList, 0xae), ("OP_CHECKMULTISIGVERIFY".toList, 0xaf), ("OP_NOP1".toList, 0xb0),
   ("OP_CHECKLOCKTIMEVERIFY".toList, 0xb1), ("OP_NOP2".toList, 0xb1), ("OP_CHECKSEQUENCEVERIFY".toList, 0xb2), ("OP_NOP3".toList, 0xb2),
   ("OP_NOP4".toList, 0xb3), ("OP_NOP5".toList, 0xb4), ("OP_NOP6".toList, 0xb5), ("OP_NOP7".toList, 0xb6),
   ("OP_NOP8".toList, 0xb7), ("OP_NOP9".toList, 0xb8), ("OP_NOP10".toList, 0xb9)]

/-- `Ops[name]`: the value of a name. -/
def opsByName (name : Str) : Option UInt8 := (opsTable.find? (fun e => e.1 = name)).map (·.2)

/-- `Ops(value).name`: the first name with the value. -/
def opsByValue (value : UInt8) : Option Str := (opsTable.find? (fun e => e.2 = value)).map (·.1)

/-- bitcoinx/script.py:57. -/
def OP_0 : UInt8 := 0x00
/-- bitcoinx/script.py:59-61. -/
def OP_PUSHDATA1 : UInt8 := 0x4c
/-- bitcoinx/script.py:60. -/
def OP_PUSHDATA2 : UInt8 := 0x4d
/-- bitcoinx/script.py:61. -/
def OP_PUSHDATA4 : UInt8 := 0x4e
/-- bitcoinx/script.py:62. -/
def OP_1NEGATE : UInt8 := 0x4f
/-- bitcoinx/script.py:63. -/
def OP_RESERVED : UInt8 := 0x50
/-- bitcoinx/script.py:64. -/
def OP_1 : UInt8 := 0x51
/-- bitcoinx/script.py:80. -/
def OP_16 : UInt8 := 0x60
/-- bitcoinx/script.py:83. -/
def OP_NOP : UInt8 := 0x61
/-- bitcoinx/script.py:92. -/
def OP_RETURN : UInt8 := 0x6a
/-- bitcoinx/script.py:97. -/
def OP_2DROP : UInt8 := 0x6d
/-- bitcoinx/script.py:105. -/
def OP_DROP : UInt8 := 0x75
/-- bitcoinx/script.py:106. -/
def OP_DUP : UInt8 := 0x76
/-- bitcoinx/script.py:127. -/
def OP_EQUAL : UInt8 := 0x87
/-- bitcoinx/script.py:128. -/
def OP_EQUALVERIFY : UInt8 := 0x88
/-- bitcoinx/script.py:168. -/
def OP_HASH160 : UInt8 := 0xa9
/-- bitcoinx/script.py:171. -/
def OP_CHECKSIG : UInt8 := 0xac
/-- bitcoinx/script.py:173. -/
def OP_CHECKMULTISIG : UInt8 := 0xae

/-- The end of `push_item(item)`, bitcoinx/script.py:209-215. -/
def push_item_data (item : Bytes) : Res Bytes :=
  let dlen : Int := item.length
  if dlen < OP_PUSHDATA1.toNat then do return (← pack_byte dlen) ++ item
  else if dlen ≤ 0xff then do
    return (← pack_byte OP_PUSHDATA1.toNat) ++ (← pack_byte dlen) ++ item
  else if dlen ≤ 0xffff then do
    return (← pack_byte OP_PUSHDATA2.toNat) ++ (← pack_le_uint16 dlen) ++ item
  else do
    return (← pack_byte OP_PUSHDATA4.toNat) ++ (← pack_le_uint32 dlen) ++ item

/-- `push_item(item)`, bitcoinx/script.py:196-215. -/
def push_item (item : Bytes) : Res Bytes :=
  match item with
  | [] => .ok [OP_0]
  | [value] =>
    if 0 < value ∧ value ≤ 16 then pack_byte ((OP_1.toNat : Int) + value.toNat - 1)
    else if value = 0x81 then .ok [OP_1NEGATE]
    else push_item_data item
  | _ => push_item_data item

/-- `push_and_drop_item(item)`, bitcoinx/script.py:218-220. -/
def push_and_drop_item (item : Bytes) : Res Bytes := do return (← push_item item) ++ [OP_DROP]

/-- `push_and_drop_items(items)`, bitcoinx/script.py:223-230. -/
def push_and_drop_items (items : List Bytes) : Res Bytes := do
  let parts ← packAll push_item items
  let parts := parts ++ if items.length ≥ 2 then [List.replicate (parts.length / 2) OP_2DROP] else []
  let parts := parts ++ if items.length % 2 = 1 then [[OP_DROP]] else []
  return parts.flatten

/-- `push_int(value)`, bitcoinx/script.py:233-244. -/
def push_int (value : Int) : Res Bytes :=
  if value = 0 then .ok [OP_0]
  else do
    let item ← int_to_le_bytes value.natAbs
    match item.getLast? with
    | none => .error .indexError
    | some last =>
      if last &&& 0x80 ≠ 0 then do
        push_item (item ++ (← pack_byte (if value < 0 then 0x80 else 0x00)))
      else if value < 0 then do
        push_item (dropEnd item 1 ++ (← pack_byte (last ||| 0x80).toNat))
      else push_item item

/-- `item_to_int(item)`, bitcoinx/script.py:247-253. -/
def item_to_int (item : Bytes) : Int :=
  match item.getLast? with
  | none => 0
  | some last =>
    if last &&& 0x80 ≠ 0 then -(le_bytes_to_int (dropEnd item 1 ++ [last &&& 0x7f]) : Int)
    else le_bytes_to_int item

/-- What `<<` and `push_many` accept: an `Ops` member, data, an integer, a script. -/
inductive ScriptItem
  | op (code : UInt8)
  | data (item : Bytes)
  | int (value : Int)
  | script (bytes : Bytes)
  deriving DecidableEq, Repr

/-- `_to_bytes(item)`, bitcoinx/script.py:256-266.  Other types raise `TypeError`. -/
def to_bytes : ScriptItem → Res Bytes
  | .op code => pack_byte code.toNat
  | .data item => push_item item
  | .int value => push_int value
  | .script bytes => .ok bytes

/-- What `ops()` yields: an integer (operation) or `bytes` (data pushed). -/
inductive Op
  | code (op : UInt8)
  | data (item : Bytes)
  deriving DecidableEq, Repr

namespace Op

/-- `isinstance(op, bytes)`. -/
def isData : Op → Bool
  | .code _ => false
  | .data _ => true

end Op

namespace Script

/-- `script << item`, bitcoinx/script.py:323-329. -/
def lshift (script : Bytes) (item : ScriptItem) : Res Bytes := do return script ++ (← to_bytes item)

/-- `script.push_many(items)`, bitcoinx/script.py:331-336. -/
def push_many (script : Bytes) (items : List ScriptItem) : Res Bytes := do
  return script ++ (← packAll to_bytes items).flatten

/-- The length of a push and the bytes after it, bitcoinx/script.py:378-388, given the opcode and
the bytes following it. -/
def push_length (op : UInt8) (rest : Bytes) : Res (Nat × Bytes) :=
  if op < OP_PUSHDATA1 then .ok (op.toNat, rest)
  else if op = OP_PUSHDATA1 then
    match rest with
    | [] => .error .indexError
    | b :: rest => .ok (b.toNat, rest)
  else if op = OP_PUSHDATA2 then do
    let n ← unpack_le_uint16 (rest.take 2)
    return (n.toNat, rest.drop 2)
  else do
    let n ← unpack_le_uint32 (rest.take 4)
    return (n.toNat, rest.drop 4)

/-- One iteration of the loop of `ops()`, bitcoinx/script.py:371-399: what is yielded, and the bytes
after it. -/
def next_op (op : UInt8) (rest : Bytes) : Res (Op × Bytes) :=
  if op > OP_16 then .ok (.code op, rest)
  else if op ≤ OP_PUSHDATA4 then
    match push_length op rest with
    | .error _ => .error .truncatedScriptError
    | .ok (dlen, rest) =>
      let data := rest.take dlen
      if data.length = dlen then .ok (.data data, rest.drop dlen) else .error .truncatedScriptError
  else if op ≥ OP_1 then do return (.data (← pack_byte ((op.toNat : Int) - OP_1.toNat + 1)), rest)
  else if op = OP_1NEGATE then .ok (.data [0x81], rest)
  else .ok (.code op, rest)

/-- The loop of `ops()`: the operations yielded, and whether the generator then returns or raises.
The first argument bounds the number of iterations. -/
def ops_loop : Nat → Bytes → List Op × Res Unit
  | _, [] => ([], .ok ())
  | 0, _ :: _ => ([], .error .runtimeError)
  | fuel + 1, op :: rest =>
    match next_op op rest with
    | .error e => ([], .error e)
    | .ok (x, rest) =>
      let (xs, r) := ops_loop fuel rest
      (x :: xs, r)

/-- `script.ops()`, bitcoinx/script.py:359-399.  Each iteration consumes a byte, so the length of
the script bounds the number of iterations. -/
def ops (script : Bytes) : List Op × Res Unit := ops_loop script.length script

/-- `Script.op_to_asm_word(op, decode_sighash)`, bitcoinx/script.py:401-423. -/
def op_to_asm_word (L : Secp) (op : Op) (decode_sighash : Bool) : Str :=
  match op with
  | .data d =>
    if d.length ≤ 4 then strInt (item_to_int d)
    else if decode_sighash ∧ d.head? = some 0x30 ∧ 9 ≤ d.length ∧ d.length ≤ 73 then
      match Signature.new L d with
      | .ok s => Signature.to_string s
      | .error _ => hex d
    else hex d
  | .code c =>
    match opsByValue c with
    | some name => name
    | none => if c = 0xff then "OP_INVALIDOPCODE".toList else "OP_UNKNOWN".toList

/-- `script.to_asm(decode_sighash)`, bitcoinx/script.py:425-435. -/
def to_asm (L : Secp) (script : Bytes) (decode_sighash : Bool) : Str :=
  match ops script with
  | (xs, .ok ()) => joinStr [' '] (xs.map (fun op => op_to_asm_word L op decode_sighash))
  | (_, .error _) => "[error]".toList

/-- The decimal attempt of `asm_word_to_bytes`, bitcoinx/script.py:478-481: the value of what looks
like a decimal. -/
def asm_decimal (P : PyText) (word : Str) : Res (Option Int) :=
  if P.isdigitStr word then do return some ((← P.intOfDigits word : Nat) : Int)
  else match word with
    | [] => .error .indexError
    | c :: cs =>
      if c = '-' ∧ P.isdigitStr cs then do return some (-((← P.intOfDigits cs : Nat) : Int))
      else .ok none

/-- The last lines of `asm_word_to_bytes`, bitcoinx/script.py:482-485. -/
def asm_hex (word : Str) : Res Bytes :=
  match fromhex word with
  | .error _ => .error .scriptError
  | .ok d => push_item d

/-- `Script.asm_word_to_bytes(word)`, bitcoinx/script.py:469-485. -/
def asm_word_to_bytes (P : PyText) (word : Str) : Res Bytes :=
  if startsWith "OP_".toList word then
    match opsByName word with
    | none => .error .scriptError
    | some opcode => pack_byte opcode.toNat
  else do
    match ← asm_decimal P word with
    | some value => if value.natAbs ≤ 2147483647 then push_int value else asm_hex word
    | none => asm_hex word

/-- `Script.from_asm(asm)`, bitcoinx/script.py:488-492. -/
def from_asm (P : PyText) (asm : Str) : Res Bytes := do
  return (← packAll (asm_word_to_bytes P) (P.split asm)).flatten

/-- One iteration of the loop of `_stripped_ops()`, bitcoinx/script.py:505-522.  The list is kept
reversed, the last operation first. -/
def strip_step (result : List Op) (op : Op) : List Op :=
  if op = .code OP_NOP then result
  else if op = .code OP_DROP then
    match result with
    | .data _ :: rest => rest
    | _ => op :: result
  else if op = .code OP_2DROP then
    match result with
    | .data _ :: .data _ :: rest => rest
    | _ => op :: result
  else op :: result

/-- `script._stripped_ops()`, bitcoinx/script.py:494-526. -/
def stripped_ops (script : Bytes) : List Op :=
  let (xs, r) := ops script
  let result := (xs.foldl strip_step []).reverse
  match r with
  | .ok () => result
  | .error _ => result ++ [.code OP_0]

/-- `script.to_template()`, bitcoinx/script.py:528-541. -/
def to_template (script : Bytes) : Bytes × List Bytes :=
  let stripped := stripped_ops script
  (stripped.map (fun op => match op with | .data _ => OP_PUSHDATA1 | .code c => c),
    stripped.filterMap (fun op => match op with | .data d => some d | .code _ => none))

end Script

end Bitcoinx
