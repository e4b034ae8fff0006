import Verif.Model.Script
import Verif.Spec.Bytes
import Verif.Spec.Text

/-! # Specification of script encoding and evaluation, independent of the parser -/

namespace Bitcoinx.Spec

/-- The encodings of an operation. -/
inductive Encodes : Bytes → Op → Prop
  /-- a bare operation: anything above `OP_16`, or `OP_RESERVED` -/
  | code (c : UInt8) : (0x60 < c.toNat ∨ c.toNat = 0x50) → Encodes [c] (.code c)
  /-- a push of up to 75 bytes: the opcode is the length -/
  | short (n : UInt8) (d : Bytes) : n.toNat = d.length → d.length < 0x4c → Encodes (n :: d) (.data d)
  /-- `OP_PUSHDATA1`, `OP_PUSHDATA2`, `OP_PUSHDATA4`: a length of 1, 2 or 4 bytes -/
  | pushdata1 (l d : Bytes) : l.length = 1 → leValue l = d.length → Encodes (0x4c :: (l ++ d)) (.data d)
  | pushdata2 (l d : Bytes) : l.length = 2 → leValue l = d.length → Encodes (0x4d :: (l ++ d)) (.data d)
  | pushdata4 (l d : Bytes) : l.length = 4 → leValue l = d.length → Encodes (0x4e :: (l ++ d)) (.data d)
  /-- `OP_1` to `OP_16` -/
  | small (c b : UInt8) : 1 ≤ b.toNat → b.toNat ≤ 16 → c.toNat = 0x50 + b.toNat → Encodes [c] (.data [b])
  | negate : Encodes [0x4f] (.data [0x81])

/-- The number a stack item denotes: little-endian magnitude, the top bit is the sign. -/
def itemValue (d : Bytes) : Int :=
  if 2 * leValue d < 256 ^ d.length then leValue d else -((leValue d : Int) - 256 ^ d.length / 2)

/-- `d` is the shortest item with its value. -/
def ShortestNumber (d : Bytes) : Prop := ∀ d', itemValue d' = itemValue d → d.length ≤ d'.length

/-- The items that survive ASM: short ones that are shortest numbers, and longer ones whose hex form
cannot be taken for a decimal number of 32 bits (nor for one with too many digits). -/
def AsmSafe (P : PyText) (d : Bytes) : Prop :=
  (d.length ≤ 4 ∧ ShortestNumber d) ∨
  (4 < d.length ∧ d.length < 2 ^ 32 ∧
    ((∃ c ∈ hex d, c ∉ decAlphabet) ∨
      ((P.max_str_digits = 0 ∨ 2 * d.length ≤ P.max_str_digits) ∧
        ∃ n, numeral decAlphabet (hex d) = some n ∧ 2147483647 < n)))

/-- Evaluation of pushes and drops on a stack (top first). -/
def eval : List Op → List Bytes → Option (List Bytes)
  | [], st => some st
  | .data d :: ops, st => eval ops (d :: st)
  | .code c :: ops, st =>
    if c = 0x75 then (match st with | _ :: st => eval ops st | _ => none)
    else if c = 0x6d then (match st with | _ :: _ :: st => eval ops st | _ => none)
    else none

/-- The names of the opcodes from 0x4c on, in order and without the `OP_` each begins with. -/
def opcodeNames : List Str :=
  ["PUSHDATA1", "PUSHDATA2", "PUSHDATA4", "1NEGATE", "RESERVED", "1", "2", "3", "4", "5", "6", "7", "8", "9",
   "10", "11", "12", "13", "14", "15", "16", "NOP", "VER", "IF", "NOTIF", "VERIF", "VERNOTIF", "ELSE",
   "ENDIF", "VERIFY", "RETURN", "TOALTSTACK", "FROMALTSTACK", "2DROP", "2DUP", "3DUP", "2OVER", "2ROT",
   "2SWAP", "IFDUP", "DEPTH", "DROP", "DUP", "NIP", "OVER", "PICK", "ROLL", "ROT", "SWAP", "TUCK", "CAT",
   "SPLIT", "NUM2BIN", "BIN2NUM", "SIZE", "INVERT", "AND", "OR", "XOR", "EQUAL", "EQUALVERIFY", "RESERVED1",
   "RESERVED2", "1ADD", "1SUB", "2MUL", "2DIV", "NEGATE", "ABS", "NOT", "0NOTEQUAL", "ADD", "SUB", "MUL",
   "DIV", "MOD", "LSHIFT", "RSHIFT", "BOOLAND", "BOOLOR", "NUMEQUAL", "NUMEQUALVERIFY", "NUMNOTEQUAL",
   "LESSTHAN", "GREATERTHAN", "LESSTHANOREQUAL", "GREATERTHANOREQUAL", "MIN", "MAX", "WITHIN", "RIPEMD160",
   "SHA1", "SHA256", "HASH160", "HASH256", "CODESEPARATOR", "CHECKSIG", "CHECKSIGVERIFY", "CHECKMULTISIG",
   "CHECKMULTISIGVERIFY", "NOP1", "CHECKLOCKTIMEVERIFY", "CHECKSEQUENCEVERIFY", "NOP4", "NOP5", "NOP6",
   "NOP7", "NOP8", "NOP9", "NOP10"].map String.toList

/-- The first name of an opcode. -/
def OpcodeName (name : Str) (c : UInt8) : Prop :=
  (name = "OP_0".toList ∧ c = 0) ∨ ∃ k n, opcodeNames[k]? = some n ∧ name = "OP_".toList ++ n ∧ c.toNat = 0x4c + k

/-- The names of an opcode: the first one, and four that are other names of opcodes. -/
def Opcode (name : Str) (c : UInt8) : Prop :=
  OpcodeName name c ∨ (name, c) ∈ [("OP_FALSE".toList, 0), ("OP_TRUE".toList, 0x51), ("OP_NOP2".toList, 0xb1),
    ("OP_NOP3".toList, 0xb2)]

end Bitcoinx.Spec
