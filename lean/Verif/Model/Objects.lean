import Verif.Model.Address
import Verif.Model.Bip32

/-! # Model of `==` and `hash()` on the objects of `bitcoinx`

Not modelled: equality with objects of other classes (`bytearray`, `memoryview`, foreign classes with
`__bytes__`), equality of `Tx`, `TxInput`, `TxOutput` and `Header` (generated by `attr.s` from all
fields; these objects are not hashable). -/

namespace Bitcoinx

/-- The objects that define `__eq__` and `__hash__`, with `bytes`.  The number of an `Unknown_Output`
(bitcoinx/address.py:249-257), which inherits both from `object`, stands for its identity. -/
inductive Obj (L : Secp)
  | bytes (b : Bytes)
  | Script (script : Bytes)
  | Signature (raw : Bytes)
  | PrivateKey (k : PrivateKey)
  | BIP32PrivateKey (k : BIP32PrivateKey)
  | PublicKey (k : PublicKey L)
  | BIP32PublicKey (k : BIP32PublicKey L)
  | BIP32Derivation (d : BIP32Derivation)
  | P2PKH_Address (hash160 : Bytes) (coin : Coin)
  | P2SH_Address (hash160 : Bytes) (coin : Coin)
  | P2PK_Output (k : PublicKey L) (coin : Coin)
  | P2MultiSig_Output (public_keys : List (PublicKey L)) (threshold : Int)
  | OP_RETURN_Output
  | Unknown_Output (id : Nat)

namespace Obj

variable {L : Secp}

/-- `bytes(other)` if `other` is `bytes` or has `__bytes__`: bitcoinx/script.py:342-344 and
bitcoinx/signature.py:226-227. -/
def asBytes : Obj L → Option Bytes
  | .bytes b => some b
  | .Script s => some s
  | .Signature raw => some raw
  | _ => none

/-- The key if `isinstance(other, PrivateKey)`; bitcoinx/bip32.py:86 is a subclass. -/
def asPrivateKey : Obj L → Option Bitcoinx.PrivateKey
  | .PrivateKey k => some k
  | .BIP32PrivateKey k => some k.key
  | _ => none

/-- The key if `isinstance(other, PublicKey)`; bitcoinx/bip32.py:176 is a subclass. -/
def asPublicKey : Obj L → Option (Bitcoinx.PublicKey L)
  | .PublicKey k => some k
  | .BIP32PublicKey k => some k.key
  | _ => none

/-- `x == y` on tuples of public keys. -/
def tupleEq : List (Bitcoinx.PublicKey L) → List (Bitcoinx.PublicKey L) → Bool
  | [], [] => true
  | k :: ks, k' :: ks' => k.eq k' && tupleEq ks ks'
  | _, _ => false

/-- `self.__eq__(other)`, with `none` for `NotImplemented`: bitcoinx/script.py:354-357,
bitcoinx/signature.py:205-208, bitcoinx/keys.py:121-123 and 349-352, bitcoinx/address.py:105-106,
134-135, 162-163, 193-196 and 232-233, the method of `bytes`, that of `object` for `Unknown_Output`
and that generated for bitcoinx/bip32.py:50-56. -/
def eqMethod : Obj L → Obj L → Option Bool
  | .bytes b, .bytes b' => some (b == b')
  | .bytes _, _ => none
  | .Script s, other => some (match other.asBytes with | some b => s == b | none => false)
  | .Signature s, other => some (match other.asBytes with | some b => s == b | none => false)
  | .PrivateKey k, other => some (match other.asPrivateKey with | some k' => k.eq k' | none => false)
  | .BIP32PrivateKey k, other => some (match other.asPrivateKey with | some k' => k.key.eq k' | none => false)
  | .PublicKey k, other => some (match other.asPublicKey with | some k' => k.eq k' | none => false)
  | .BIP32PublicKey k, other => some (match other.asPublicKey with | some k' => k.key.eq k' | none => false)
  | .BIP32Derivation d, .BIP32Derivation d' => some (d == d')
  | .BIP32Derivation _, _ => none
  | .P2PKH_Address h _, other => some (match other with | .P2PKH_Address h' _ => h == h' | _ => false)
  | .P2SH_Address h _, other => some (match other with | .P2SH_Address h' _ => h == h' | _ => false)
  | .P2PK_Output k _, other => some (match other with | .P2PK_Output k' _ => k.eq k' | _ => false)
  | .P2MultiSig_Output ks t, other =>
    some (match other with | .P2MultiSig_Output ks' t' => tupleEq ks ks' && t == t' | _ => false)
  | .OP_RETURN_Output, other => some (match other with | .OP_RETURN_Output => true | _ => false)
  | .Unknown_Output i, .Unknown_Output j => if i = j then some true else none
  | .Unknown_Output _, _ => none

/-- `a == b`: the method of `a`, else that of `b`, else identity, which is `False` as the methods of
identical objects return something.  Simplification: Python tries the method of `b` first if its class
is a subclass; the only subclasses here inherit the method. -/
def eq (a b : Obj L) : Bool :=
  match eqMethod a b with
  | some r => r
  | none =>
    match eqMethod b a with
    | some r => r
    | none => false

/-- Python's hash of `bytes` and of tuples of objects given their hashes, of a derivation's fields, of
the identity of an object, and the reduction of an integer to the range of hashes. -/
structure PyHash where
  bytes : Bytes → Int
  tuple : List Int → Int
  derivation : Bitcoinx.BIP32Derivation → Int
  id : Nat → Int
  reduce : Int → Int

/-- `hash(public_key)`, bitcoinx/keys.py:354-356. -/
def hashPublicKey (P : PyHash) (k : Bitcoinx.PublicKey L) : Int := P.bytes (k.to_bytes (some true))

/-- `hash(self)`: bitcoinx/script.py:350-352, bitcoinx/signature.py:210-211, bitcoinx/keys.py:125-127
and 354-356, bitcoinx/address.py:108-109, 137-138, 165-166, 198-199 and 235-236, that of `bytes` and of
`object`, and that generated for bitcoinx/bip32.py:50-56. -/
def hash (P : PyHash) : Obj L → Int
  | .bytes b => P.bytes b
  | .Script s => P.reduce (P.bytes s)
  | .Signature s => P.reduce (P.bytes s)
  | .PrivateKey k => P.reduce (P.bytes k.secret)
  | .BIP32PrivateKey k => P.reduce (P.bytes k.key.secret)
  | .PublicKey k => P.reduce (hashPublicKey P k)
  | .BIP32PublicKey k => P.reduce (hashPublicKey P k.key)
  | .BIP32Derivation d => P.reduce (P.derivation d)
  | .P2PKH_Address h _ => P.reduce (P.bytes h + 2)
  | .P2SH_Address h _ => P.reduce (P.bytes h + 3)
  | .P2PK_Output k _ => P.reduce (P.reduce (hashPublicKey P k) + 1)
  | .P2MultiSig_Output ks t => P.reduce (P.tuple (ks.map (fun k => P.reduce (hashPublicKey P k))) + t)
  | .OP_RETURN_Output => 28
  | .Unknown_Output i => P.id i

/-- `obj.to_script_bytes()` for the outputs, bitcoinx/address.py:117-122, 146-148, 174-175, 201-206,
238-239 and 253-254; `AttributeError` for other objects. -/
def to_script_bytes : Obj L → Res Bytes
  | .P2PKH_Address h c => (Address.P2PKH h c).to_script_bytes
  | .P2SH_Address h c => (Address.P2SH h c).to_script_bytes
  | .P2PK_Output k c => (Output.P2PK k c).to_script_bytes
  | .P2MultiSig_Output ks t => (Output.P2MultiSig ks t).to_script_bytes
  | .OP_RETURN_Output => (Output.OP_RETURN : Output L).to_script_bytes
  | .Unknown_Output _ => (Output.Unknown : Output L).to_script_bytes
  | _ => .error .attributeError

end Obj

end Bitcoinx
