import Verif.Model.Text

/-! # bitcoinx/cashaddr.py -/

namespace Bitcoinx

/-- `str.lower()` and `str.upper()`.  Only their action on ASCII characters is fixed: each ASCII
character is mapped by itself whatever surrounds it, and lowering a string never makes it shorter.
(Python's lower case of U+03A3 depends on its neighbours, so what follows an ASCII prefix is not
assumed to be lowered independently of the prefix.) -/
structure PyCase where
  lower : Str → Str
  upper : Str → Str
  lower_ascii : ∀ s, (∀ c ∈ s, c.toNat < 128) → lower s = s.map Char.toLower
  upper_ascii : ∀ s, (∀ c ∈ s, c.toNat < 128) → upper s = s.map Char.toUpper
  lower_prefix : ∀ a b, (∀ c ∈ a, c.toNat < 128) →
    ∃ b', lower (a ++ b) = a.map Char.toLower ++ b' ∧ b.length ≤ b'.length
  upper_prefix : ∀ a b, (∀ c ∈ a, c.toNat < 128) → ∃ b', upper (a ++ b) = a.map Char.toUpper ++ b'

/-- An instance that knows only ASCII, for the examples. -/
def asciiCase : PyCase where
  lower s := s.map Char.toLower
  upper s := s.map Char.toUpper
  lower_ascii _ _ := rfl
  upper_ascii _ _ := rfl
  lower_prefix a b _ := ⟨b.map Char.toLower, by simp, by simp⟩
  upper_prefix a b _ := ⟨b.map Char.toUpper, by simp⟩

namespace cashaddr

/-- `_CHARSET`, bitcoinx/cashaddr.py:22. -/
def CHARSET : Str := "qpzry9x8gf2tvdw0s3jn54khce6mua7l".toList

/-- The body of the loop of `_polymod`, bitcoinx/cashaddr.py:29-40. -/
def polymodStep (c : Nat) (d : UInt8) : Nat :=
  let c0 := c >>> 35
  let c := ((c &&& 0x07ffffffff) <<< 5) ^^^ d.toNat
  let c := if c0 &&& 0x01 ≠ 0 then c ^^^ 0x98f2bc8e61 else c
  let c := if c0 &&& 0x02 ≠ 0 then c ^^^ 0x79b76d99e2 else c
  let c := if c0 &&& 0x04 ≠ 0 then c ^^^ 0xf33e5fb3c4 else c
  let c := if c0 &&& 0x08 ≠ 0 then c ^^^ 0xae2eabe2a8 else c
  let c := if c0 &&& 0x10 ≠ 0 then c ^^^ 0x1e4f43e470 else c
  c

/-- `_polymod(values)`, bitcoinx/cashaddr.py:25-42. -/
def polymod (values : Bytes) : Nat :=
  let c := values.foldl polymodStep 1
  c ^^^ 1

/-- `_prefix_expand(prefix)`, bitcoinx/cashaddr.py:45-50. -/
def prefix_expand (pre : Str) : Bytes :=
  pre.map (fun x => UInt8.ofNat (x.toNat &&& 0x1f)) ++ [0]

/-- `_create_checksum(prefix, data)`, bitcoinx/cashaddr.py:53-58. -/
def create_checksum (pre : Str) (data : Bytes) : Bytes :=
  let values := prefix_expand pre ++ data ++ zeros 8
  let polymod := polymod values
  (List.range 8).map (fun i => UInt8.ofNat ((polymod >>> (5 * (7 - i))) &&& 31))

/-- The inner loop of `_convertbits`, bitcoinx/cashaddr.py:71-73, giving the final `bits` and `ret`;
`fuel` is a bound on the number of iterations, of which `bits` is one as `tobits` is positive. -/
def emitLoop (acc tobits maxv : Nat) : Nat → Nat → Bytes → Nat × Bytes
  | 0, bits, ret => (bits, ret)
  | fuel + 1, bits, ret =>
    if tobits ≤ bits then
      emitLoop acc tobits maxv fuel (bits - tobits)
        (ret ++ [UInt8.ofNat ((acc >>> (bits - tobits)) &&& maxv)])
    else (bits, ret)

/-- The outer loop of `_convertbits`, bitcoinx/cashaddr.py:68-73, on the state
`(acc, bits, ret)`. -/
def convertLoop (frombits tobits maxv max_acc : Nat) : Bytes → Nat × Nat × Bytes → Nat × Nat × Bytes
  | [], s => s
  | value :: data, (acc, bits, ret) =>
    let acc := ((acc <<< frombits) ||| value.toNat) &&& max_acc
    let bits := bits + frombits
    let (bits, ret) := emitLoop acc tobits maxv bits bits ret
    convertLoop frombits tobits maxv max_acc data (acc, bits, ret)

/-- `_convertbits(data, frombits, tobits, pad)`, bitcoinx/cashaddr.py:61-78, for `tobits` from 1 to
8 (so that what is appended to the bytearray is a byte). -/
def convertbits (data : Bytes) (frombits tobits : Nat) (pad : Bool) : Bytes :=
  let maxv := (1 <<< tobits) - 1
  let max_acc := (1 <<< (frombits + tobits - 1)) - 1
  let (acc, bits, ret) := convertLoop frombits tobits maxv max_acc data (0, 0, [])
  if pad && bits ≠ 0 then ret ++ [UInt8.ofNat ((acc <<< (tobits - bits)) &&& maxv)] else ret

/-- `_pack_addr_data(kind, addr_hash)`, bitcoinx/cashaddr.py:81-100.  `encoded_size |= x` for a
negative `x` is negative as `encoded_size` is then 0, so the size is refused. `bytes([version_byte])`
is `ValueError` beyond a byte. -/
def pack_addr_data (kind : Nat) (addr_hash : Bytes) : Res Bytes :=
  let version_byte := kind <<< 3
  let len : Int := addr_hash.length
  let (offset, encoded_size) : Int × Nat := if addr_hash.length ≥ 40 then (2, 0x04) else (1, 0)
  let q := (len - 20 * offset) / (4 * offset)
  let encoded_size := encoded_size ||| q.toNat
  if (len - 20 * offset) % (4 * offset) ≠ 0 ∨ q < 0 ∨ ¬ encoded_size ≤ 7 then .error .valueError
  else
    let version_byte := version_byte ||| encoded_size
    if 256 ≤ version_byte then .error .valueError
    else
      let data := [UInt8.ofNat version_byte] ++ addr_hash
      return convertbits data 8 5 true

/-- `text.split(':', 1)` when there is a `':'`. -/
def splitColon : Str → Option (Str × Str)
  | [] => none
  | c :: cs => if c = ':' then some ([], cs) else (splitColon cs).map (fun p => (c :: p.1, p.2))

/-- `bytes(_CHARSET.find(x) for x in payload)`, bitcoinx/cashaddr.py:129-133: `find` gives -1 for
other characters, which `bytes` rejects with `ValueError`. -/
def charsetFind : Str → Res Bytes
  | [] => return []
  | x :: payload =>
    if x ∈ CHARSET then do
      let rest ← charsetFind payload
      return UInt8.ofNat (CHARSET.idxOf x) :: rest
    else .error .valueError

/-- `_decode_payload(addr)`, bitcoinx/cashaddr.py:103-142. -/
def decode_payload (C : PyCase) (addr : Str) : Res (Str × Bytes) :=
  let lower := C.lower addr
  if lower ≠ addr ∧ C.upper addr ≠ addr then .error .valueError
  else match splitColon lower with
    | none => .error .valueError
    | some (pre, payload) =>
      if pre = [] then .error .valueError
      else if ¬ pre.all (fun x => decide (33 ≤ x.toNat) && decide (x.toNat ≤ 126)) then
        .error .valueError
      else if ¬ (8 ≤ payload.length ∧ payload.length ≤ 124) then .error .valueError
      else do
        let data ← charsetFind payload
        if polymod (prefix_expand pre ++ data) ≠ 0 then .error .valueError
        else
          let pre := if lower ≠ addr then C.upper pre else pre
          return (pre, dropEnd data 8)

/-- `PUBKEY_TYPE`, bitcoinx/cashaddr.py:150. -/
def PUBKEY_TYPE : Nat := 0

/-- `SCRIPT_TYPE`, bitcoinx/cashaddr.py:151. -/
def SCRIPT_TYPE : Nat := 1

/-- `decode(address)`, bitcoinx/cashaddr.py:154-188, for a string.  `payload[-1]` and `decoded[0]`
are `IndexError` if there is no such element. -/
def decode (C : PyCase) (address : Str) : Res (Str × Nat × Bytes) := do
  let (pre, payload) ← decode_payload C address
  let extrabits := payload.length * 5 % 8
  if extrabits ≥ 5 then .error .valueError
  else match payload.getLast? with
    | none => .error .indexError
    | some last =>
      if last.toNat &&& ((1 <<< extrabits) - 1) ≠ 0 then .error .valueError
      else match convertbits payload 5 8 false with
        | [] => .error .indexError
        | version :: addr_hash =>
          let size := (version.toNat &&& 0x03) * 4 + 20
          let size := if version.toNat &&& 0x04 ≠ 0 then size <<< 1 else size
          if size ≠ addr_hash.length then .error .valueError
          else
            let kind := version.toNat >>> 3
            if kind ≠ SCRIPT_TYPE ∧ kind ≠ PUBKEY_TYPE then .error .valueError
            else return (pre, kind, addr_hash)

end cashaddr

end Bitcoinx
