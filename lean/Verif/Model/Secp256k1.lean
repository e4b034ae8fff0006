import Verif.Lemmas.FieldPrime

/-! # The functions of libsecp256k1 written out

The library is not part of /repo; bitcoinx/keys.py, bitcoinx/signature.py and bitcoinx/bip32.py call
it through `electrumsv_secp256k1`.  `Model/Secp.lean` takes it as a parameter with laws.  Here are the
functions as the library's sources define them, on natural numbers; `Props/Secp256k1.lean` proves the
laws of them.  Simplifications: points are in affine coordinates, and the nonces tried when signing
are a parameter (the library derives them from the message and the secret). -/

namespace Bitcoinx.K1

/-- A point in affine coordinates; `none` is the point at infinity. -/
abbrev Raw := Option (Nat × Nat)

/-- The curve `y² = x³ + 7`. -/
def curveEq (x y : Nat) : Bool := y * y % FIELD == (x * x * x + 7) % FIELD

/-- A point of the curve with reduced coordinates. -/
def valid : Raw → Bool
  | none => true
  | some (x, y) => decide (x < FIELD) && decide (y < FIELD) && curveEq x y

/-- The inverse modulo a prime below `2 ^ 256` (zero for zero). -/
def inv (p a : Nat) : Nat := powMod p a 256 (p - 2)

/-- The negative of a point. -/
def neg : Raw → Raw
  | none => none
  | some (x, y) => some (x, (FIELD - y) % FIELD)

/-- The third point of the line of slope `l` through two points, reflected. -/
def chord (l x1 y1 x2 : Nat) : Raw :=
  let x3 := (l * l + (FIELD - x1) + (FIELD - x2)) % FIELD
  some (x3, (l * (x1 + (FIELD - x3)) + (FIELD - y1)) % FIELD)

/-- The sum of two points. -/
def add : Raw → Raw → Raw
  | none, q => q
  | p, none => p
  | some (x1, y1), some (x2, y2) =>
    if x1 = x2 then
      if (y1 + y2) % FIELD = 0 then none
      else chord (3 * x1 * x1 * inv FIELD (2 * y1) % FIELD) x1 y1 x2
    else chord ((y1 + (FIELD - y2)) * inv FIELD (x1 + (FIELD - x2)) % FIELD) x1 y1 x2

/-- The multiple of a point by doubling and adding; `k` bounds the number of bits. -/
def mulLoop : Nat → Nat → Raw → Raw
  | 0, _, _ => none
  | k + 1, n, p =>
    if n % 2 = 1 then add p (mulLoop k (n / 2) (add p p)) else mulLoop k (n / 2) (add p p)

/-- The multiple of a point. -/
def mul (n : Nat) (p : Raw) : Raw := mulLoop (n.log2 + 1) n p

/-- The generator. -/
def G : Raw := some
  (0x79be667ef9dcbbac55a06295ce870b07029bfcdb2dce28d959f2815b16f81798,
   0x483ada7726a3c4655da4fbfc0e1108a8fd17b448a68554199c47d08ffb10d4b8)

/-- The point with the given first coordinate and parity of the second, if there is one. -/
def lift (x : Nat) (odd : Bool) : Option Raw :=
  let y := powMod FIELD ((x * x * x + 7) % FIELD) 256 ((FIELD + 1) / 4)
  if x < FIELD ∧ curveEq x y = true then
    some (some (x, if decide (y % 2 = 1) = odd then y else (FIELD - y) % FIELD))
  else none

/-- `secp256k1_ec_pubkey_serialize`. -/
def serialize (compressed : Bool) : Raw → Bytes
  | none => if compressed then zeros 33 else 4 :: zeros 64
  | some (x, y) =>
    if compressed then (if y % 2 = 1 then 3 else 2) :: beBytes 32 x
    else 4 :: (beBytes 32 x ++ beBytes 32 y)

/-- `secp256k1_ec_pubkey_parse`: 33 bytes beginning with 2 or 3, or 65 bytes beginning with 4, 6 or 7,
of which 6 and 7 also tell the parity of the second coordinate. -/
def parse (b : Bytes) : Option Raw :=
  match b with
  | [] => none
  | h :: t =>
    if t.length = 32 ∧ (h = 2 ∨ h = 3) then lift (be_bytes_to_int t) (decide (h = 3))
    else if t.length = 64 ∧ (h = 4 ∨ h = 6 ∨ h = 7) then
      let x := be_bytes_to_int (t.take 32)
      let y := be_bytes_to_int (t.drop 32)
      if x < FIELD ∧ y < FIELD ∧ curveEq x y = true ∧ (h = 4 ∨ decide (y % 2 = 1) = decide (h = 7)) then
        some (some (x, y))
      else none
    else none

/-- Half of the order; `s` is high above it. -/
def HALF_ORDER : Nat := CURVE_ORDER / 2

/-- The compact form of a signature. -/
def compact (r s : Nat) : Bytes := beBytes 32 r ++ beBytes 32 s

/-- The number signed for a digest. -/
def scalar (msg : Bytes) : Nat := be_bytes_to_int msg % CURVE_ORDER

/-- `secp256k1_ecdsa_sig_sign` with a nonce: `r`, the low `s` and the recovery id.  Fails if `r` or
`s` is zero. -/
def signWith (d z k : Nat) : Option (Nat × Nat × Nat) :=
  match mul k G with
  | none => none
  | some (x, y) =>
    let r := x % CURVE_ORDER
    let s := inv CURVE_ORDER k * (z + r * d) % CURVE_ORDER
    let recid := (if CURVE_ORDER ≤ x then 2 else 0) + y % 2
    if k % CURVE_ORDER = 0 ∨ r = 0 ∨ s = 0 then none
    else if s > HALF_ORDER then some (r, CURVE_ORDER - s, recid / 2 * 2 + (1 - recid % 2))
    else some (r, s, recid)

/-- The first nonce that works.  The numbers 1 and 2 stand for all nonces that follow the ones
given: the library would go on for ever, one of the two works. -/
def signFirst (d z : Nat) : List Nat → Nat × Nat × Nat
  | [] => (signWith d z 1).getD ((signWith d z 2).getD (0, 0, 0))
  | k :: ks =>
    match signWith d z k with
    | some sig => sig
    | none => signFirst d z ks

/-- `secp256k1_ecdsa_sign_recoverable(msg, secret)`. -/
def sign_recoverable (nonces : Bytes → Bytes → List Nat) (msg secret : Bytes) : Bytes × Nat :=
  let (r, s, recid) := signFirst (be_bytes_to_int secret) (scalar msg) (nonces msg secret)
  (compact r s, recid)

/-- `secp256k1_ecdsa_sign(msg, secret)`. -/
def sign (nonces : Bytes → Bytes → List Nat) (msg secret : Bytes) : Bytes :=
  (sign_recoverable nonces msg secret).1

/-- `secp256k1_ecdsa_verify(sig, msg, public_key)`: a high `s` is refused. -/
def verify (sig msg : Bytes) (p : Raw) : Bool :=
  let r := be_bytes_to_int (sig.take 32)
  let s := be_bytes_to_int (sig.drop 32)
  if s > HALF_ORDER ∨ r = 0 ∨ s = 0 then false
  else
    let w := inv CURVE_ORDER s
    match add (mul (w * r % CURVE_ORDER) p) (mul (w * scalar msg % CURVE_ORDER) G) with
    | none => false
    | some (x, _) => decide (x = r) || (decide (x = r + CURVE_ORDER) && decide (r + CURVE_ORDER < FIELD))

/-- `secp256k1_ecdsa_recover(sig, recid, msg)`. -/
def recover (sig : Bytes) (recid : Nat) (msg : Bytes) : Option Raw :=
  let r := be_bytes_to_int (sig.take 32)
  let s := be_bytes_to_int (sig.drop 32)
  if r = 0 ∨ s = 0 then none
  else if recid / 2 % 2 = 1 ∧ FIELD - CURVE_ORDER ≤ r then none
  else
    match lift (if recid / 2 % 2 = 1 then r + CURVE_ORDER else r) (decide (recid % 2 = 1)) with
    | none => none
    | some R =>
      let w := inv CURVE_ORDER r
      let u := (CURVE_ORDER - w * scalar msg % CURVE_ORDER) % CURVE_ORDER
      match add (mul (w * s % CURVE_ORDER) R) (mul u G) with
      | none => none
      | q => some q

/-- `secp256k1_der_read_len` for what it accepts in a signature: lengths below 128 in one byte,
longer ones with a count of length bytes; the rest of the input. -/
def derLen : Bytes → Option (Nat × Bytes)
  | [] => none
  | b :: rest =>
    let n := b.toNat
    if n = 255 then none
    else if n < 128 then some (n, rest)
    else if n = 128 then none
    else
      let k := n - 128
      if rest.length < k ∨ rest.headD 0 = 0 ∨ 8 < k then none
      else
        let len := be_bytes_to_int (rest.take k)
        let rest := rest.drop k
        if rest.length < len ∨ len < 128 then none else some (len, rest)

/-- `secp256k1_der_parse_integer`: the number, zero if it is negative or not below the order, and the
rest of the input. -/
def derInt : Bytes → Option (Nat × Bytes)
  | 2 :: rest =>
    match derLen rest with
    | none => none
    | some (n, rest) =>
      if n = 0 ∨ rest.length < n then none
      else
        let body := rest.take n
        let first := (body.headD 0).toNat
        let second := ((body.drop 1).headD 0).toNat
        if first = 0 ∧ 1 < n ∧ second < 128 then none
        else if first = 255 ∧ 1 < n ∧ 128 ≤ second then none
        else
          let v := be_bytes_to_int body
          some (if 128 ≤ first ∨ CURVE_ORDER ≤ v then 0 else v, rest.drop n)
  | _ => none

/-- `secp256k1_ecdsa_signature_parse_der`, giving the compact form. -/
def parse_der (b : Bytes) : Option Bytes :=
  match b with
  | 48 :: rest =>
    match derLen rest with
    | none => none
    | some (n, rest) =>
      if n ≠ rest.length then none
      else
        match derInt rest with
        | none => none
        | some (r, rest) =>
          match derInt rest with
          | some (s, []) => some (compact r s)
          | _ => none
  | _ => none

/-- The bytes of a number in DER: the shortest form that is not negative. -/
def derBody : Bytes → Bytes
  | [] => [0]
  | b :: rest => if b = 0 then derBody rest else if b.toNat < 128 then b :: rest else 0 :: b :: rest

/-- `secp256k1_ecdsa_signature_serialize_der` of a signature in compact form. -/
def serialize_der (sig : Bytes) : Bytes :=
  let r := derBody (sig.take 32)
  let s := derBody ((sig.drop 32).take 32)
  48 :: UInt8.ofNat (4 + r.length + s.length) ::
    (2 :: UInt8.ofNat r.length :: r ++ 2 :: UInt8.ofNat s.length :: s)

end Bitcoinx.K1
