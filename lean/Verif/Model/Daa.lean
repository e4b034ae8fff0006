import Verif.Model.Coin

/-! # Model of the difficulty rules of `bitcoinx/work.py`

The rules see the headers object only through queries about one chain.  A `ChainView` is the pair
(headers object, chain) reduced to the function `raw_header_at_height(chain, ·)` on which all the
queries used here are built in bitcoinx/chain.py. -/

namespace Bitcoinx

/-- A headers object restricted to one chain. -/
structure ChainView where
  coin : Coin
  H : Hashes
  /-- `headers.raw_header_at_height(chain, height)`, bitcoinx/chain.py:408-409. -/
  raw_header_at_height : Int → Res Bytes

/-- `range(a, b)`. -/
def pyRange (a b : Int) : List Int := (List.range (b - a).toNat).map fun (k : Nat) => a + (k : Int)

/-- `range(a, b, -1)`. -/
def pyRangeDown (a b : Int) : List Int := (List.range (a - b).toNat).map fun (k : Nat) => a - (k : Int)

/-- A list comprehension whose element expression may raise: evaluated in order, stops at the first
exception. -/
def mapE {α β : Type} (f : α → Res β) : List α → Res (List β)
  | [] => .ok []
  | x :: xs => do
    let y ← f x
    let ys ← mapE f xs
    return y :: ys

/-- Insertion of `x` into an ascending list. -/
def insertSorted (x : Int) : List Int → List Int
  | [] => [x]
  | y :: ys => if x ≤ y then x :: y :: ys else y :: insertSorted x ys

/-- Python `sorted` on integers (any sorting algorithm gives the same list). -/
def sorted : List Int → List Int
  | [] => []
  | x :: xs => insertSorted x (sorted xs)

namespace ChainView

/-- `Headers.header_at_height(chain, height)`, bitcoinx/chain.py:411-413. -/
def header_at_height (v : ChainView) (height : Int) : Res Header := do
  let raw_header ← v.raw_header_at_height height
  deserialized_header v.H raw_header height

/-- `Headers.chainwork_range(chain, start_height, end_height)`, bitcoinx/chain.py:396-402. -/
def chainwork_range (v : ChainView) (start_height end_height : Int) : Res Nat := do
  let works ← mapE (fun h => do
    let raw ← v.raw_header_at_height h
    header_work raw) (pyRange start_height end_height)
  return works.sum

/-- `Headers.median_time_past(chain, height)`, bitcoinx/chain.py:473-479. -/
def median_time_past (v : ChainView) (height : Int) : Res Int := do
  let timestamps ← mapE (fun h => do
    let raw ← v.raw_header_at_height h
    header_timestamp raw) (pyRangeDown height (max (-1) (height - 11)))
  match (sorted timestamps)[timestamps.length / 2]? with
  | some t => return t
  | none => .error .indexError

/-- `_required_bits_fortnightly`, bitcoinx/work.py:80-96. -/
def required_bits_fortnightly (v : ChainView) (height : Int) : Res Int :=
  if height = 0 then .ok v.coin.genesis_bits
  else do
    let prev ← v.header_at_height (height - 1)
    if height % 2016 ≠ 0 then return prev.bits
    else
      let prior ← v.header_at_height (height - 2016)
      -- Off-by-one with prev.timestamp.  Constrain the actual time.
      let period := prev.timestamp - prior.timestamp
      let target_period : Int := 2016 * 600
      let adj_period := min (max period (target_period / 4)) (target_period * 4)
      let prior_target ← bits_to_target prev.bits
      let new_target := ((prior_target : Int) * adj_period) / target_period
      let bits ← target_to_bits (min new_target v.coin.max_target)
      return (bits : Int)

/-- `maybe_swap(m, n)` on two positions: the pair in its new order, bitcoinx/work.py:103-105. -/
def maybe_swap (m n : Header) : Header × Header :=
  if m.timestamp > n.timestamp then (n, m) else (m, n)

/-- `median_prior_header(ref_height)`, bitcoinx/work.py:101-111. -/
def median_prior_header (v : ChainView) (ref_height : Int) : Res Header := do
  let x0 ← v.header_at_height (ref_height - 3)
  let x1 ← v.header_at_height (ref_height - 2)
  let x2 ← v.header_at_height (ref_height - 1)
  let (x0, x2) := maybe_swap x0 x2
  let (_, x1) := maybe_swap x0 x1
  let (x1, _) := maybe_swap x1 x2
  return x1

/-- `_required_bits_DAA`, bitcoinx/work.py:99-122. -/
def required_bits_DAA (v : ChainView) (height : Int) : Res Int := do
  let start ← v.median_prior_header (height - 144)
  let end_ ← v.median_prior_header height
  let period_work ← v.chainwork_range (start.height + 1) (end_.height + 1)
  let period_time := min (max (end_.timestamp - start.timestamp) 43200) 172800
  let Wn := ((period_work : Int) * 600) / period_time
  if Wn = 0 then .error .zeroDivisionError
  else
    let new_target := (2 ^ 256 : Int) / Wn - 1
    let bits ← target_to_bits (min new_target v.coin.max_target)
    return (bits : Int)

/-- `_required_bits_EDA`, bitcoinx/work.py:125-139. -/
def required_bits_EDA (v : ChainView) (height : Int) : Res Int := do
  let bits ← v.required_bits_fortnightly height
  if height % 2016 = 0 then return bits
  else
    let mtp1 ← v.median_time_past (height - 1)
    let mtp7 ← v.median_time_past (height - 7)
    let mtp_diff := mtp1 - mtp7
    if mtp_diff < 12 * 3600 then return bits
    else
      -- Increase target by 25% (reducing difficulty by 20%).
      let new_target ← bits_to_target bits
      let new_target := new_target + new_target >>> 2
      let bits ← target_to_bits (min (new_target : Int) v.coin.max_target)
      return (bits : Int)

/-- `required_bits_mainnet`, bitcoinx/work.py:142-149. -/
def required_bits_mainnet (v : ChainView) (height : Int) : Res Int :=
  if height < 478558 then v.required_bits_fortnightly height
  else if height ≤ 504031 then v.required_bits_EDA height
  else v.required_bits_DAA height

/-- The loop of `prior_non_special_bits`, bitcoinx/work.py:153-161, over the given heights.
Falling through the loop returns `None` in the code ("impossible to fall through here"); the model
raises `TypeError` there, and C18 proves it unreachable. -/
def prior_non_special_loop (v : ChainView) : List Int → Res Int
  | [] => .error .typeError
  | test_height :: rest => do
    let raw ← v.raw_header_at_height test_height
    let bits ← header_bits raw
    if test_height % 2016 = 0 ∨ bits ≠ v.coin.genesis_bits then return bits
    else prior_non_special_loop v rest

/-- `prior_non_special_bits()`, bitcoinx/work.py:153-161. -/
def prior_non_special_bits (v : ChainView) (height : Int) : Res Int :=
  prior_non_special_loop v (pyRangeDown (height - 1) (-1))

/-- `_required_bits_testnet`, bitcoinx/work.py:152-177. -/
def required_bits_testnet_ (v : ChainView) (height timestamp daa_height : Int)
    (has_daa_minpow : Bool) : Res Int := do
  let prior_raw_header ← v.raw_header_at_height (height - 1)
  let prior_timestamp ← header_timestamp prior_raw_header
  let is_slow := decide (timestamp - prior_timestamp > 20 * 60)
  if height ≤ daa_height then
    -- Note: testnet did not use the EDA
    if height % 2016 = 0 then v.required_bits_fortnightly height
    else if is_slow then return v.coin.genesis_bits
    else v.prior_non_special_bits height
  else
    if has_daa_minpow && is_slow then return v.coin.genesis_bits
    else v.required_bits_DAA height

/-- `required_bits_testnet`, bitcoinx/work.py:180-181. -/
def required_bits_testnet (v : ChainView) (height timestamp : Int) : Res Int :=
  v.required_bits_testnet_ height timestamp 1188697 true

/-- `required_bits_scaling_testnet`, bitcoinx/work.py:184-187. -/
def required_bits_scaling_testnet (v : ChainView) (height timestamp : Int) : Res Int :=
  v.required_bits_testnet_ height timestamp 2200 false

/-- `Headers.required_bits(chain, height, timestamp)`, bitcoinx/chain.py:481-484. -/
def required_bits (v : ChainView) (height timestamp : Int) : Res Int :=
  match v.coin.required_bits with
  | .mainnet => v.required_bits_mainnet height
  | .testnet => v.required_bits_testnet height timestamp
  | .scaling_testnet => v.required_bits_scaling_testnet height timestamp

end ChainView

end Bitcoinx
