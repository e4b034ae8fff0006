import Verif.Model.Chain

/-! # `required_bits` without a timestamp -/

namespace Bitcoinx

/-- `required_bits(headers, chain, height, timestamp)`, bitcoinx/work.py:142-187, as `Headers.required_bits` calls it
with its default `timestamp=None`, bitcoinx/chain.py:481-484.  `required_bits_mainnet` ignores it; `_required_bits_testnet`
subtracts a number from it, bitcoinx/work.py:164-166, after it has read the prior header and before anything else. -/
def ChainView.required_bits_opt (v : ChainView) (height : Int) (timestamp : Option Int) : Res Int :=
  match timestamp, v.coin.required_bits with
  | some timestamp, _ => v.required_bits height timestamp
  | none, .mainnet => v.required_bits_mainnet height
  | none, _ => do
    let prior_raw_header ← v.raw_header_at_height (height - 1)
    let _ ← header_timestamp prior_raw_header
    .error .typeError

/-- `Headers.required_bits(chain, height, timestamp=None)`, bitcoinx/chain.py:481-484. -/
def Headers.required_bits_opt (s : Headers) (chain : Nat) (height : Int) (timestamp : Option Int := none) : Res Int :=
  (s.view chain).required_bits_opt height timestamp

end Bitcoinx
