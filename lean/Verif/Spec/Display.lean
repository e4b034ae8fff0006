import Verif.Model.Bip32
import Verif.Model.Tx
import Verif.Spec.Bytes
import Verif.Spec.Text

/-! # Specification of printed forms -/

namespace Bitcoinx.Spec

/-- A text of an integer: digits without a leading zero, after a minus sign if it is negative. -/
def IntText (alphabet t : Str) (n : Int) : Prop :=
  ∃ digits, digits ≠ [] ∧ numeral alphabet digits = some n.natAbs ∧ (digits.head? = some '0' → digits = ['0']) ∧
    t = if n < 0 then '-' :: digits else digits

/-- A text of bytes: two digits for each, together the number of the bytes from the first. -/
def BytesText (t : Str) (b : Bytes) : Prop := t.length = 2 * b.length ∧ numeral hexAlphabet t = some (beValue b)

/-- The text of a header: its fields by name, hashes as they are displayed; all but the version in decimal. -/
def HeaderText (t : Str) (h : Header) : Prop :=
  ∃ v p m s b n x g, t = List.flatten ["Header(version=0x".toList, v, ", prev_hash=".toList, p, ", merkle_root=".toList, m,
      ", timestamp=".toList, s, ", bits=0x".toList, b, ", nonce=".toList, n, ", hash=".toList, x,
      ", height=".toList, g, ")".toList] ∧
    IntText hexAlphabet v h.version ∧ BytesText p h.prev_hash.reverse ∧ BytesText m h.merkle_root.reverse ∧
    IntText decAlphabet s h.timestamp ∧ IntText decAlphabet b h.bits ∧ IntText decAlphabet n h.nonce ∧
    BytesText x h.hash.reverse ∧ IntText decAlphabet g h.height

/-- The text of an input. -/
def InputText (t : Str) (i : TxInput) : Prop :=
  ∃ p n s q, t = List.flatten ["TxInput(prev_hash=\"".toList, p, "\", prev_idx=".toList, n, ", script_sig=\"".toList, s,
      "\", sequence=".toList, q, ")".toList] ∧
    BytesText p i.prev_hash.reverse ∧ IntText decAlphabet n i.prev_idx ∧ BytesText s i.script_sig ∧
    IntText decAlphabet q i.sequence

/-- The text of an output. -/
def OutputText (t : Str) (o : TxOutput) : Prop :=
  ∃ v s, t = List.flatten ["TxOutput(value=".toList, v, ", script_pubkey=\"".toList, s, "\")".toList] ∧
    IntText decAlphabet v o.value ∧ BytesText s o.script_pubkey

/-- The text of a derivation. -/
def DerivationText (t : Str) (d : BIP32Derivation) : Prop :=
  ∃ c n e f, t = List.flatten ["BIP32Derivation(chain_code=bytes.fromhex(\"".toList, c, "\"), n=".toList, n,
      ", depth=".toList, e, ", parent_fingerprint=bytes.fromhex(\"".toList, f, "\"))".toList] ∧
    BytesText c d.chain_code ∧ IntText decAlphabet n d.n ∧ IntText decAlphabet e d.depth ∧
    BytesText f d.parent_fingerprint

end Bitcoinx.Spec
