import Verif.Model.Mnemonic
import Verif.Spec.Bytes
import Verif.Spec.Text

/-! # What mnemonics are -/

namespace Bitcoinx.Spec

/-- A normalized word: at least one character, no white space, decomposed and in lower case. -/
structure Word (U : PyUni) (w : Str) : Prop where
  ne_nil : w ≠ []
  no_space : ∀ c ∈ w, U.text.isspace c = false
  nfkd : U.nfkd w = w
  lower : U.case.lower w = w

/-- A list of distinct normalized words. -/
structure Wordlist (U : PyUni) (l : List Str) : Prop where
  nodup : l.Nodup
  word : ∀ w ∈ l, Word U w

/-- The lowest `width` bits of a number, the most significant first. -/
def numberBits (width n : Nat) : List Bool := (List.range width).map (fun k => n.testBit (width - 1 - k))

/-- The bits of a byte string. -/
def bytesBits (b : Bytes) : List Bool := b.flatMap (fun x => numberBits 8 x.toNat)

/-- BIP39: the entropy, followed by as many bits of its hash as it has groups of 32 bits, is the sequence of word
numbers of eleven bits. -/
def Bip39 (H : Hashes) (entropy : Bytes) (indices : List Nat) : Prop :=
  (∀ i ∈ indices, i < 2048) ∧ indices.flatMap (numberBits 11) =
    bytesBits entropy ++ (bytesBits (H.sha256 entropy)).take (entropy.length / 4)

/-- The sizes of entropy in bytes. -/
def Bip39Size (n : Nat) : Prop := ∃ k, 4 ≤ k ∧ k ≤ 8 ∧ n = 4 * k

/-- The text of the words with the given numbers. -/
def Words (l : List Str) (indices : List Nat) (text : Str) : Prop :=
  ∃ words, List.Forall₂ (fun i w => l[i]? = some w) indices words ∧ text = joinStr [' '] words

/-- Hexadecimal digits of both cases. -/
def hexDigits : Str := "0123456789abcdefABCDEF".toList

/-- Three numbers of old Electrum words for a number of 32 bits: the digits to base 1626, the least significant first,
each after the first added to the number before it. -/
def OldTriple (value : Nat) (indices : List Nat) : Prop :=
  ∃ d1 d2 d3, d1 < 1626 ∧ d2 < 1626 ∧ d3 < 1626 ∧ value = d1 + 1626 * d2 + 1626 ^ 2 * d3 ∧
    indices = [d1, (d1 + d2) % 1626, (d1 + d2 + d3) % 1626]

/-- An old Electrum mnemonic and its seed: each group of eight hexadecimal digits is three words. -/
def OldSeed (indices : List Nat) (seed : Str) : Prop :=
  ∃ values : List Nat, ∃ triples : List (List Nat), ∃ texts : List Str,
    List.Forall₂ OldTriple values triples ∧ (∀ v ∈ values, v < 2 ^ 32) ∧
    List.Forall₂ (fun v t => t.length = 8 ∧ numeral hexAlphabet t = some v) values texts ∧
    indices = triples.flatten ∧ seed = texts.flatten

/-- RFC 8018, section 5.2: the outputs of the pseudorandom function for the first block, each the function of the one
before. -/
def prfChain (prf : Bytes → Bytes) (salt : Bytes) : Nat → Bytes
  | 0 => prf (salt ++ beBytes 4 1)
  | j + 1 => prf (prfChain prf salt j)

/-- RFC 8018: a key of 64 bytes, the exclusive or of `count` outputs. -/
def Pbkdf2 (prf : Bytes → Bytes) (salt : Bytes) (count : Nat) (key : Bytes) : Prop :=
  key.length = 64 ∧ ∀ k < 64,
    key.getD k 0 = ((List.range count).map (fun j => (prfChain prf salt j).getD k 0)).foldl (· ^^^ ·) 0

/-- BIP39: the seed of a sentence and a passphrase, both as they are encoded. -/
def Bip39Seed (H : Hashes) (sentence passphrase seed : Bytes) : Prop :=
  Pbkdf2 (H.hmac_sha512 sentence) ([0x6d, 0x6e, 0x65, 0x6d, 0x6f, 0x6e, 0x69, 0x63] ++ passphrase) 2048 seed

/-- Words separated by single spaces. -/
inductive Sentence : List Str → Str → Prop
  | nil : Sentence [] []
  | one (w : Str) : Sentence [w] w
  | more (w : Str) (ws : List Str) (t : Str) : ws ≠ [] → Sentence ws t → Sentence (w :: ws) (w ++ ' ' :: t)

end Bitcoinx.Spec
