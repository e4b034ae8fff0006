import Verif.Model.Bip32
import Verif.Model.ElectrumOld

/-! # bitcoinx/mnemonic.py -/

namespace Bitcoinx

/-- The functions of Python's text type that mnemonics use: `str.split()`, `str.isspace()` and so on, `str.lower()`
and `unicodedata.normalize('NFKD', text)`.  Both of the latter leave a space alone and treat what is before and after
it separately: a space has no decomposition, is not reordered, and is neither cased nor case-ignorable.  A
character has a lower case, of one or more characters, which are not white space if it is not. -/
structure PyUni where
  text : PyText
  case : PyCase
  nfkd : Str → Str
  nfkd_ascii : ∀ s, (∀ c ∈ s, c.toNat < 128) → nfkd s = s
  nfkd_space : ∀ a b, nfkd (a ++ ' ' :: b) = nfkd a ++ ' ' :: nfkd b
  lower_space : ∀ a b, case.lower (a ++ ' ' :: b) = case.lower a ++ ' ' :: case.lower b
  lower_ne_nil : ∀ s, s ≠ [] → case.lower s ≠ []
  lower_word : ∀ w, w ≠ [] → (∀ c ∈ w, text.isspace c = false) →
    case.lower w ≠ [] ∧ ∀ c ∈ case.lower w, text.isspace c = false

/-- The lower case of a character is white space if the character is. -/
theorem isAsciiSplit_toLower (c : Char) (h : isAsciiSplit c = false) : isAsciiSplit c.toLower = false := by
  by_cases hc : c.toNat < 128
  · have : ∀ n : Fin 128, isAsciiSplit (Char.ofNat n.1) = false → isAsciiSplit (Char.ofNat n.1).toLower = false := by
      decide
    have := this ⟨c.toNat, hc⟩
    simp only [Char.ofNat_toNat] at this
    exact this h
  · have : c.toLower = c := by
      unfold Char.toLower
      rw [dif_neg]
      intro ⟨_, h2⟩
      have : c.toNat ≤ 'Z'.toNat := h2
      have : 'Z'.toNat = 90 := rfl
      omega
    rw [this, h]

/-- An instance that knows only ASCII, for the examples. -/
def asciiUni : PyUni where
  text := asciiText
  case := asciiCase
  nfkd s := s
  nfkd_ascii _ _ := rfl
  nfkd_space _ _ := rfl
  lower_space a b := by
    show (a ++ ' ' :: b).map Char.toLower = a.map Char.toLower ++ ' ' :: b.map Char.toLower
    rw [List.map_append, List.map_cons]
    rfl
  lower_ne_nil s hs := by simpa [asciiCase] using hs
  lower_word w hw h := by
    refine ⟨by simpa [asciiCase] using hw, fun c hc => ?_⟩
    obtain ⟨d, hd, rfl⟩ := List.mem_map.1 hc
    exact isAsciiSplit_toLower d (h d hd)

/-- `text.strip()`. -/
def PyText.strip (P : PyText) (text : Str) : Str :=
  ((text.dropWhile P.isspace).reverse.dropWhile P.isspace).reverse

/-- `items.index(item)`. -/
def listIndex (items : List Str) (item : Str) : Res Nat :=
  match items with
  | [] => .error .valueError
  | x :: xs => if x = item then .ok 0 else do return (← listIndex xs item) + 1

/-- `items[index]` for a non-negative index. -/
def listItem (items : List Str) (index : Nat) : Res Str :=
  match items[index]? with
  | some x => .ok x
  | none => .error .indexError

/-- `_normalize_text(text)`, bitcoinx/mnemonic.py:326-330. -/
def normalize_text (U : PyUni) (text : Str) : Str := U.nfkd text

/-- `Wordlists._text_to_wordlist(text, expected_count)`, bitcoinx/mnemonic.py:57-73. -/
def text_to_wordlist (U : PyUni) (text : Str) (expected_count : Option Nat) : Res (List Str) :=
  let text := normalize_text U text
  let lines := (splitChar '\n' text).map U.text.strip
  let words := (lines.filter (fun line => line ≠ [] && !startsWith ['#'] line)).map U.case.lower
  if words.any (fun word => ' ' ∈ word) then .error .syntaxError
  else if expected_count.any (fun count => words.length ≠ count) then .error .syntaxError
  else .ok words

/-! ## The cache of word lists -/

/-- `Wordlists.cache`, bitcoinx/mnemonic.py:54, by name of file.  Simplification: the lists are values; a caller that
changes the list it was given changes the one in the cache. -/
abbrev WordlistCache := Str → Option (List Str)

namespace Wordlists

/-- `Wordlists._read_wordlist(filename, expected_count)`, bitcoinx/mnemonic.py:75-79, where `read` gives the texts
of the data files, or the exception of opening or decoding them. -/
def read_wordlist (U : PyUni) (read : Str → Res Str) (filename : Str) (expected_count : Option Nat) : Res (List Str) := do
  text_to_wordlist U (← read filename) expected_count

/-- `Wordlists._cached_wordlist(filename, expected_count)`, bitcoinx/mnemonic.py:81-86: the result, and the
cache afterwards. -/
def cached_wordlist (U : PyUni) (read : Str → Res Str) (cache : WordlistCache) (filename : Str)
    (expected_count : Option Nat) : Res (List Str) × WordlistCache :=
  let result := (cache filename).getD []
  if result = [] then
    match read_wordlist U read filename expected_count with
    | .ok words => (.ok words, fun name => if name = filename then some words else cache name)
    | .error e => (.error e, cache)
  else (.ok result, cache)

/-- `'electrum_old.txt'`. -/
def electrum_old : Str := "electrum_old.txt".toList

/-- `Wordlists.original_electrum_wordlist()`, bitcoinx/mnemonic.py:88-90. -/
def original_electrum_wordlist (U : PyUni) (read : Str → Res Str) (cache : WordlistCache) :
    Res (List Str) × WordlistCache :=
  cached_wordlist U read cache electrum_old (some 1626)

/-- `Wordlists.bip39_wordlist(filename)`, bitcoinx/mnemonic.py:92-94. -/
def bip39_wordlist (U : PyUni) (read : Str → Res Str) (cache : WordlistCache) (filename : Str) :
    Res (List Str) × WordlistCache :=
  cached_wordlist U read cache filename (some 2048)

end Wordlists

/-! ## The key derivation of `hashlib` -/

/-- The rounds after the first of `hashlib.pbkdf2_hmac`, given the last output of the pseudorandom function and the sum
of all of them. -/
def pbkdf2Rounds (prf : Bytes → Bytes) : Nat → Bytes → Bytes → Bytes
  | 0, _, key => key
  | n + 1, prev, key => pbkdf2Rounds prf n (prf prev) (List.zipWith (· ^^^ ·) key (prf prev))

/-- `hashlib.pbkdf2_hmac('sha512', password, salt, iterations)`, which bitcoinx/mnemonic.py:152 calls: a key of the
size of one digest.  hashlib is not part of /repo. -/
def pbkdf2_hmac_sha512 (H : Hashes) (password salt : Bytes) (iterations : Nat) : Bytes :=
  let first := H.hmac_sha512 password (salt ++ [0, 0, 0, 1])
  pbkdf2Rounds (H.hmac_sha512 password) (iterations - 1) first first

namespace BIP39Mnemonic

/-- The loop of `BIP39Mnemonic._from_entropy`, bitcoinx/mnemonic.py:113-115: `parts`. -/
def partsLoop : Nat → Nat → List Nat
  | 0, _ => []
  | m + 1, entropy_cs => entropy_cs % 2048 :: partsLoop m (entropy_cs / 2048)

/-- `BIP39Mnemonic._from_entropy(entropy, wordlist)`, bitcoinx/mnemonic.py:104-117. -/
def from_entropy (H : Hashes) (entropy : Bytes) (wordlist : List Str) : Res Str :=
  let size := entropy.length
  let cs_bits := size / 4
  if 256 < cs_bits then .error .valueError -- negative shift count
  else do
    let checksum := be_bytes_to_int (H.sha256 entropy) >>> (256 - cs_bits)
    let entropy_cs := be_bytes_to_int entropy * (1 <<< cs_bits) + checksum
    let m_len := 3 * size / 4
    return joinStr [' '] (← mapAll (listItem wordlist) (partsLoop m_len entropy_cs).reverse)

/-- `BIP39Mnemonic.generate(wordlist, bits)`, bitcoinx/mnemonic.py:119-136, where `urandom(bits // 8)` is
`random (bits // 8)`. -/
def generate (H : Hashes) (random : Nat → Bytes) (wordlist : List Str) (bits : Nat := 128) : Res Str :=
  if wordlist.length ≠ 2048 then .error .valueError
  else if bits ∉ [128, 160, 192, 224, 256] then .error .valueError
  else from_entropy H (random (bits / 8)) wordlist

/-- `BIP39Mnemonic.normalize(mnemonic)`, bitcoinx/mnemonic.py:138-143. -/
def normalize (U : PyUni) (mnemonic : Str) : Str :=
  U.case.lower (joinStr [' '] (U.text.split (normalize_text U mnemonic)))

/-- `safe_index(word)` in `BIP39Mnemonic.is_valid`, bitcoinx/mnemonic.py:172-176. -/
def safe_index (wordlist : List Str) (word : Str) : Option Nat :=
  match listIndex wordlist word with
  | .ok index => some index
  | .error _ => none

/-- The loop of `BIP39Mnemonic.is_valid`, bitcoinx/mnemonic.py:185-187, over `reversed(parts)`. -/
def entropyLoop : Nat → Nat → List Nat → Nat
  | entropy, _, [] => entropy
  | entropy, mult, part :: parts => entropyLoop (entropy + part * mult) (mult * 2048) parts

/-- `BIP39Mnemonic.is_valid(mnemonic, wordlist)`, bitcoinx/mnemonic.py:154-198. -/
def is_valid (H : Hashes) (U : PyUni) (mnemonic : Str) (wordlist : List Str) : Res Bool :=
  if wordlist.length ≠ 2048 then .error .valueError
  else
    let words := U.text.split (normalize U mnemonic)
    let m_len := words.length
    if m_len ∉ [12, 15, 18, 21, 24] then .ok false
    else
      let bad_words := words.filter (fun word => (safe_index wordlist word).isNone)
      if bad_words ≠ [] then .error (.badWords bad_words)
      else do
        let parts := words.filterMap (safe_index wordlist)
        let entropy := entropyLoop 0 1 parts.reverse
        let ent_bytes := 4 * m_len / 3
        let cs_bits := m_len / 3
        let cs_mod := 1 <<< cs_bits
        let checksum := entropy % cs_mod
        let entropy ← int_to_be_bytes (entropy / cs_mod : Nat) (some ent_bytes)
        let expected_checksum := be_bytes_to_int (H.sha256 entropy) >>> (256 - cs_bits)
        return expected_checksum == checksum

/-- `BIP39Mnemonic.to_seed(mnemonic, passphrase)`, bitcoinx/mnemonic.py:145-152. -/
def to_seed (H : Hashes) (U : PyUni) (mnemonic passphrase : Str) : Bytes :=
  pbkdf2_hmac_sha512 H (utf8 (normalize U mnemonic)) (utf8 "mnemonic".toList ++ utf8 (normalize_text U passphrase)) 2048

end BIP39Mnemonic

/-- The text that `int(text, 16)` parses: if it is not ASCII, characters that are white space or decimal digits are
replaced by the ASCII ones and others by a question mark. -/
def asciiDigits (P : PyText) (text : Str) : Str :=
  text.map (fun c =>
    if c.toNat < 127 then c else if P.isspace c then ' '
    else match P.decimal c with
      | some d => Nat.digitChar d
      | none => '?')

/-- The value of hexadecimal digits with single underscores between them. -/
def hexGroups (text : Str) : Option Nat :=
  let groups := splitChar '_' text
  if groups.all (fun g => g ≠ [] && g.all (fun c => (hexValue c).isSome)) then
    some (groups.flatten.foldl (fun acc c => acc * 16 + (hexValue c).getD 0) 0)
  else none

/-- `int(text, 16)`: white space around, a sign, `0x`, and hexadecimal digits with single underscores. -/
def intBase16 (P : PyText) (text : Str) : Res Int :=
  let text := asciiDigits P text
  let text := ((text.dropWhile isAsciiSpace).reverse.dropWhile isAsciiSpace).reverse
  let negative := text.head? = some '-'
  let text := if text.head? = some '-' ∨ text.head? = some '+' then text.drop 1 else text
  let isPrefixed := text.take 2 = ['0', 'x'] ∨ text.take 2 = ['0', 'X']
  let text := if isPrefixed then (if (text.drop 2).head? = some '_' then text.drop 3 else text.drop 2) else text
  match hexGroups text with
  | some n => .ok (if negative then -(n : Int) else n)
  | none => .error .valueError

/-- `f'{part:08x}'`. -/
def hex08 (part : Nat) : Str := let digits := Nat.toDigits 16 part; List.replicate (8 - digits.length) '0' ++ digits

namespace ElectrumMnemonic

/-- `ElectrumMnemonic.normalize_new(mnemonic)`, bitcoinx/mnemonic.py:247-249. -/
def normalize_new (U : PyUni) (mnemonic : Str) : Str := joinStr [' '] (U.text.split (U.case.lower mnemonic))

/-- `ElectrumMnemonic.normalize_old(mnemonic)`, bitcoinx/mnemonic.py:251-253. -/
def normalize_old (U : PyUni) (mnemonic : Str) : Str := joinStr [' '] (U.text.split (U.case.lower mnemonic))

/-- `parts()` in `ElectrumMnemonic.old_to_hex_seed`, bitcoinx/mnemonic.py:279-286, over the indices that remain. -/
def old_parts (n : Int) : List Nat → Res (List Nat)
  | [] => return []
  | i1 :: i2 :: i3 :: indices => do
    let part : Int := i1 + n * (((i2 - i1 : Int) % n) + n * ((i3 - i2 : Int) % n))
    if part ≥ 4294967296 then .error .valueError
    else return part.toNat :: (← old_parts n indices)
  | _ => .error .valueError -- not enough values to unpack

/-- `ElectrumMnemonic.old_to_hex_seed(mnemonic)`, bitcoinx/mnemonic.py:270-288. -/
def old_to_hex_seed (U : PyUni) (mnemonic : Str) : Res Str :=
  let mnemonic := normalize_old U mnemonic
  let words := U.text.split mnemonic
  if words.length ∉ [12, 24] then .error .valueError
  else do
    let wordlist := original_electrum_wordlist
    let indices ← mapAll (listIndex wordlist) words
    return ((← old_parts wordlist.length indices).map hex08).flatten

/-- One iteration of the loop of `indices` in `ElectrumMnemonic.hex_seed_to_old`, bitcoinx/mnemonic.py:297-304. -/
def old_indices (P : PyText) (n : Int) (chunk : Str) : Res (List Nat) := do
  let value ← intBase16 P chunk
  let i1 := value % n
  let value := value / n
  let i2 := value % n
  let i3 := value / n
  let i2 := (i2 + i1) % n
  let i3 := (i3 + i2) % n
  return [i1.toNat, i2.toNat, i3.toNat]

/-- `ElectrumMnemonic.hex_seed_to_old(hex_seed)`, bitcoinx/mnemonic.py:290-307. -/
def hex_seed_to_old (P : PyText) (hex_seed : Str) : Res Str :=
  if hex_seed.length ∉ [32, 64] then .error .valueError
  else do
    let wordlist := original_electrum_wordlist
    let indices ← mapAll (old_indices P wordlist.length) (← chunks hex_seed 8)
    return joinStr [' '] (← mapAll (listItem wordlist) indices.flatten)

/-- `ElectrumMnemonic.is_valid_old(mnemonic)`, bitcoinx/mnemonic.py:255-268. -/
def is_valid_old (U : PyUni) (mnemonic : Str) : Res Bool :=
  match old_to_hex_seed U mnemonic with
  | .ok _ => .ok true
  | .error e =>
    if e.isValueError then
      match fromhex mnemonic with
      | .ok raw => .ok (raw.length ∈ [16, 32])
      | .error e => if e.isValueError then .ok false else .error e
    else .error e

/-- `ElectrumMnemonic.generate_old_seed(word_count=word_count)`, bitcoinx/mnemonic.py:228-238, where
`urandom(size)` is `random size`. -/
def generate_old_seed (random : Nat → Bytes) (word_count : Nat := 12) : Res Str :=
  if word_count ∉ [12, 24] then .error .valueError else .ok (hex (random (word_count * 4 / 3)))

/-- `ElectrumMnemonic.is_valid_new(mnemonic, prefix)`, bitcoinx/mnemonic.py:240-245. -/
def is_valid_new (H : Hashes) (U : PyUni) (mnemonic pre : Str) : Bool :=
  let mnemonic := U.case.lower (normalize_text U mnemonic)
  let hmac := H.hmac_sha512 (utf8 "Seed version".toList) (utf8 mnemonic)
  startsWith pre (hex hmac)

/-- The loop of `words` in `ElectrumMnemonic._from_entropy`, bitcoinx/mnemonic.py:317-321, for a word list of at least
two words; `fuel` is at least the number of iterations if it is at least `entropy`. -/
def entropyWords (wordlist : List Str) : Nat → Nat → List Str
  | 0, _ => []
  | fuel + 1, entropy =>
    if entropy = 0 then []
    else wordlist.getD (entropy % wordlist.length) [] :: entropyWords wordlist fuel (entropy / wordlist.length)

/-- `ElectrumMnemonic._from_entropy(entropy, wordlist)`, bitcoinx/mnemonic.py:309-323, for a word list of at least two
words, as in `generate_new`.  For a negative number the loop does not end: there is no result. -/
def from_entropy (entropy : Int) (wordlist : List Str) : Option Str :=
  if entropy < 0 then none else some (joinStr [' '] (entropyWords wordlist entropy.toNat entropy.toNat))

/-- `_random_integer(word_count, wordlist_size)`, bitcoinx/mnemonic.py:333-349, given what successive calls of `urandom`
return: value and delta, or nothing if the draws run out first.  The size of the draws, which is
computed with floating point numbers, is not modelled. -/
def random_integer (word_count wordlist_size : Nat) : List Bytes → Option (Int × Int)
  | [] => none
  | draw :: draws =>
    let modulus := wordlist_size ^ word_count
    let min_value := modulus / wordlist_size + 1
    let value := be_bytes_to_int draw % modulus
    if value ≤ min_value then random_integer word_count wordlist_size draws
    else some (value, if value < (min_value + modulus) / 2 then 1 else -1)

/-- `fuel` iterations of the loop of `ElectrumMnemonic.generate_new`, bitcoinx/mnemonic.py:219-225: the mnemonic
returned, or nothing if there was none so far. -/
def search (H : Hashes) (U : PyUni) (wordlist : List Str) (pre : Str) (skip_old : Bool) (delta : Int) :
    Nat → Int → Res (Option Str)
  | 0, _ => .ok none
  | fuel + 1, entropy =>
    match from_entropy entropy wordlist with
    | none => .ok none
    | some mnemonic => do
      if is_valid_new H U mnemonic pre then
        if skip_old then
          if ← is_valid_old U mnemonic then search H U wordlist pre skip_old delta fuel (entropy + delta)
          else return some mnemonic
        else return some mnemonic
      else search H U wordlist pre skip_old delta fuel (entropy + delta)

/-- `ElectrumMnemonic.generate_new(wordlist, prefix=prefix, bits=bits, skip_old=skip_old)`, bitcoinx/mnemonic.py:204-225,
after `fuel` iterations, given the draws of `urandom`.  `word_count` is the value of `ceil(bits /
log(wordlist_size, 2))`, which is computed with floating point numbers and not modelled. -/
def generate_new (H : Hashes) (U : PyUni) (draws : List Bytes) (word_count : Nat) (fuel : Nat) (wordlist : List Str)
    (pre : Str) (bits : Int) (skip_old : Bool) : Res (Option Str) :=
  if bits < 132 then .error .valueError
  else if wordlist.length < 2048 then .error .valueError
  else match random_integer word_count wordlist.length draws with
    | none => .ok none
    | some (entropy, delta) => search H U wordlist pre skip_old delta fuel entropy

end ElectrumMnemonic

end Bitcoinx
