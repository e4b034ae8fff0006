# Design: a Lean 4 model of bitcoinX and its proofs

## Layout

| directory | content |
|---|---|
| `lean/Verif/Model/*.lean` | executable model, one file per Python module (or part of one); each definition cites file and lines in `/repo` |
| `lean/Verif/Spec/*.lean`  | small specifications, written without using the model's helpers |
| `lean/Verif/Lemmas/*.lean`| auxiliary lemmas (not part of any claim) |
| `lean/Verif/Props/*.lean` | one file per area, with the property theorems `Cxx_...` and, beside them, an `example` meeting their hypotheses |
| `properties.jsonl`, `MANIFEST.json` | the claims in English, and the theorems that settle each |
| `seeded/LOG.jsonl` | wrong programs tried against the theorems: the edit, the claim, the theorems that failed, the theorems added |

## Modelling conventions

* `bytes` is `List UInt8`; `str` is `List Char`; Python `int` is `Int` (or `Nat` where the code
  guarantees non-negativity).
* A Python function that may raise is a function into `Except Err _`; `Err` names the exception
  classes.  `Err.isValueError` is the subclass relation used by `except ValueError`.
* Streams: a `read` callable on a `BytesIO` is modelled by the remaining bytes; `read(n)` returns
  `take n` and leaves `drop n`.
* Mutable objects (`Headers`, `_HeaderStorage`, `Chain`) are state passed through functions that
  return the new state, also when they raise; references between `Chain` objects are indices into the
  chain list.
* `while` and `for` loops are structural recursions; where Python has no bound the model takes fuel,
  and a lemma shows that the fuel given is enough.
* Hash functions, HMAC, AES, libsecp256k1, NFKD normalisation and Unicode case mapping are
  parameters; the laws assumed of them are fields of the parameter structure (so they are explicit
  hypotheses of each theorem, not axioms), and a concrete instance shows that they are satisfiable; for digests,
  AES and the curve the real functions are such instances (`Props/Concrete.lean`).
* Python names are kept.

## Per property: what is modelled and how it is proved

The theorems of each property are listed in `MANIFEST.json` and, with their axioms, at the end of this
file.

| id | modelled | proof method |
|---|---|---|
| C01 | `int.to_bytes/from_bytes`, `misc.py` | induction on size; positional value as specification |
| C02 | `struct` codecs of `packing.py` | arithmetic, both directions |
| C03 | `varint_len`, `pack_varint`, `read_varint` | case split on the four ranges |
| C04 | all stream readers as `Reader` | compositional "prefix parser" predicate closed under sequencing and lists |
| C05 | `pack_varbytes`, `pack_list`, readers | induction on the list |
| C06 | `hash_to_hex_str`, `hex_str_to_hash` | induction on bytes |
| C07, C08 | `base58_encode/decode` loops | base-58 digit lemmas, leading zero bookkeeping |
| C09 | `base58_*_check` with hash parameter | from C07 and C08 |
| C10 | `is_minikey` | decision logic |
| C11-C13 | `work.py` conversions on `Int` | `Nat` arithmetic by size cases |
| C14-C18 | the difficulty adjustment functions over an abstract view of the headers | decision logic, arithmetic bounds |
| C19 | the same | every access is below `height`, by a view that differs above |
| C20 | header parsing in `coin.py` | slicing lemmas |
| C21, C22 | `_HeaderStorage` on the bytes of the file | splice lemmas; refinement to a list of headers |
| C23-C31 | `Headers`, `Chain` as a state machine | one invariant relating memory, storage and a tree of headers; induction over all operation sequences (`Reachable`) |
| C32-C34 | queries on reachable states | induction over the chain list, tree lemmas |
| C35 | the file states between the writes of `connect` | the claim is false (count written before the header): `C35_torn`; the rest is proved, `_partial` |
| C36-C41 | `script.py`: pushes, numbers, iteration, ASM | induction on scripts; parser lemmas; table facts by `decide +kernel` over all 256 opcodes |
| C42 | `classify_output_script` | the templates against an independent grammar `Standard` |
| C43-C48 | `tx.py` | codec composition; injectivity of the sighash preimage under explicit no-collision hypotheses |
| C49-C52 | `cashaddr.py` | GF(2)-linearity of polymod and its invertibility over windows of eight characters; bit regrouping; C52 is false for one shape of input (`C52_index_error`) |
| C53, C54, C81 | `address.py` | from C07-C09 and C49-C52, length bounds |
| C55, C56, C74, C75 | `signature.py` | byte arithmetic; table of the 256 sighash bytes |
| C57-C63, C76-C80 | `keys.py`, `aes.py` over an abstract prime-order group | group laws; decision logic |
| C64-C69, C85 | `bip32.py` | the same; string codecs; C66 and C68 are false in corner cases (`C66_fails`, `C68_newline`) |
| C70-C72, C86 | `mnemonic.py`, word lists | digit lemmas; the English list as data, checked by `decide +kernel` |
| C73 | `chunks` | induction |
| C82 | `Script.to_json` | case analysis over the classification |
| C83 | `_strip`, templates | rewriting system: what is removed and that nothing more can be removed |
| C84 | `verify_message_and_address` | from C63 and C09 |
| C87 | `Headers` | confluence: states with the same headers agree up to the order of the chains; any order of arrival with parents first is accepted |
| C88 | text forms of keys and addresses | numeral bounds of base 58 by `decide +kernel` on the two ends of each range and monotonicity |
| C89 | `__eq__` and `__hash__` of all classes | an independent meaning of objects; equality is equality of meanings |
| C90 | `Tx.to_json` and parts | reading back, induction over the lists |
| C91 | `locktime_description` | calendar loops against iterated "next day"; digit grouping against a position rule |
| C92 | `cashaddr.decode` | the generator has six zeros `β^(1-33i+64j)`, `β` of order 1025 (residues modulo a factor, evaluated by the kernel); argument of Hartmann and Tzeng with a Vandermonde system of three |
| C93 | base64 forms in `keys.py`, `signature.py` | groups of four digits against one large number; the version of the library is a parameter |
| C94 | `_HeaderStorage.__getitem__`, `__setitem__` | positions of a slice described by order and membership, which leaves no choice; windows of the file for negative indices |
| C95 | `PublicKey.from_bytes`, `from_point`, `to_point`, `PrivateKey.public_key` over the curve itself | the elliptic curve of Mathlib over `ZMod FIELD`, its points; the encodings of SEC 1 as a relation between bytes and coordinates |
| C96 | `verify_der_signature`, `verify_recoverable_signature`, `from_recoverable_signature`, `sign` over the curve itself | verification of SEC 1 as an equation in the group of Mathlib's curve; DER numbers by bounds on their value |

## Where the code does not do what one would expect

Each was found because a proof did not close; the theorem named states what happens instead.

* **C35** A crash between the write of the count and the write of the header leaves a file whose last
  header is missing: every later `Headers.from_file` raises `MissingHeader` (`C35_torn`).
* **C22** An existing file of length zero raises `ValueError` (from `mmap`), it is not created anew
  (`C22_empty_file`); a crash inside `_create_file` can leave such a file.
* **C28** `connect(checkpoint.raw_header)` raises `MissingHeader` (`C28_checkpoint`).
* **C99** `set_one` at the height of the checkpoint with a different header is accepted; opening the file again
  creates it anew and loses all headers (`C99_checkpoint`).
* **C101** headers read from a file are not checked against the rules: a file with a header that `connect`
  refuses is opened and the header is found (`C101_unchecked`).
* **C111** a header of which only the first 36 to 72 bytes reached the disk is taken for a header when the file is opened
  (`C111_torn`); headers straddle pages (the one at index 153 after 40 of its bytes, the one at index 204 after 56), so that a
  power failure can leave such a header.  A file cut within its first unused place opens, but the next header raises `IndexError` after
  the number of headers was raised, and the file is lost (`C111_ragged`).
* **C112** there is no lock: while a thread connects a header, others can get `IndexError` for it (not `MissingHeader`),
  `ValueError` for any header while the file is being enlarged, and a chain whose tip is above its height; two threads
  that connect headers can swap or double the entries of the index.
* **C04** the length of a script of 2^63 or more in a serialized transaction raises `OverflowError`, not
  `struct.error` (`C04_overflow`).
* **C102** `chain_indices` is an `array('H')`: a header that begins a 65537th chain raises `OverflowError` after
  it was appended to the storage, and the file cannot be opened afterwards (`C102_too_many`).
* **C16** the bounds of the difficulty adjustment need targets of at least 2 (`C16_tiny_target_fails`);
  bits 0 are accepted by `bits_to_target` as target 0.
* **C41** ASM does not round-trip for some pushes, e.g. a 5-byte push whose hex is all digits;
  `from_asm('²')` raises `ValueError` and not `ScriptError`.
* **C44** numbers that are not in their shortest form are accepted and bytes after the transaction are
  ignored by `from_bytes` (`C44_not_unique`).
* **C49, C52** `_pack_addr_data` accepts hashes of 36, 72, 80, 88 and 96 bytes that `decode` rejects
  (`C49_oversize`); `decode` of a prefix and a checksum only raises `IndexError` (`C52_index_error`),
  which `Address.from_string` cannot reach (`C54_total`); the Kelvin sign is accepted for a K in upper-case
  addresses (because of `lower()`).
* **C66** a key at depth 256 or more cannot be serialized: `struct.error` (`C66_fails`).
* **C68** a path followed by a newline loses the hardening of its last element: `m/1'\n` is `[1]`
  (`C68_newline`).
* **C109** the cache of word lists is by file name only: `bip39_wordlist('electrum_old.txt')` raises `SyntaxError`, but
  returns 1626 words if `original_electrum_wordlist()` was called before (`C109_electrum`).
* **C110** the class methods that the BIP32 classes inherit call their constructors with the wrong arguments: `TypeError`,
  or an object with a flag in place of its derivation.  `BIP32PrivateKey.from_WIF` silently turns an uncompressed key into
  a compressed one (`C110_uncompressed`).
* **C121** at equal work `longest_chain` moves to the chain that comes first in the list, though another one had that work
  before (`C121_tie`).
* **C126** the times of headers are not checked on mainnet, so `median_time_past` can fall along a chain
  (`C126_falling`), and a transaction that is final for a block need not be for a later one of the chain (`C128_lost`).
* **C120** on the test networks one late header before a multiple of 2016 makes the difficulty of the period forgotten
  (`C120_reset`); this is the rule of those networks.
* **C117** on the test networks `Headers.required_bits` called with its default timestamp never answers (`C117_testnet`).
* **C74** `compact_signature_to_der` ignores a failed parse (`C74_out_of_range`).
* **C82, C90** `P2SH_Address` has no `KIND`: JSON with classification of any P2SH output raises
  `AttributeError` (`C82_scripthash`, `C90_failures`).  `JSONFlags.SIGHASH_MEANING` is not read anywhere.
* **C93** a text that is not ASCII makes `verify_message_and_address` raise `ValueError` rather than answer
  `False`, and `decrypt_message` raise a `ValueError` that is not a `DecryptionError`, because `b64decode`
  raises a plain `ValueError` for it (`C93_verify_text`, `C93_decrypt_errors`).  Every signature has four
  texts or more (`C93_malleable`).
* **C96** `from_signed_message` and `from_recoverable_signature` recover a key from signatures with high `s` that
  `verify_message` refuses for the very same key (`C96_recovered`, `C96_flip`); verification ignores the recovery id,
  so that a message signature can be changed to others that verify (`C96_verify_recoverable`).
* **C94** assigning to a negative index of the headers file does not count from the end: `storage[-1] = raw`
  raises `IndexError` and `storage[-2] = raw` damages two headers without an error (`C94_set_negative`);
  reading below minus the length gives parts of two headers (`C94_below`).
* **C92** characters of the prefix count only modulo 32 (`C92_blind`).
* **C90** the hash of the spent transaction is written in the opposite byte order to the hash of a
  transaction (`C90_byte_order`).
* **C84** `verify_message_and_address` with a string ignores the version byte (`C84_sound`).
* The coin found for WIF and extended keys of the scaling test network and of regtest is `BitcoinTestnet`.
* `hex_seed_to_old` accepts signs, white space, underscores and `0x` inside the seed (from `int(_, 16)`).  `C71_signed` shows that a seed with a minus sign may give a mnemonic that has no seed, and `C71_digits` that digits of other alphabets are read.
* **C86** word lists with repeated words are accepted (`C86_undetected`).
* **C72** Electrum `_from_entropy` with a negative number does not end (`C72_start`).
* **C89** outputs paying to a public key compare equal though their scripts differ
  (`C89_scripts_differ`), extended keys whatever their chain codes (`C89_extended`).

## Trusted base

* Lean's kernel, and the axioms `propext`, `Classical.choice` and `Quot.sound`; no others, no `sorry`, no
  compiled evaluation.  The axioms of each theorem are listed below.
* The reading of the Python code into the definitions of `Verif/Model`: the code was not run.
* The meaning of the Python built-ins used (`int.to_bytes`, `struct`, `bytes.fromhex`, slices, `dict`,
  `str.split`, `isdigit`, `int()`, regular expressions), which are written as Lean definitions, or as
  parameters with laws (`PyText`, `PyCase`, …) where Unicode tables are involved.
* The laws assumed of libraries, all fields of parameter structures with an instance that satisfies
  them: digest sizes (`Hashes`); a group of prime order with the operations of libsecp256k1, whose
  verification accepts what its signing makes (`Secp`); AES as a permutation for each key (`Cipher`); NFKD and
  case mappings.
* The laws of `Secp` are proved (`Lemmas/Secp256k1.lean`, C95, C96) of the functions of libsecp256k1 written out in
  `Model/Secp256k1.lean`: primality of the field and of the order, the number of points, the group law (by
  comparison with Mathlib's elliptic curves), the encodings, ECDSA and DER.  What remains trusted is that the C
  library computes these functions; the nonces are arbitrary.
* The laws of `Hashes` and `Cipher` are proved of SHA-256, SHA-512, RIPEMD-160, HMAC and AES-128-CBC written out in
  `Model/Digests.lean` and `Model/Aes128.lean`; that hashlib and Cryptodome compute these is trusted.
* The caches of `functools.lru_cache` and `util.cachedproperty` are modelled in `Model/Caching.lean` for one thread, and
  proved invisible (C119); all other definitions leave them out.
* Collisions: theorems that need injectivity of a hash have it as a hypothesis about the finitely many
  strings hashed (`NoCollision`), never as a law.

### Comparison with the project's test data

With the parameters written out the model can be evaluated, and was compared with expected values in `/repo/tests`.
These are tests and not proofs; but for the few in `Props/Concrete.lean` they were evaluated by compiled or interpreted
code outside the kernel, and settle no claim.  No difference was found.

* Signature hashes: all 512 of `503fd37f.txn` and its two signatures; identity and serialization of `b59de025.txn`.
* Required bits: mainnet-headers-2016 (238 periods), mainnet-headers-compressed (26445 headers), testnet-headers-52416
  (4038), testnet-headers-1155850 (229), testnet-headers-1175328 (14171), stnheaders (3039); the literal vectors of
  `test_work.py`.
* BIP32: the vectors of the standard (28 strings), derivation from the master keys of `test_bip32.py`, path strings.
* Keys: the WIF, minikey, signature, shared secret and point vectors of `test_keys.py`; the ECIES message with bad
  padding.
* Mnemonics: the 24 vectors of BIP39 (the stretching of the seed for two of them) and the Electrum cases.
* Scripts, addresses and cash addresses: the ASM, template, push, number, JSON, parsing and classification cases of
  `test_script.py`, `test_address.py` and `test_cashaddr.py`.

### Modelled

`base58.py`, `packing.py`, `misc.py`, `hashes.py` (around the primitives), `work.py`, `coin.py`,
`chain.py`, `script.py`, `tx.py`, `cashaddr.py`, `address.py`, `signature.py` (around libsecp256k1),
`keys.py`, `aes.py`, `bip32.py`, `mnemonic.py`, `consts.py`, with their exceptions.

### Not modelled

* Texts of exceptions (but two of `chain.py`, C106); `repr` made by `attr`; trivial accessors.
* `Chain.log2_work` and the use of floating point in `ElectrumMnemonic.generate_new`.  The one division of integers
  into a float, in `bits_to_difficulty`, is written out (C105) without the least and greatest exponents of a double,
  which its quotients do not come near.
* In `chain.py`: `flush`, `close`, the operating system's treatment of `mmap` (a crash is modelled as stopping
  between two writes, C35, a power failure as the loss of any of the writes, C111), and recursion limits.
  Concurrent use is modelled for one thread that connects headers and any number that read (C112), with the interpreter
  changing threads between operations of built-in objects; several writers only in the two counterexamples of C112.
  Two objects on one file are modelled between calls, not within them (C114); a file shortened by others is not.
* Randomness: `os.urandom` and `secrets` are an arbitrary sequence of draws.
* Types other than the documented ones passed to a function (`TypeError`).
* Decoding word list files (encoding, newlines): the text is given.  A caller that changes a list it got from the cache.
* The machine: memory, time, interrupts.

## Tests of the theorems against wrong programs

`seeded/LOG.jsonl` has one line per attempt.  A definition of the model was edited in a scratch copy, everything that
depends on it rebuilt, and the theorems of the claim that the edit makes false were required to fail.
Where all of them still held, theorems were added (field `tightened`) and the attempt repeated.

## Axioms of each theorem

No axioms: `C04_overflow`, `C44_not_unique`.

`propext`: `C01_negative`, `C14_genesis`, `C20_length`, `C21_type_error`, `C22_empty_file`, `C46_default`, `C73_chunks_zero`, `C74_compact_der`, `C74_der_compact`, `C74_out_of_range`, `C78_eq`, `C94_bad_keys`, `C94_positions_unique`, `C117_mainnet`.

`propext`, `Quot.sound`: `C02_unpack_from`, `C13_antitone`, `C14_off_boundary`, `C17_boundary`, `C17_mainnet_dispatch`, `C21_negative_index`, `C26_malformed`, `C34_negative`, `C34_unique`, `C48_final`, `C48_monotone`, `C70_english`, `C71_digits`, `C71_rejects`, `C71_valid`, `C72_draw`, `C74_length`, `C83_evaluation`, `C83_normal_form`, `C86_result`, `C89_equal`, `C89_equivalence`, `C89_hash`, `C101_cases`, `C108_pbkdf2`, `C112_connect`, `C119_public_key`, `C128_by_height`.

`propext`, `Classical.choice`, `Quot.sound`: `C01_bytes_to_int_to_bytes`, `C01_default_size`, `C01_explicit_size`, `C02_struct_codecs`, `C03_varint`, `C04_packing_readers`, `C04_tx_readers`, `C05_list`, `C05_varbytes`, `C06_accepts`, `C06_display`, `C06_hash_hex_hash`, `C06_hex_hash_hex`, `C07_decode_encode`, `C07_denotes`, `C07_empty`, `C08_accepts`, `C08_canonical`, `C09_check_iff`, `C09_checksum`, `C09_roundtrip`, `C10_is_minikey`, `C11_bits_to_target`, `C11_raises_iff`, `C11_roundtrip`, `C12_monotone`, `C12_rounds_down`, `C13_work`, `C14_boundary`, `C15_median`, `C16_daa`, `C16_tiny_target_fails`, `C17_coins`, `C17_off_boundary`, `C18_lookback`, `C18_testnet`, `C19_collections`, `C19_connect`, `C19_only_ancestors`, `C20_fields`, `C20_numbers`, `C21_append`, `C21_persistent_array`, `C22_matching`, `C22_recreated`, `C23_lookup`, `C23_missing`, `C24_below`, `C24_linked`, `C24_outside`, `C24_tip`, `C25_work`, `C26_missing`, `C26_rules`, `C27_unchanged`, `C28_checkpoint`, `C28_idempotent`, `C29_chains`, `C30_reopen`, `C31_cache`, `C31_own_cache`, `C32_longest`, `C32_reachable`, `C33_fork_point`, `C34_collections`, `C34_median_time_past`, `C35_crash_partial`, `C35_steps`, `C35_torn`, `C36_push_item_ops`, `C36_too_long`, `C37_push_item_shortest`, `C37_single_push`, `C38_item_range`, `C38_item_to_int`, `C38_push_int`, `C39_append`, `C39_lshift`, `C39_parse`, `C39_partition`, `C39_push_many`, `C40_defined`, `C40_single`, `C40_stack`, `C40_template`, `C41_digits_fail`, `C41_error`, `C41_item`, `C41_name`, `C41_reads`, `C41_roundtrip`, `C41_word`, `C41_words`, `C41_zero_fail`, `C42_classify`, `C42_hash_forms`, `C42_roundtrip`, `C42_template`, `C43_out_of_range`, `C43_parts`, `C43_read_in_range`, `C43_roundtrip`, `C44_reserialize`, `C44_size`, `C44_varint`, `C45_input_size`, `C45_output_size`, `C45_size`, `C46_commits`, `C46_preimage`, `C47_anyone_can_pay`, `C47_depends_only`, `C47_inputs`, `C47_none`, `C47_single`, `C49_decode`, `C49_module`, `C49_oversize`, `C49_packing`, `C50_canonical`, `C50_unique`, `C51_any_case`, `C51_window`, `C52_errors_partial`, `C52_exact`, `C52_index_error`, `C53_injective`, `C53_roundtrip`, `C54_sound`, `C54_total`, `C55_accepts`, `C55_recoverable`, `C55_roundtrip`, `C56_injective`, `C56_parts`, `C57_accepts`, `C57_roundtrip`, `C57_text`, `C57_text_total`, `C58_accepts`, `C58_roundtrip`, `C59_roundtrip`, `C60_authentic`, `C60_errors`, `C61_ecdh`, `C61_shared`, `C62_add`, `C62_multiply`, `C62_values`, `C63_signed`, `C63_sound`, `C64_commutes`, `C64_path`, `C64_private`, `C64_public`, `C65_accepts`, `C65_private`, `C65_public`, `C65_raw`, `C66_depth`, `C66_fails`, `C66_serializable_partial`, `C67_roundtrip`, `C68_accepts`, `C68_newline`, `C68_wellformed_partial`, `C69_private`, `C69_public`, `C70_generate`, `C70_injective`, `C70_invalid`, `C70_sound`, `C70_valid`, `C70_words`, `C71_accepts`, `C71_generate`, `C71_mnemonic`, `C71_seed`, `C71_signed`, `C72_count`, `C72_encoding`, `C72_errors`, `C72_found`, `C72_injective`, `C72_returned`, `C72_start`, `C72_words`, `C73_chunks`, `C74_der`, `C75_accepts`, `C75_parts`, `C75_values`, `C76_arbitrary`, `C76_from_int`, `C76_new`, `C76_private`, `C76_public`, `C77_extended`, `C77_extended_no_error`, `C77_first`, `C77_no_error`, `C78_accepts`, `C78_bytes`, `C78_complement`, `C78_point`, `C79_combine`, `C80_sign`, `C81_cashaddr`, `C81_prefixes`, `C82_every_scripthash`, `C82_others`, `C82_scripthash`, `C84_order`, `C84_signed`, `C84_sound`, `C85_seed`, `C85_seed_error`, `C85_valid`, `C86_shipped`, `C86_undetected`, `C86_words`, `C87_any_order`, `C87_chains`, `C87_connect`, `C87_headers`, `C88_WIF`, `C88_WIF_accepted`, `C88_extended`, `C88_extended_accepted`, `C88_mainnet_address`, `C88_testnet_address`, `C89_address`, `C89_extended`, `C89_scripts_differ`, `C90_byte_order`, `C90_coinbase`, `C90_content`, `C90_failures`, `C90_lossless`, `C90_total`, `C91_dates`, `C91_injective`, `C91_meaning`, `C92_blind`, `C92_payload`, `C92_prefix`, `C93_accepts`, `C93_canonical`, `C93_decrypt_errors`, `C93_encrypted`, `C93_errors`, `C93_malleable`, `C93_roundtrip`, `C93_signature`, `C93_signed`, `C93_verify_text`, `C94_above`, `C94_below`, `C94_set_nat`, `C94_set_negative`, `C94_slice`, `C94_whole`, `C95_curve`, `C95_from_bytes`, `C95_from_point`, `C95_group`, `C95_private`, `C95_to_point`, `C96_commits`, `C96_flip`, `C96_one`, `C96_recover`, `C96_recovered`, `C96_sign`, `C96_verify_der`, `C96_verify_recoverable`, `C97_chain`, `C97_longest`, `C97_lookup`, `C98_all_obey`, `C98_later`, `C98_on_chain`, `C99_below`, `C99_checkpoint`, `C99_refused`, `C100_classified`, `C100_complement`, `C100_injective`, `C100_key`, `C100_multisig`, `C101_iff`, `C101_opens`, `C101_refused`, `C101_unchecked`, `C102_too_many`, `C103_commits`, `C103_text`, `C103_unambiguous`, `C104_aes`, `C104_exact`, `C104_layout`, `C104_unique`, `C105_nearest`, `C105_one`, `C105_strict`, `C106_bits_misprinted`, `C106_determined`, `C106_header`, `C106_header_determined`, `C106_insufficient`, `C106_private`, `C106_public`, `C106_signature`, `C106_texts`, `C107_separate`, `C107_tests`, `C108_ascii`, `C108_same`, `C108_seed`, `C108_valid`, `C109_answers`, `C109_electrum`, `C109_history`, `C109_stable`, `C110_WIF`, `C110_combine`, `C110_private`, `C110_public`, `C110_public_key`, `C110_signed`, `C110_text`, `C110_uncompressed`, `C110_useless`, `C110_verify`, `C111_cut`, `C111_earlier`, `C111_incomplete`, `C111_ragged`, `C111_torn`, `C112_answer`, `C112_early`, `C112_errors`, `C112_height`, `C112_lookup`, `C112_same_header`, `C112_tip`, `C112_two_writers`, `C113_all`, `C113_input`, `C113_moved`, `C113_others`, `C113_verify`, `C114_reader`, `C114_reopen`, `C114_writer`, `C115_cosigners`, `C115_export`, `C115_keys`, `C115_message`, `C115_spend`, `C116_collection`, `C116_cost`, `C116_decay`, `C116_step`, `C116_window`, `C117_testnet`, `C118_collection`, `C118_growth`, `C118_step`, `C119_kept`, `C119_transparent`, `C120_coins`, `C120_collection`, `C120_period`, `C120_required`, `C120_reset`, `C120_work`, `C121_accept`, `C121_otherwise`, `C121_tie`, `C122_branches`, `C122_reorg`, `C123_honest`, `C123_more`, `C124_price`, `C124_size`, `C125_identity`, `C125_malleable`, `C125_read`, `C125_text`, `C126_falling`, `C126_rising`, `C126_unchecked`, `C127_addresses`, `C127_children`, `C127_leak`, `C127_siblings`, `C128_lost`, `C128_stays_final`, `C129_paths`, `C129_wallets`, `C130_another`, `C130_digests`, `C130_keys`.
