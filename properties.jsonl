{"id": "C01", "title": "Integer/byte conversions are mutually inverse", "statement": "be_bytes_to_int(int_to_be_bytes(v)) == v and le likewise for every v >= 0; with the default size the result is the shortest possible byte string (no leading zero byte in the big-endian form); with an explicit size s the call succeeds exactly when 0 <= v < 256**s, returns exactly s bytes and otherwise raises OverflowError; converting bytes to an int and back with size=len(b) gives b; the little-endian form is the reverse of the big-endian form.", "quantifier": "every Python integer (negative included), every size, every byte string", "why_tests_cant": "the integers and byte strings are unbounded; tests sample a few values", "anchors": ["bitcoinx/misc.py:int_to_be_bytes", "bitcoinx/misc.py:int_to_le_bytes", "bitcoinx/misc.py:be_bytes_to_int", "bitcoinx/misc.py:le_bytes_to_int"]}
{"id": "C02", "title": "Fixed-width pack/unpack are exact inverses on exactly the representable range", "statement": "For each of pack_le_int32, pack_le_int64, pack_le_uint16/32/64, pack_be_uint16/32/64, pack_byte: packing v succeeds iff v is in the two's complement / unsigned range of the format and otherwise raises struct.error; unpack(pack(v)) == v; unpack raises struct.error unless given exactly the format's width; every byte string of that width unpacks to a v with pack(v) equal to it. The same holds of pack_port and unpack_port, big-endian in two bytes. The _from variants give what the other variants give for the window at the offset, and raise struct.error if fewer bytes are left there.", "quantifier": "every Python integer and every byte string", "why_tests_cant": "2**64 values per format, and every out-of-range integer", "anchors": ["bitcoinx/packing.py:pack_le_int32", "bitcoinx/packing.py:pack_le_int64", "bitcoinx/packing.py:pack_le_uint64", "bitcoinx/packing.py:pack_be_uint32", "bitcoinx/packing.py:unpack_le_int64", "bitcoinx/packing.py:pack_port", "bitcoinx/packing.py:unpack_port"]}
{"id": "C03", "title": "varint (CompactSize) encoding is self-delimiting and invertible", "statement": "For 0 <= n <= 2**64-1, read_varint on pack_varint(n) followed by any bytes returns n and leaves exactly those bytes; len(pack_varint(n)) == varint_len(n); pack_varint uses the shortest of the four forms; for any other n both pack_varint and varint_len raise (struct.error / ValueError).", "quantifier": "every integer n and every trailing byte string", "why_tests_cant": "unbounded n, arbitrary continuation of the stream", "anchors": ["bitcoinx/packing.py:pack_varint", "bitcoinx/packing.py:varint_len", "bitcoinx/packing.py:read_varint"]}
{"id": "C04", "title": "Stream readers read exactly what they need or raise; they never return a value from a truncated stream", "statement": "If read_varint, read_varbytes, read_le_*/read_be_*, read_list of such readers, TxInput.read, TxOutput.read or Tx.read returns a value on a stream, then the bytes consumed are a prefix of the stream, reading any stream with the same consumed prefix gives the same value, and on any strictly shorter prefix of what was consumed the reader raises struct.error. These readers raise nothing else, with one exception: read_varbytes (so also TxInput.read, TxOutput.read and Tx.read) raises OverflowError when the length it reads is 2^63 or more, whatever follows, because that is what read(n) of a stream does; so Tx.from_bytes can raise OverflowError on a malformed transaction.", "quantifier": "every byte stream, every truncation point, every continuation", "why_tests_cant": "every truncation point of every stream cannot be enumerated", "anchors": ["bitcoinx/packing.py:read_varint", "bitcoinx/packing.py:read_varbytes", "bitcoinx/packing.py:read_list", "bitcoinx/tx.py:Tx.read", "bitcoinx/tx.py:Tx.from_bytes"]}
{"id": "C05", "title": "varbytes and list serialization round-trip inside any stream", "statement": "read_varbytes(pack_varbytes(d)+rest) gives d and leaves rest; read_list(pack_list(items, pack_one)+rest, read_one) gives items and leaves rest whenever read_one inverts pack_one on every item.", "quantifier": "every byte string shorter than 2**63 (no Python object is longer, and reading that many bytes raises OverflowError), every list, every item codec, every trailing data", "why_tests_cant": "lists of any length over any element codec", "anchors": ["bitcoinx/packing.py:pack_varbytes", "bitcoinx/packing.py:read_varbytes", "bitcoinx/packing.py:pack_list", "bitcoinx/packing.py:read_list"]}
{"id": "C06", "title": "Displayed hash strings and binary hashes are inverse", "statement": "hex_str_to_hash(hash_to_hex_str(x)) == x for all bytes; hash_to_hex_str(hex_str_to_hash(s)) is s for every lower-case hex string of even length; the display form is the byte-reversed hex; hash_to_value(x) is the integer that the displayed string denotes in base 16.", "quantifier": "every byte string / every hex string", "why_tests_cant": "unbounded inputs", "anchors": ["bitcoinx/hashes.py:hash_to_hex_str", "bitcoinx/hashes.py:hex_str_to_hash", "bitcoinx/hashes.py:hash_to_value"]}
{"id": "C07", "title": "base58_decode inverts base58_encode", "statement": "base58_decode(base58_encode(b)) == b for every non-empty byte string, including any number of leading zero bytes; base58_encode(b'') is the empty string, which base58_decode rejects with Base58Error.", "quantifier": "every byte string", "why_tests_cant": "unbounded length; leading-zero bookkeeping interacts with big-integer conversion", "anchors": ["bitcoinx/base58.py:base58_encode", "bitcoinx/base58.py:base58_decode"]}
{"id": "C08", "title": "base58 text is canonical: each accepted text has exactly one spelling", "statement": "base58_decode accepts exactly the non-empty strings over the 58-character alphabet (anything else raises Base58Error) and for each accepted text t, base58_encode(base58_decode(t)) == t; hence two different texts never decode to the same bytes.", "quantifier": "every string", "why_tests_cant": "unbounded strings over all characters", "anchors": ["bitcoinx/base58.py:base58_decode", "bitcoinx/base58.py:base58_encode"]}
{"id": "C09", "title": "Base58Check accepts a text iff it is the encoding of some payload with its own checksum", "statement": "base58_decode_check(t) returns p iff t == base58_encode_check(p); every other text raises Base58Error; so decode_check(encode_check(p)) == p for all payloads, including the empty one, and no two payloads share a text. The checksum is the first four bytes of the double SHA-256 of the payload.", "quantifier": "every string, every payload", "why_tests_cant": "quantifies over all texts (soundness), not only over encodings", "anchors": ["bitcoinx/base58.py:base58_decode_check", "bitcoinx/base58.py:base58_encode_check"]}
{"id": "C10", "title": "is_minikey implements the minikey rule", "statement": "is_minikey(t) is True iff t has 22 or 30 characters, starts with 'S', is all base58 and the first byte of SHA256(t + '?') is zero; it never raises on any string.", "quantifier": "every string and every hash function", "why_tests_cant": "unbounded strings", "anchors": ["bitcoinx/base58.py:is_minikey"]}
{"id": "C11", "title": "Compact bits and targets: bits_to_target is injective and target_to_bits inverts it", "statement": "For every integer bits, bits_to_target(bits) either raises ValueError or returns a target with target_to_bits(target) == bits and target < 2**256; it raises exactly for values that target_to_bits never produces.", "quantifier": "every integer bits", "why_tests_cant": "2**32 values with several boundary conditions; all must round-trip for consensus", "anchors": ["bitcoinx/work.py:bits_to_target", "bitcoinx/work.py:target_to_bits"]}
{"id": "C12", "title": "target_to_bits rounds down to the greatest representable target and is monotone", "statement": "For every 0 <= t < 2**256, bits_to_target(target_to_bits(t)) succeeds, is <= t and >= every representable target that is <= t, and differs from t by less than t / 2**15; t <= t' implies target(bits(t)) <= target(bits(t')); any other t raises ValueError.", "quantifier": "every target", "why_tests_cant": "2**256 inputs", "anchors": ["bitcoinx/work.py:target_to_bits", "bitcoinx/work.py:bits_to_target"]}
{"id": "C13", "title": "bits_to_work is positive, decreasing in the target, and equals floor(2**256/(target+1))", "statement": "For every valid bits the work is at least 1 and a smaller target never has less work.", "quantifier": "every pair of valid bits values", "why_tests_cant": "2**64 pairs", "anchors": ["bitcoinx/work.py:bits_to_work"]}
{"id": "C14", "title": "The fortnightly retarget follows the rule and is bounded", "statement": "At height 0 the genesis bits are required; off the 2016 boundary the previous header's bits are required unchanged; on the boundary the required bits encode min(prev_target * clamp(timespan, 302400, 4838400) // 1209600, max_target) for the timespan between the headers at height-2016 and height-1; so the new target is never above 4 times the old target nor above max_target and (up to compact rounding) not below a quarter of it.", "quantifier": "every chain content, height and timestamp assignment", "why_tests_cant": "all histories of timestamps and bits", "anchors": ["bitcoinx/work.py:_required_bits_fortnightly"]}
{"id": "C15", "title": "The DAA reference header is the median-timestamp header of the three preceding ones", "statement": "For any three timestamps the selected header is one of the three headers at heights h-3..h-1 and its timestamp is the median of the three (with the tie-break of the consensus rule).", "quantifier": "every triple of headers", "why_tests_cant": "all orderings including ties", "anchors": ["bitcoinx/work.py:_required_bits_DAA"]}
{"id": "C16", "title": "The DAA never divides by zero and never exceeds max_target on chains whose targets are within max_target", "statement": "If each header in the window has a valid bits value whose target is at least 2 and at most the coin's max_target, and max_target is at most 2**254, then the DAA required bits are computed without an exception and decode to a target <= max_target, namely the compact rounding of 2**256 // (work * 600 // clamped time) - 1 with the period time clamped to [43200,172800]. (Without the lower bound on the targets the rule can fail with ValueError.)", "quantifier": "every window of headers, every timestamps, every fork structure", "why_tests_cant": "all histories", "anchors": ["bitcoinx/work.py:_required_bits_DAA", "bitcoinx/work.py:target_to_bits"]}
{"id": "C17", "title": "The EDA rule eases difficulty by exactly 25% and only in the documented case", "statement": "Between 2016-boundaries the required bits equal the previous bits unless the MTP difference over 6 blocks is at least 12 hours, in which case the target is increased by a quarter (floored), capped at max_target and re-encoded; on boundaries it is the fortnightly value. On mainnet the fortnightly rule applies below height 478558, the EDA rule up to 504031, the DAA above.", "quantifier": "every chain content and height", "why_tests_cant": "all histories", "anchors": ["bitcoinx/work.py:_required_bits_EDA", "bitcoinx/work.py:required_bits_mainnet"]}
{"id": "C18", "title": "Testnet rules: 20-minute minimum difficulty and look-back to the last non-special header", "statement": "For heights in (0, DAA height] off the boundary: genesis bits if the new timestamp is more than 20 minutes after the previous header, else the bits of the nearest earlier header that is either at a multiple of 2016 or has bits different from the genesis bits (the search always finds one); above the DAA height: genesis bits if slow and the network allows it (testnet yes, scaling testnet no), else the DAA value.", "quantifier": "every chain content, height and timestamp", "why_tests_cant": "look-back over unbounded runs of special headers", "anchors": ["bitcoinx/work.py:_required_bits_testnet"]}
{"id": "C19", "title": "The required bits for a header depend only on its ancestors", "statement": "If two header collections and chains of the same coin have equal raw headers at all heights below h, then required_bits(chain, h, t) gives the same value or the same exception on both: headers on other forks, and descendants, cannot influence validation.", "quantifier": "every pair of states, chains, heights and timestamps", "why_tests_cant": "all fork structures", "anchors": ["bitcoinx/chain.py:Headers.required_bits", "bitcoinx/work.py:required_bits_mainnet", "bitcoinx/work.py:required_bits_testnet"]}
{"id": "C20", "title": "The header accessors agree with the deserialized header", "statement": "For every 80-byte header: deserialized_header's prev_hash, timestamp, bits equal header_prev_hash, header_timestamp, header_bits; the six fields re-packed in order give back the same 80 bytes; any other length raises struct.error. The hash of the deserialized header is the double SHA-256 of the 80 bytes. The target, work and difficulty of a deserialized header are those of the bits in it (and header_work of the 80 bytes agrees), each raising ValueError exactly when the bits are not canonical (difficulty also ZeroDivisionError for bits of 0); its hash_value is the double SHA-256 read little-endian, and hex_str is that number in 64 hexadecimal digits.", "quantifier": "every byte string", "why_tests_cant": "2**640 headers", "anchors": ["bitcoinx/coin.py:Coin.deserialized_header", "bitcoinx/coin.py:Coin.header_bits", "bitcoinx/coin.py:Coin.header_timestamp", "bitcoinx/packing.py:unpack_header", "bitcoinx/coin.py:Header.target", "bitcoinx/coin.py:Header.work", "bitcoinx/coin.py:Header.hash_value", "bitcoinx/coin.py:Header.hex_str", "bitcoinx/coin.py:Coin.header_work"]}
{"id": "C21", "title": "Header storage behaves as a persistent array", "statement": "After storage.append(raw) or storage[i] = raw (80 bytes), reading index i gives raw, every other index reads as before (a never-set index raises MissingHeader), the length becomes max(old, i+1), and the file on disk holds exactly this content even across growth of the mapping.", "quantifier": "every file content reachable by creation and any sequence of writes, every index", "why_tests_cant": "all write sequences and file sizes around growth boundaries", "anchors": ["bitcoinx/chain.py:_HeaderStorage"]}
{"id": "C22", "title": "Opening headers storage: valid files are kept, missing or mismatching files are re-created", "statement": "open_or_create on a missing file, a short but not empty file, a file with a wrong version or a file whose header at the checkpoint height is missing or different yields a storage with exactly checkpoint.height+1 entries holding only the checkpoint; on a file with a matching checkpoint it leaves the content untouched. An empty file, such as a crash during creation leaves, is not re-created: ValueError is raised and the file stays empty.", "quantifier": "every file content and checkpoint", "why_tests_cant": "all file contents", "anchors": ["bitcoinx/chain.py:_HeaderStorage.open_or_create", "bitcoinx/chain.py:_HeaderStorage._open_file", "bitcoinx/chain.py:_HeaderStorage._create_file"]}
{"id": "C23", "title": "Every connected header can be looked up with its height and chain", "statement": "After any sequence of connect, set_one (below the checkpoint) and reopen operations, for each header ever accepted lookup(hash) returns that header with height = previous header's height + 1 and the chain holding it; lookup of any other hash raises MissingHeader. Collections opened from any file (C101) are included among the starting points.", "quantifier": "every history of operations (no double-SHA256 collision among the headers involved)", "why_tests_cant": "histories of arbitrary length, eviction of the cache at arbitrary points", "anchors": ["bitcoinx/chain.py:Headers.lookup", "bitcoinx/chain.py:Headers.connect", "bitcoinx/chain.py:Headers._header_index_slow", "bitcoinx/chain.py:Headers._add_chain_tip"]}
{"id": "C24", "title": "Every chain is a hash-linked sequence with contiguous heights", "statement": "In every reachable state, for each chain and every height h with checkpoint < h <= chain.height, header_at_height(chain, h) exists, has height h, and its prev_hash is the hash of header_at_height(chain, h-1); chain.tip is the header at chain.height; above chain.height and below 0 MissingHeader is raised.", "quantifier": "every reachable state, chain and height", "why_tests_cant": "arbitrary fork trees", "anchors": ["bitcoinx/chain.py:Chain", "bitcoinx/chain.py:Chain.header_index", "bitcoinx/chain.py:Headers.header_at_height"]}
{"id": "C25", "title": "A chain's work is the checkpoint's previous work plus the work of its headers from the checkpoint to its tip", "statement": "In every reachable state chain.work == checkpoint.prev_work + sum of bits_to_work over the heights checkpoint.height..chain.height of that chain, and chainwork_to_height(chain, h) is the same sum cut off at h; also for chains forked from forks.", "quantifier": "every reachable state, chain and height", "why_tests_cant": "incremental bookkeeping over arbitrary fork trees", "anchors": ["bitcoinx/chain.py:Chain.append", "bitcoinx/chain.py:Headers._read_header", "bitcoinx/chain.py:Headers.chainwork_to_height", "bitcoinx/chain.py:Headers.chainwork_range"]}
{"id": "C26", "title": "connect accepts only headers that satisfy bits and proof-of-work rules", "statement": "If connect adds a new header then its previous header is stored, its bits equal required_bits for its height and timestamp on the chain of its predecessor, and its hash value is at most its target; otherwise MissingHeader, IncorrectBits or InsufficientPoW is raised respectively, in that order of precedence.", "quantifier": "every state and every raw header", "why_tests_cant": "all headers and states", "anchors": ["bitcoinx/chain.py:Headers.connect"]}
{"id": "C27", "title": "A rejected connect leaves everything unchanged", "statement": "If connect raises MissingHeader, IncorrectBits, InsufficientPoW or struct.error for a malformed header, all observable state (chains, tips, work, storage bytes, lookups) is as before.", "quantifier": "every state and every raw header", "why_tests_cant": "failure points in every reachable state", "anchors": ["bitcoinx/chain.py:Headers.connect"]}
{"id": "C28", "title": "connect is idempotent", "statement": "Connecting a header that was already connected changes nothing and returns the stored header with its height and chain, whatever was connected in between (reorgs, forks, cache evictions).", "quantifier": "every history and every previously connected header", "why_tests_cant": "arbitrary interleavings between first and second connect", "anchors": ["bitcoinx/chain.py:Headers.connect"]}
{"id": "C29", "title": "Extending a tip extends that chain; connecting elsewhere makes one new chain", "statement": "A newly connected header whose predecessor is the tip of its chain extends exactly that chain by one (no other chain changes, no chain is added); otherwise exactly one chain is added with parent = the predecessor's chain, first_height = predecessor height + 1 and the old chains are unchanged.", "quantifier": "every reachable state and accepted header", "why_tests_cant": "all fork structures", "anchors": ["bitcoinx/chain.py:Headers._read_header", "bitcoinx/chain.py:Headers._add_chain"]}
{"id": "C30", "title": "Reopening the file reconstructs the same chains", "statement": "For every reachable state, closing and calling Headers.from_file on the same file with the same coin and checkpoint succeeds and yields the same list of chains (parents, first heights, header indices, tips, work), the same lookups and the same length.", "quantifier": "every history", "why_tests_cant": "crash/restart after histories of any length", "anchors": ["bitcoinx/chain.py:Headers.from_file", "bitcoinx/chain.py:Headers._read_headers", "bitcoinx/chain.py:_HeaderStorage.open_or_create"]}
{"id": "C31", "title": "The lookup cache is semantically invisible", "statement": "Whatever headers the cache holds or has evicted, lookup, connect and all queries return the same results as with an empty cache.", "quantifier": "every reachable state and cache content valid for it", "why_tests_cant": "eviction happens only beyond 1000 entries, in any pattern", "anchors": ["bitcoinx/chain.py:Headers._add_chain_tip", "bitcoinx/chain.py:Headers.lookup"]}
{"id": "C32", "title": "longest_chain returns the first chain of maximal work", "statement": "The returned chain is in chains(), no chain has more work, and every chain listed before it has strictly less.", "quantifier": "every list of chains", "why_tests_cant": "all fork trees", "anchors": ["bitcoinx/chain.py:Headers.longest_chain"]}
{"id": "C33", "title": "common_chain_and_height finds the exact fork point", "statement": "For chains a, b of one collection the result (chain, h) satisfies: a and b have the same header at every height <= h, at no height above h do they have a common header, and chain holds height h; swapping a and b gives the same height and chain.", "quantifier": "every reachable state and pair of chains", "why_tests_cant": "all fork trees of any depth", "anchors": ["bitcoinx/chain.py:Chain.common_chain_and_height", "bitcoinx/chain.py:Chain.parent_heights"]}
{"id": "C34", "title": "median_time_past is the median of the last up-to-11 timestamps", "statement": "For every chain and 0 <= height <= chain.height with all headers present the result is the (upper) median of the timestamps at heights max(0,height-10)..height.", "quantifier": "every chain content and height", "why_tests_cant": "all timestamp sequences", "anchors": ["bitcoinx/chain.py:Headers.median_time_past"]}
{"id": "C35", "title": "A process crash at any point of connect leaves a file that reopens to the old or the new state", "statement": "If the process dies at any point during connect, Headers.from_file afterwards succeeds and gives either the state before or the state after the connect.", "quantifier": "every reachable state, accepted header and crash point between file writes", "why_tests_cant": "crash points cannot be enumerated by unit tests", "anchors": ["bitcoinx/chain.py:_HeaderStorage._set_raw_header", "bitcoinx/chain.py:_HeaderStorage._set_count", "bitcoinx/chain.py:Headers.connect"]}
{"id": "C36", "title": "push_item / Script.ops round-trip", "statement": "For every byte string d shorter than 2**32, ops() of push_item(d) followed by any script yields d and then the ops of the rest.", "quantifier": "every byte string and continuation", "why_tests_cant": "unbounded data; six encodings with boundaries at 75/76, 255/256, 65535/65536", "anchors": ["bitcoinx/script.py:push_item", "bitcoinx/script.py:Script.ops"]}
{"id": "C37", "title": "push_item is the shortest push of its data", "statement": "Any script whose ops() is exactly the single data item d is at least as long as push_item(d).", "quantifier": "every script and every data item", "why_tests_cant": "quantifies over all alternative encodings", "anchors": ["bitcoinx/script.py:push_item", "bitcoinx/script.py:Script.ops"]}
{"id": "C38", "title": "push_int / item_to_int round-trip on all integers", "statement": "For every integer v (whose encoding is shorter than 2**32 bytes) ops() of push_int(v) yields a single item d with item_to_int(d) == v, and d is the shortest byte string with that value.", "quantifier": "every integer", "why_tests_cant": "unbounded integers, sign-bit boundary at each byte length", "anchors": ["bitcoinx/script.py:push_int", "bitcoinx/script.py:item_to_int"]}
{"id": "C39", "title": "Script.ops partitions the script, and concatenation of complete scripts concatenates their ops", "statement": "ops() terminates on every script; it raises TruncatedScriptError only after yielding all complete operations; if a is not truncated then ops(a+b) = ops(a) then ops(b); building scripts with << and push_many yields exactly the items' ops.", "quantifier": "every pair of scripts, every list of items", "why_tests_cant": "all byte strings", "anchors": ["bitcoinx/script.py:Script.ops", "bitcoinx/script.py:Script.__lshift__", "bitcoinx/script.py:Script.push_many"]}
{"id": "C40", "title": "push_and_drop_items leaves no trace in the template", "statement": "For every list of items, a script with push_and_drop_items(items) inserted in front has the same to_template() as without it; and executing its ops on a stack leaves the stack unchanged.", "quantifier": "every list of data items (each shorter than 2**32) and every script", "why_tests_cant": "all item counts and contents", "anchors": ["bitcoinx/script.py:push_and_drop_items", "bitcoinx/script.py:push_and_drop_item", "bitcoinx/script.py:Script._stripped_ops", "bitcoinx/script.py:Script.to_template"]}
{"id": "C41", "title": "ASM text round-trips", "statement": "Script.from_asm(s.to_asm(False)) == s for every script that consists of named opcodes and pushes by push_item of items that are either shortest numbers of at most 4 bytes, or longer items whose hex form contains a letter or reads as a decimal number above 2147483647; a single item survives ASM if and only if it is of that form (so the round trip fails for some minimally pushed items, such as the five bytes 1234567890). to_asm gives '[error]' exactly for the scripts that are not a concatenation of encoded operations, and otherwise the words of the operations. The word of an opcode is its name in the standard list, or OP_INVALIDOPCODE for 255 and OP_UNKNOWN for the others; the words beginning with OP_ that are read are the names of that list and OP_FALSE, OP_TRUE, OP_NOP2 and OP_NOP3, and any other raises ScriptError. from_asm reads a text exactly if each of its words, separated by any amount of white space, is read, and gives the bytes of the words one after the other. A word is a name of an opcode; or a decimal number, in digits of any alphabet and with or without a minus sign, below 2^31 in magnitude, read as the push of the shortest item denoting it; or else, if it has no digit form or denotes a greater number, hexadecimal digits, read as the push of the bytes. A word consisting of digits that denotes no number (a superscript among the digits, or more of them than the interpreter converts) raises ValueError rather than ScriptError.", "quantifier": "every such script", "why_tests_cant": "unbounded scripts; decimal/hex ambiguity of words", "anchors": ["bitcoinx/script.py:Script.to_asm", "bitcoinx/script.py:Script.from_asm", "bitcoinx/script.py:Script.asm_word_to_bytes", "bitcoinx/script.py:Script.op_to_asm_word", "bitcoinx/script.py:Ops"]}
{"id": "C42", "title": "Output script classification is complete and sound for the standard forms", "statement": "classify_output_script(x.to_script(), coin) == x for every P2PKH address, P2SH address, P2PK output and multisig output; a result P2PKH/P2SH with hash160 h is returned only for scripts whose template is the standard one with the 20-byte item h; every script gets some classification (never an exception). P2MultiSig_Output.from_template raises ValueError for any items that are not a threshold, public keys and their number.", "quantifier": "every hash160, public key list, threshold, and every script", "why_tests_cant": "unbounded scripts; multisig of any size", "anchors": ["bitcoinx/script.py:classify_output_script", "bitcoinx/script.py:_classify_script", "bitcoinx/address.py:P2PKH_Address.to_script_bytes", "bitcoinx/address.py:P2MultiSig_Output.from_template"]}
{"id": "C43", "title": "Transactions round-trip through bytes", "statement": "Tx.from_bytes(tx.to_bytes()) == tx for every transaction whose fields are in range, also when followed by other data in the stream, in which case exactly the transaction's bytes are consumed; to_bytes raises struct.error if a field is out of range.", "quantifier": "every transaction (any number of inputs and outputs, any scripts)", "why_tests_cant": "unbounded structure", "anchors": ["bitcoinx/tx.py:Tx.to_bytes", "bitcoinx/tx.py:Tx.read", "bitcoinx/tx.py:TxInput.read", "bitcoinx/tx.py:TxOutput.read"]}
{"id": "C44", "title": "A parsed transaction re-serializes to the bytes it was parsed from", "statement": "If Tx.read consumes c from a stream and returns tx then tx.to_bytes() succeeds and is no longer than c, and equal to c if it has the same length; hence Tx.from_bytes(raw) == tx and tx.size() == len(raw) imply tx.to_bytes() == raw and tx.hash() is the id of raw. Without the size condition this is false: from_bytes ignores trailing bytes and accepts over-long varints, so that the hash of the parsed transaction need not be the hash of raw.", "quantifier": "every byte string that parses", "why_tests_cant": "all malleated encodings", "anchors": ["bitcoinx/tx.py:Tx.from_bytes", "bitcoinx/tx.py:Tx.hash", "bitcoinx/packing.py:read_varint"]}
{"id": "C45", "title": "size() equals the serialized length", "statement": "For every transaction, input and output with fields in range, size() == len(to_bytes()).", "quantifier": "every transaction", "why_tests_cant": "unbounded structure", "anchors": ["bitcoinx/tx.py:Tx.size", "bitcoinx/tx.py:TxInput.size", "bitcoinx/tx.py:TxOutput.size", "bitcoinx/packing.py:varint_len"]}
{"id": "C46", "title": "signature_hash commits to what its sighash type says", "statement": "Equal signature hashes (barring a double-SHA256 collision among the preimages built) imply equal version, locktime, sighash type, spent outpoint, sequence, script, value; and, unless ANYONE_CAN_PAY, equal outpoints of all inputs; for base types other than NONE/SINGLE equal outputs (and without ANYONE_CAN_PAY equal sequences); for SINGLE with a matching output that output.", "quantifier": "every pair of transactions, indexes, values, scripts and sighash types", "why_tests_cant": "all pairs of transactions", "anchors": ["bitcoinx/tx.py:Tx.signature_hash", "bitcoinx/tx.py:TxInput.to_bytes_for_signature"]}
{"id": "C47", "title": "signature_hash ignores exactly what its sighash type leaves open", "statement": "With ANYONE_CAN_PAY other inputs can be changed arbitrarily without changing the hash; with NONE all outputs, with SINGLE all outputs except the one at the input's index; with NONE or SINGLE the sequences of other inputs; the scriptSigs never matter.", "quantifier": "every pair of transactions differing only in the uncommitted parts", "why_tests_cant": "all modifications", "anchors": ["bitcoinx/tx.py:Tx.signature_hash"]}
{"id": "C48", "title": "Transaction finality follows the consensus rule", "statement": "is_final_for_block(height, time) is True iff locktime == 0, or locktime < 500000000 and locktime < height, or locktime >= 500000000 and locktime < time, or every input's sequence is 0xffffffff; and raising height and time never turns a final transaction non-final.", "quantifier": "every transaction, height and time", "why_tests_cant": "unbounded domain, threshold boundary", "anchors": ["bitcoinx/tx.py:Tx.is_final_for_block", "bitcoinx/tx.py:Tx.are_inputs_final"]}
{"id": "C49", "title": "cashaddr decode inverts the encoding built from the module's own packing and checksum", "statement": "For every lower-case printable prefix without ':' (or its upper-case form), kind 0/1 and hash of 20,24,28,32,40,48,56 or 64 bytes, decode(prefix:payload+checksum) returns exactly (prefix, kind, hash).", "quantifier": "every prefix, kind and hash of the valid sizes", "why_tests_cant": "all hashes and prefixes", "anchors": ["bitcoinx/cashaddr.py:decode", "bitcoinx/cashaddr.py:_pack_addr_data", "bitcoinx/cashaddr.py:_create_checksum", "bitcoinx/cashaddr.py:_convertbits"]}
{"id": "C50", "title": "cashaddr decode is canonical", "statement": "If decode accepts an all-lower-case address and returns (prefix, kind, hash), the address is exactly the encoding of (prefix, kind, hash): no two lower-case addresses decode to the same triple.", "quantifier": "every ASCII string", "why_tests_cant": "quantifies over all accepted strings", "anchors": ["bitcoinx/cashaddr.py:decode", "bitcoinx/cashaddr.py:_decode_payload"]}
{"id": "C51", "title": "The cashaddr checksum detects every error confined to eight consecutive characters", "statement": "If an address decodes, then changing any non-empty set of payload characters lying within a window of 8 consecutive positions (in particular a single wrong character or swapping neighbours) makes decode raise ValueError. (An address whose prefix has no letters is meant up to the case of its characters.)", "quantifier": "every valid address, every window and every replacement", "why_tests_cant": "40-bit polynomial code over all lengths and all error patterns", "anchors": ["bitcoinx/cashaddr.py:_polymod", "bitcoinx/cashaddr.py:_decode_payload"]}
{"id": "C52", "title": "cashaddr.decode raises only ValueError on a bad string", "statement": "For every string, decode returns a triple or raises ValueError.", "quantifier": "every string", "why_tests_cant": "all strings", "anchors": ["bitcoinx/cashaddr.py:decode"]}
{"id": "C53", "title": "Address strings round-trip", "statement": "Address.from_string(a.to_string(), coin) == a for every P2PKH and P2SH address of each supported coin, with the same kind; the string has at most 35 characters so it is never taken for a cashaddr.", "quantifier": "every 20-byte hash, kind and coin", "why_tests_cant": "2**160 hashes per coin; length bound of base58", "anchors": ["bitcoinx/address.py:Address.from_string", "bitcoinx/address.py:P2PKH_Address.to_string", "bitcoinx/address.py:P2SH_Address.to_string"]}
{"id": "C54", "title": "Address.from_string either returns an address or raises ValueError", "statement": "For every text and supported coin, Address.from_string returns a P2PKH or P2SH address with a 20-byte hash or raises ValueError (Base58Error included); the internal assertion on the prefix never fires.", "quantifier": "every string and coin", "why_tests_cant": "all strings", "anchors": ["bitcoinx/address.py:Address.from_string", "bitcoinx/address.py:Address._from_cashaddr_string"]}
{"id": "C55", "title": "Message signature and recoverable signature formats are inverse", "statement": "to_recoverable_signature(to_message_signature(s, c)) == s for every 65-byte s with recovery id 0..3 and both c; it accepts a 65-byte message signature iff its first byte is 27..34 and otherwise raises InvalidSignatureError. Verification of a recoverable signature answers exactly for 65 bytes with recovery id 0..3 and both numbers below the group order and raises InvalidSignatureError for anything else; a public key is recovered only from such bytes.", "quantifier": "every byte string", "why_tests_cant": "all signatures", "anchors": ["bitcoinx/signature.py:to_message_signature", "bitcoinx/signature.py:to_recoverable_signature", "bitcoinx/signature.py:_cdata_recsig", "bitcoinx/signature.py:verify_recoverable_signature"]}
{"id": "C56", "title": "SigHash text identifies the sighash byte", "statement": "SigHash.to_string is injective on the 256 sighash bytes, and base / anyone_can_pay split the byte as documented.", "quantifier": "every sighash byte", "why_tests_cant": "finite but every pair must differ", "anchors": ["bitcoinx/signature.py:SigHash.to_string"]}
{"id": "C57", "title": "WIF round-trips", "statement": "PrivateKey.from_WIF(k.to_WIF(compressed=c, coin=coin)) gives the same secret, the compression flag c and a coin with the same WIF byte; from_text on the same string does the same (it is never mistaken for hex or a minikey). Whatever from_text returns is a valid key and its failures are ValueErrors; from_minikey accepts exactly the minikeys whose hash is a valid secret and makes an uncompressed key of it.", "quantifier": "every valid private key, both flags, every coin", "why_tests_cant": "2**256 keys", "anchors": ["bitcoinx/keys.py:PrivateKey.to_WIF", "bitcoinx/keys.py:PrivateKey.from_WIF", "bitcoinx/keys.py:PrivateKey.from_text", "bitcoinx/coin.py:Coin.from_WIF_byte", "bitcoinx/keys.py:PrivateKey.from_minikey"]}
{"id": "C58", "title": "PKCS7 padding is removed exactly", "statement": "_strip(_append(d)) == d for every byte string d; _strip(p) succeeds with d iff p == _append(d), and raises BadPaddingError otherwise.", "quantifier": "every byte string", "why_tests_cant": "all lengths modulo 16 and contents that look like padding", "anchors": ["bitcoinx/aes.py:_append_PKCS7_padding", "bitcoinx/aes.py:_strip_PKCS7_padding"]}
{"id": "C59", "title": "ECIES: decrypt_message inverts encrypt_message", "statement": "For every key pair, message, magic and ephemeral key, k.decrypt_message(k.public_key.encrypt_message(m, magic), magic) == m, for compressed and uncompressed public keys.", "quantifier": "every key, message, magic and randomness", "why_tests_cant": "all keys and randomness", "anchors": ["bitcoinx/keys.py:PublicKey.encrypt_message", "bitcoinx/keys.py:PrivateKey.decrypt_message"]}
{"id": "C60", "title": "decrypt_message fails only with DecryptionError", "statement": "For every byte string, decrypt_message returns bytes or raises DecryptionError.", "quantifier": "every byte string, key and magic", "why_tests_cant": "all ciphertexts", "anchors": ["bitcoinx/keys.py:PrivateKey.decrypt_message"]}
{"id": "C61", "title": "Shared secrets agree", "statement": "a.shared_secret(B, m) == b.shared_secret(A, m) and a.ecdh_shared_secret(B) == b.ecdh_shared_secret(A), and one side fails iff the other does.", "quantifier": "every pair of key pairs and message hash", "why_tests_cant": "all pairs of keys", "anchors": ["bitcoinx/keys.py:PrivateKey.shared_secret", "bitcoinx/keys.py:PrivateKey.ecdh_shared_secret"]}
{"id": "C62", "title": "Private and public key arithmetic commute", "statement": "k.add(v).public_key == k.public_key.add(v) and k.multiply(v).public_key == k.public_key.multiply(v), including that one raises iff the other does.", "quantifier": "every key and 32-byte value", "why_tests_cant": "2**512 pairs; the exceptional cases have negligible probability and are never hit by random tests", "anchors": ["bitcoinx/keys.py:PrivateKey.add", "bitcoinx/keys.py:PublicKey.add", "bitcoinx/keys.py:PrivateKey.multiply", "bitcoinx/keys.py:PublicKey.multiply"]}
{"id": "C63", "title": "Signed messages verify", "statement": "For every key, message and hasher, key.public_key.verify_message(key.sign_message(m), m) is True, PublicKey.from_signed_message recovers the public key and verify_message_and_address accepts the compressed and uncompressed address of the key.", "quantifier": "every key and message", "why_tests_cant": "all keys and messages", "anchors": ["bitcoinx/keys.py:PrivateKey.sign_message", "bitcoinx/keys.py:PublicKey.verify_message", "bitcoinx/keys.py:PublicKey.verify_message_and_address"]}
{"id": "C64", "title": "BIP32: public derivation matches private derivation", "statement": "For every extended private key k and 0 <= n < 2**31, k.child(n).public_key and k.public_key.child(n) are the same extended public key (key, chain code, n, depth, parent fingerprint, coin), and one raises ValueError iff the other does; for n >= 2**31 public derivation raises ValueError; along any path of non-hardened steps the same holds.", "quantifier": "every key, chain code, index and path of any length", "why_tests_cant": "exceptional indexes are never hit by tests; paths unbounded", "anchors": ["bitcoinx/bip32.py:BIP32PrivateKey.child", "bitcoinx/bip32.py:BIP32PublicKey.child"]}
{"id": "C65", "title": "Extended key strings round-trip", "statement": "bip32_key_from_string(k.to_extended_key_string()) equals k with identical derivation data and a coin with the same version bytes, for private and public keys of depth <= 255; the raw form is 78 bytes.", "quantifier": "every extended key", "why_tests_cant": "all keys, chain codes, indexes", "anchors": ["bitcoinx/bip32.py:BIP32Derivation.extended_key", "bitcoinx/bip32.py:bip32_key_from_string", "bitcoinx/bip32.py:_from_extended_key", "bitcoinx/coin.py:Coin.lookup_xver_bytes"]}
{"id": "C66", "title": "Every extended key that can be derived can be serialized", "statement": "to_extended_key_string succeeds on every key obtained by from_seed and any number of child() steps.", "quantifier": "every derivation path", "why_tests_cant": "depth is unbounded", "anchors": ["bitcoinx/bip32.py:BIP32Derivation.child", "bitcoinx/bip32.py:BIP32Derivation.extended_key"]}
{"id": "C67", "title": "BIP32 chain strings round-trip", "statement": "bip32_decompose_chain_string(bip32_build_chain_string(d)) == d for every list d of integers in [0, 2**32); build raises ValueError for any other integer.", "quantifier": "every derivation list", "why_tests_cant": "unbounded lists", "anchors": ["bitcoinx/bip32.py:bip32_build_chain_string", "bitcoinx/bip32.py:bip32_decompose_chain_string", "bitcoinx/bip32.py:bip32_validate_derivation"]}
{"id": "C68", "title": "A chain string part is hardened iff it carries an apostrophe, and only well-formed strings are accepted", "statement": "bip32_decompose_chain_string accepts exactly m(/digits'?)* with each number below 2**31 and maps a part with an apostrophe to number + 2**31.", "quantifier": "every string", "why_tests_cant": "all strings", "anchors": ["bitcoinx/bip32.py:bip32_decompose_chain_string", "bitcoinx/bip32.py:PART_REGEX"]}
{"id": "C69", "title": "child_safe returns the first valid child", "statement": "child_safe(n) returns child(m) for the least m >= n for which child(m) succeeds, staying within the hardened / non-hardened half, and raises ValueError if there is none or n is out of range.", "quantifier": "every key, start index and pattern of invalid children", "why_tests_cant": "invalid children have probability 2**-127", "anchors": ["bitcoinx/bip32.py:BIP32PrivateKey.child_safe", "bitcoinx/bip32.py:BIP32PublicKey.child_safe"]}
{"id": "C70", "title": "BIP39 mnemonics generated are valid and determine the entropy", "statement": "For every entropy of 16,20,24,28 or 32 bytes and every normalized 2048-word list of distinct words, is_valid of the generated mnemonic is True, it has 3/4 * size words, and different entropies give different mnemonics; is_valid is True only for mnemonics that some entropy generates.", "quantifier": "every entropy, word list and mnemonic", "why_tests_cant": "2**256 entropies", "anchors": ["bitcoinx/mnemonic.py:BIP39Mnemonic._from_entropy", "bitcoinx/mnemonic.py:BIP39Mnemonic.is_valid", "bitcoinx/mnemonic.py:BIP39Mnemonic.generate"]}
{"id": "C71", "title": "Old Electrum seeds and mnemonics are inverse", "statement": "old_to_hex_seed(hex_seed_to_old(h)) == h for every lower-case hex seed of 32 or 64 digits; hex_seed_to_old(old_to_hex_seed(m)) is the normalized m for every accepted mnemonic m. Texts that are not hexadecimal are accepted too where int(_, 16) reads their groups of eight: with a sign, the mnemonic may have no seed, and decimal digits of other alphabets stand for those of ASCII.", "quantifier": "every seed and every mnemonic over the word list", "why_tests_cant": "2**128 seeds", "anchors": ["bitcoinx/mnemonic.py:ElectrumMnemonic.old_to_hex_seed", "bitcoinx/mnemonic.py:ElectrumMnemonic.hex_seed_to_old"]}
{"id": "C72", "title": "New Electrum mnemonics returned are valid for the prefix and not old seeds", "statement": "generate_new returns only mnemonics that is_valid_new accepts for the requested prefix and (with skip_old) is_valid_old rejects; the entropy-to-words encoding is injective on integers.", "quantifier": "every run of the search loop, every word list", "why_tests_cant": "search over random entropy", "anchors": ["bitcoinx/mnemonic.py:ElectrumMnemonic.generate_new", "bitcoinx/mnemonic.py:ElectrumMnemonic._from_entropy", "bitcoinx/mnemonic.py:_random_integer"]}
{"id": "C73", "title": "chunks partitions its input", "statement": "Concatenating chunks(items, size) gives items, every chunk but the last has exactly size elements and the last has 1..size.", "quantifier": "every list and positive size", "why_tests_cant": "unbounded lists", "anchors": ["bitcoinx/misc.py:chunks"]}
{"id": "C74", "title": "Compact and DER signatures convert into each other", "statement": "der_signature_to_compact(compact_signature_to_der(s)) == s for every 64-byte s whose two halves are below the group order, and every accepted DER signature gives such an s. For any other 64 bytes compact_signature_to_der does not raise (the result of the library's parse is ignored): it returns the DER form of r = s = 0. Bytes of any other length are refused. The DER bytes returned are those of X.690 for the two numbers, and DER bytes that give numbers other than zero are exactly these.", "quantifier": "every byte string", "why_tests_cant": "2^512 inputs; the failing inputs are a vanishing fraction of random ones", "anchors": ["bitcoinx/signature.py:compact_signature_to_der", "bitcoinx/signature.py:der_signature_to_compact"]}
{"id": "C75", "title": "A transaction signature is a DER signature and a sighash byte", "statement": "Signature.from_der_sig(der, t) accepts every valid DER signature and byte t and returns both unchanged; Signature(raw) accepts raw iff it is the missing-signature placeholder or its bytes but the last are a valid DER signature, and raises InvalidSignatureError otherwise. A signature that is present has r and s below the group order, which are the two halves of its compact form; every accessor of the placeholder raises InvalidSignatureError; from_hex inverts to_hex.", "quantifier": "every byte string", "why_tests_cant": "all byte strings", "anchors": ["bitcoinx/signature.py:Signature"]}
{"id": "C76", "title": "Every key the interface returns is a valid key", "statement": "PrivateKey(secret) accepts exactly the 32-byte secrets in 1..n-1 and raises ValueError otherwise; from_int, from_arbitrary_bytes, add and multiply return valid keys only (add and multiply bypass the constructor's check), to_int inverts from_int, and every valid private key has a public key other than infinity. No public key the interface returns is the point at infinity, whether parsed, recovered from a signature, or the sum, multiple or combination of keys.", "quantifier": "every byte string, integer and tweak", "why_tests_cant": "the boundary cases (multiples of the 256-bit group order, sums of zero) have negligible probability under random tests", "anchors": ["bitcoinx/keys.py:PrivateKey.__init__", "bitcoinx/keys.py:PrivateKey.add", "bitcoinx/keys.py:PrivateKey.multiply", "bitcoinx/keys.py:PrivateKey.from_int", "bitcoinx/keys.py:PrivateKey.from_arbitrary_bytes", "bitcoinx/keys.py:PublicKey.add", "bitcoinx/keys.py:PublicKey.multiply", "bitcoinx/keys.py:PublicKey.combine_keys"]}
{"id": "C77", "title": "from_random returns the first valid draw", "statement": "from_random(source) returns the key of the first source(32) that is a valid secret, retrying on every invalid one, and raises nothing. BIP32PrivateKey.from_random(source) likewise returns the key of the first source(64) whose first 32 bytes are a valid secret, with the other 32 bytes as chain code and depth, index and fingerprint zero.", "quantifier": "every sequence of draws of the source, of any length", "why_tests_cant": "invalid draws practically never occur", "anchors": ["bitcoinx/keys.py:PrivateKey.from_random", "bitcoinx/bip32.py:BIP32PrivateKey.from_random"]}
{"id": "C78", "title": "Public key encodings are faithful", "statement": "from_bytes(k.to_bytes(compressed=c)), from_hex(k.to_hex(compressed=c)) and from_point(*k.to_point()) give the same point and remember the form; whatever from_bytes accepts has 33 or 65 bytes and, unless it is a 65-byte hybrid encoding, is reproduced by to_bytes; keys compare equal iff their points are equal; rejections are ValueError. complement() is the same key in the other form, and is its own inverse.", "quantifier": "every public key, byte string and pair of integers", "why_tests_cant": "all keys", "anchors": ["bitcoinx/keys.py:PublicKey.from_bytes", "bitcoinx/keys.py:PublicKey.to_bytes", "bitcoinx/keys.py:PublicKey.to_point", "bitcoinx/keys.py:PublicKey.from_point", "bitcoinx/keys.py:PublicKey.__eq__", "bitcoinx/keys.py:PublicKey.complement"]}
{"id": "C79", "title": "combine_keys adds secrets", "statement": "combine_keys of the public keys of private keys k1..kn is the public key of the sum of the secrets modulo the group order, with flag and coin of the first; it raises ValueError iff there are none or the sum is 0.", "quantifier": "every list of keys of any length", "why_tests_cant": "unbounded lists; the failing sums have negligible probability", "anchors": ["bitcoinx/keys.py:PublicKey.combine_keys"]}
{"id": "C80", "title": "Signatures made by a key verify with its public key", "statement": "For every key, message and hasher giving 32 bytes, verify_der_signature(sign(m), m) and verify_recoverable_signature(sign_recoverable(m), m) are True and from_recoverable_signature recovers the key; if the hash does not have 32 bytes all of them raise ValueError.", "quantifier": "every key, message and hasher", "why_tests_cant": "all keys and messages", "anchors": ["bitcoinx/keys.py:PrivateKey.sign", "bitcoinx/keys.py:PrivateKey.sign_recoverable", "bitcoinx/keys.py:PublicKey.verify_der_signature", "bitcoinx/keys.py:PublicKey.verify_recoverable_signature", "bitcoinx/keys.py:PublicKey.from_recoverable_signature"]}
{"id": "C81", "title": "Cash address strings are accepted in all four forms", "statement": "For every supported coin and 20-byte hash, the cash address of its kind and hash is accepted by Address.from_string with the prefix or without it, in lower case and in upper case, and each gives the address of that kind and hash. The prefix is 'bitcoincash' for Bitcoin and 'bchtest' for the test networks.", "quantifier": "every coin, kind, 20-byte hash and form", "why_tests_cant": "2^160 hashes; the upper-case test is on the whole text so a payload without letters takes the other branch", "anchors": ["bitcoinx/address.py:Address.from_string", "bitcoinx/address.py:Address._from_cashaddr_string", "bitcoinx/cashaddr.py:decode"]}
{"id": "C82", "title": "Script.to_json describes every output script except P2SH ones", "statement": "to_json with CLASSIFY_OUTPUT_SCRIPT succeeds on every output script that is not classified as P2SH, with the type of its classification and, for P2PKH and P2PK, the address string that from_string reads back; for every script classified as P2SH it raises AttributeError, because P2SH_Address has no KIND.", "quantifier": "every script and coin", "why_tests_cant": "all scripts; the failing class is untested upstream", "anchors": ["bitcoinx/script.py:Script.to_json", "bitcoinx/address.py:P2SH_Address"]}
{"id": "C83", "title": "Stripping removes exactly NOPs and dropped pushes", "statement": "_stripped_ops returns the unique normal form of the operations under removal of OP_NOP, of a push followed by OP_DROP and of two pushes followed by OP_2DROP; hence any evaluation in which those three have no effect gives the same result on the stripped operations.", "quantifier": "every script, every interpreter with the three laws", "why_tests_cant": "unbounded nesting of removals", "anchors": ["bitcoinx/script.py:Script._stripped_ops", "bitcoinx/script.py:Script.to_template"]}
{"id": "C84", "title": "Signed messages verify against address strings", "statement": "verify_message_and_address is True for a message signed by a key and the string of either of its addresses (compressed or not) for any coin; it is True only if the string decodes to a version byte followed by the hash160 of the key recovered from a valid signature; a malformed signature is False and a malformed address string, with a signature giving a key, raises Base58Error.", "quantifier": "every key, message, signature, hasher giving 32 bytes, coin and address string", "why_tests_cant": "all keys and strings", "anchors": ["bitcoinx/keys.py:PublicKey.verify_message_and_address", "bitcoinx/keys.py:PublicKey.to_address"]}
{"id": "C85", "title": "Every extended key a program can obtain is valid", "statement": "A key from from_seed, from_random, bip32_key_from_string, child, child_safe or public_key has a secret in range (or a point other than infinity), a 32-byte chain code, a 4-byte parent fingerprint and an index in [0, 2**32); from_seed gives BIP32's master key (HMAC-SHA512 keyed 'Bitcoin seed', depth 0, index 0, zero fingerprint) and raises ValueError when there is none.", "quantifier": "every sequence of operations of any length", "why_tests_cant": "sequences of operations are unbounded and invalid seeds have probability 2**-127", "anchors": ["bitcoinx/bip32.py:BIP32PrivateKey.from_seed", "bitcoinx/bip32.py:BIP32PrivateKey.from_random", "bitcoinx/bip32.py:_from_extended_key", "bitcoinx/bip32.py:BIP32PrivateKey.child"]}
{"id": "C86", "title": "Word lists are read exactly", "statement": "A text whose lines are normalized words, comments and empty lines is read as exactly its words, in order, if there are as many as expected and as SyntaxError otherwise; no word of a result is empty or contains a space; the texts of english.txt and electrum_old.txt are read as their 2048 and 1626 distinct normalized words.", "quantifier": "every text and expected count", "why_tests_cant": "texts are unbounded; distinctness and normalization of all words is what the mnemonic properties depend on", "anchors": ["bitcoinx/mnemonic.py:Wordlists._text_to_wordlist", "bitcoinx/data/english.txt", "bitcoinx/data/electrum_old.txt"]}
{"id": "C87", "title": "The order in which headers arrive does not matter", "statement": "Two Headers objects with the same coin and checkpoint that have both accepted a header report it at the same height with the same ancestors from the checkpoint on, whatever else they have accepted and in whatever order; if they have accepted the same headers they have the same chains up to their order (same tips, work and heights), the same length and longest chains of equal work; connect gives the same answer in both; and if a sequence of headers is accepted, so is every permutation of it in which predecessors come first, with the same outcome.", "quantifier": "every two histories of connect, set_one and reopening; every sequence of headers and every permutation of it", "why_tests_cant": "the number of histories and of orders is unbounded", "anchors": ["bitcoinx/chain.py:Headers.connect", "bitcoinx/chain.py:Headers.lookup", "bitcoinx/chain.py:Headers.longest_chain"]}
{"id": "C88", "title": "Texts of keys and addresses are recognized by length and first characters", "statement": "On the main network an address of a key starts with 1 and has 25 to 34 characters, an address of a script starts with 3 and has 34; on the test networks they start with m or n and have 34, and with 2 and have 35. The WIF text of a private key starts with K or L and has 52 characters (5 and 51 if uncompressed) on the main network, with c and 52 (9 and 51) on the others. Extended keys have 111 characters and start with xprv, xpub, tprv or tpub. Conversely from_WIF and bip32_key_from_string accept no text without these forms.", "quantifier": "every hash, key, coin, hash function and text", "why_tests_cant": "the checksum is arbitrary, and the first characters are right only because of bounds on 256^n and 58^m that hold for every payload", "anchors": ["bitcoinx/address.py:Address.to_string", "bitcoinx/keys.py:PrivateKey.to_WIF", "bitcoinx/bip32.py:to_extended_key_string", "bitcoinx/base58.py:base58_encode_check", "bitcoinx/coin.py"]}
{"id": "C89", "title": "Equality of objects is an equivalence that agrees with hashing", "statement": "== between any two objects of the classes Script, Signature, PrivateKey, PublicKey, their BIP32 subclasses, BIP32Derivation, the addresses and outputs, and bytes, is reflexive, symmetric and transitive, and equal objects have equal hashes, so that all of them can be keys of dicts. Scripts, signatures and bytes are compared by bytes, private keys by secret, public keys by point, addresses by kind and hash, that is by script. Outputs paying to a public key compare equal though their scripts differ if the forms of the key differ, and extended keys compare equal whatever their chain codes.", "quantifier": "every two (three) objects of any of the classes, every hash function of Python", "why_tests_cant": "all pairs of classes and contents; reflected methods and NotImplemented", "anchors": ["bitcoinx/script.py:Script.__eq__", "bitcoinx/signature.py:Signature.__eq__", "bitcoinx/keys.py:PrivateKey.__eq__", "bitcoinx/keys.py:PublicKey.__eq__", "bitcoinx/address.py"]}
{"id": "C90", "title": "The JSON form of a transaction loses nothing", "statement": "tx.to_json succeeds for every transaction that can be serialized, except that with classification an output paying to a script hash raises AttributeError; otherwise it raises struct.error. The transaction can be read back from the JSON, whatever the flags; nInputs, nOutputs, the numbering, the size and the hash are those of the transaction and of its serialization. The hash in an input is not byte-reversed, the hash of a transaction is, so that they are equal only for palindromes. tx.is_coinbase raises IndexError for a transaction without inputs and is otherwise true exactly if the JSON shows the first input as one of a coinbase transaction, which is if its hash is zeros and its index 2^32 - 1; total_output_value is the sum of the values shown.", "quantifier": "every transaction with any field values, every combination of flags, every coin", "why_tests_cant": "all transactions and flags; losslessness quantifies over pairs of transactions", "anchors": ["bitcoinx/tx.py:Tx.to_json", "bitcoinx/tx.py:TxInput.to_json", "bitcoinx/tx.py:TxOutput.to_json", "bitcoinx/consts.py:JSONFlags", "bitcoinx/tx.py:Tx.is_coinbase", "bitcoinx/tx.py:Tx.total_output_value"]}
{"id": "C91", "title": "The description of a lock time says when the transaction is valid", "statement": "Every lock time that can be serialized has a description, of one of three kinds: any block, a height written with commas, or a UTC date and time of the Gregorian calendar. No description can be read in two ways, different lock times have different descriptions, and the transaction is final in a block if the description says so and, unless all its inputs opt out, only then.", "quantifier": "every lock time, every block height and time", "why_tests_cant": "2^32 lock times times all heights and times; leap years and digit grouping", "anchors": ["bitcoinx/tx.py:locktime_description", "bitcoinx/tx.py:Tx.is_final_for_block"]}
{"id": "C92", "title": "Four wrong characters anywhere in a cash address are detected", "statement": "If a cash address decodes, then a text obtained by replacing between one and four characters after the separator, wherever they are, raises ValueError. The same holds if some of the wrong characters are in the prefix, when both prefixes are made of at most 900 letters. A prefix that agrees with the right one only in the low five bits of each character is not detected.", "quantifier": "every address that decodes, every choice of up to four positions and replacement characters", "why_tests_cant": "C(112,4) positions times 31^4 replacements for each address; the bound on the distance of the code is an algebraic fact", "anchors": ["bitcoinx/cashaddr.py:_polymod", "bitcoinx/cashaddr.py:_decode_payload", "bitcoinx/cashaddr.py:decode"]}
{"id": "C93", "title": "Text forms of signatures and encrypted messages", "statement": "sign_message_to_base64 and encrypt_message_to_base64 write the base64 encoding of RFC 4648; every function that takes a signature or an encrypted message gives the same result for the text as for the bytes. Of the texts with one padding character exactly four denote a given signature. A text that is ASCII but not a signature or message raises InvalidSignatureError or DecryptionError, or is answered with False by verify_message_and_address; a text that is not ASCII raises a plain ValueError instead.", "quantifier": "every message, key, signature and text, every version of the standard library", "why_tests_cant": "the set of accepted texts is infinite and differs between versions of Python; equality of all functions on text and bytes is a statement about all inputs", "anchors": ["bitcoinx/signature.py:to_recoverable_signature", "bitcoinx/keys.py:PrivateKey.sign_message_to_base64", "bitcoinx/keys.py:PrivateKey.decrypt_message", "bitcoinx/keys.py:PublicKey.encrypt_message_to_base64", "bitcoinx/keys.py:PublicKey.verify_message_and_address"]}
{"id": "C94", "title": "Keys of the headers file", "statement": "storage[start:stop:step] reads the headers at exactly the positions Python takes from a list of that length, in that order, and raises MissingHeader if one of them was never set; storage[:] is the whole list, storage[::-1] its reverse. A zero step raises ValueError, other keys and assignment to a slice TypeError. An integer at or above the length raises MissingHeader. Integers below minus the length, and negative integers when assigning, do not count from the end of the list: storage[-1] = raw raises IndexError, and storage[-m] = raw for m from 2 up to the room in the file silently overwrites the last 72 bytes of one header and the first 8 of the next.", "quantifier": "every well-formed file, every key, start, stop and step", "why_tests_cant": "all combinations of signs, omitted bounds, steps and lengths; the damage depends on how far the file has grown", "anchors": ["bitcoinx/chain.py:_HeaderStorage.__getitem__", "bitcoinx/chain.py:_HeaderStorage.__setitem__", "bitcoinx/chain.py:_HeaderStorage._set_raw_header"]}
{"id": "C95", "title": "Public keys are the points of secp256k1", "statement": "The curve y^2 = x^3 + 7 over the integers modulo 2^256 - 2^32 - 977 has exactly CURVE_ORDER points, a prime number, and the group in which keys are added and multiplied is the group of this curve. PublicKey.from_bytes accepts exactly the compressed, uncompressed and hybrid SEC 1 encodings of its points other than infinity and raises ValueError for all other bytes; from_point accepts exactly the coordinates of such points, each below the field size; to_point gives them back. Every public key has exactly one private key.", "quantifier": "every byte string, every pair of integers, every point of the curve", "why_tests_cant": "the curve has about 2^256 points and the number of points, hence uniqueness of the private key, is an algebraic fact", "anchors": ["bitcoinx/keys.py:PublicKey.from_bytes", "bitcoinx/keys.py:PublicKey.to_point", "bitcoinx/keys.py:PublicKey.from_point", "bitcoinx/keys.py:PrivateKey.public_key", "bitcoinx/keys.py:CURVE_ORDER"]}
{"id": "C96", "title": "Signatures verify exactly as ECDSA says, with low s", "statement": "verify_der_signature is True exactly if the bytes are the DER form of numbers r, s in 1..n-1 which satisfy the verification of SEC 1 (section 4.1.4) for the key and digest, and s <= n/2; verify_recoverable_signature is True under the same condition on r and s, whatever the recovery id. If (r, s) satisfies the standard so does (r, n-s), and of all DER strings for the two exactly one verifies. from_recoverable_signature gives a key exactly if the point of the standard has the coordinates told by r and the recovery id; it gives the same key for (r, n-s) and the other parity, though verification accepts only one of the two. Every key signs with low s whatever the nonces are. If the same key is recovered from one signature for two messages then their digests are the same number modulo the order.", "quantifier": "every key, message, hasher, signature bytes and sequence of nonces", "why_tests_cant": "an equivalence over all byte strings and keys; existence of a signature for every sequence of nonces", "anchors": ["bitcoinx/keys.py:PublicKey.verify_der_signature", "bitcoinx/keys.py:PublicKey.verify_recoverable_signature", "bitcoinx/keys.py:PublicKey.from_recoverable_signature", "bitcoinx/keys.py:PrivateKey.sign", "bitcoinx/signature.py:verify_der_signature", "bitcoinx/signature.py:public_key_from_recoverable_signature"]}
{"id": "C97", "title": "A collection of headers never forgets or moves what it has accepted", "statement": "From any state, after any further sequence of connect (accepted or refused), set_one (not changing the checkpoint's header) and closing and reopening the file: a hash that was found is still found, as the same header at the same height on the same chain; every chain keeps its index, parent, first height and all its headers from the checkpoint to its former tip and the work up to each of them, and only grows in height and work (if its height is the same so are tip and work); the number of headers, the number of chains and the work of the longest chain never fall.", "quantifier": "every reachable state and every later state, over sequences of operations of any length", "why_tests_cant": "a relation between any two points of histories of unbounded length", "anchors": ["bitcoinx/chain.py:Headers.connect", "bitcoinx/chain.py:Headers.lookup", "bitcoinx/chain.py:Headers.from_file", "bitcoinx/chain.py:Headers.longest_chain", "bitcoinx/chain.py:Headers.header_at_height"]}
{"id": "C98", "title": "Every header held obeys the rules at all times", "statement": "In every state reached without set_one, each accepted header but the checkpoint's, as lookup returns it with its chain, has exactly the bits that required_bits now gives for that chain, height and timestamp, and its hash is not above the target of those bits; no later connect, fork or reopening changes this. In any history a header that obeys the rules keeps obeying them while the headers before the checkpoint stay what they are.  The same holds, on every chain that contains the header, in the histories where set_one is used before the first header is connected.", "quantifier": "every history, every accepted header, every coin", "why_tests_cant": "an invariant over unbounded histories and chains, re-evaluated with all later forks present", "anchors": ["bitcoinx/chain.py:Headers.connect", "bitcoinx/chain.py:Headers.required_bits", "bitcoinx/coin.py:Coin.required_bits", "bitcoinx/chain.py:Headers.lookup"]}
{"id": "C99", "title": "set_one changes one header before the checkpoint and nothing else", "statement": "set_one raises ValueError outside 0..checkpoint height and TypeError for a header that is not 80 bytes, changing nothing. Below the checkpoint it sets that header for all chains (the all-zero header removes it) and leaves all other heights, lookups, chains, the length and the result of reopening the file as they were. Contrary to its documentation it also accepts the checkpoint's own height: if another header is put there, the next opening of the file takes it for a file of another checkpoint, makes a new one, and all connected headers are lost.", "quantifier": "every reachable state, height and header", "why_tests_cant": "frame condition over all states, heights and hashes", "anchors": ["bitcoinx/chain.py:Headers.set_one", "bitcoinx/chain.py:_HeaderStorage.open_or_create", "bitcoinx/chain.py:Headers.raw_header_at_height"]}
{"id": "C100", "title": "The scripts of a public key are exactly the standard ones", "statement": "P2PK_script() is the length byte, the key in its own form (33 or 65 bytes) and CHECKSIG (0xac); P2PKH_script() and the script of to_address(compressed, coin) are 76 a9 14 RIPEMD160(SHA256(key)) 88 ac for the form asked for; the script of an m of n multisig output (n <= 16) is OP_m, the keys with their length bytes in order, OP_n, CHECKMULTISIG. The first two are classified as a payment to that key in that form and to that address; different keys or forms have different P2PK scripts; complement() is the other form of the same point and an involution.", "quantifier": "every key, form, coin, list of keys and threshold", "why_tests_cant": "byte-exact equality for all keys, and injectivity", "anchors": ["bitcoinx/keys.py:PublicKey.P2PK_script", "bitcoinx/keys.py:PublicKey.P2PKH_script", "bitcoinx/keys.py:PublicKey.to_address", "bitcoinx/keys.py:PublicKey.hash160", "bitcoinx/keys.py:PublicKey.complement", "bitcoinx/address.py:P2MultiSig_Output.to_script_bytes"]}
{"id": "C101", "title": "Which headers files can be opened, and what is then held", "statement": "Headers.from_file of an existing file with the right magic, a count that fits and the checkpoint's header at its height opens it iff each stored header above the checkpoint in order is not all zeros, has its predecessor (the checkpoint or an earlier header of the file), has bits that are a target, and does not begin a 65537th chain; the first header that fails decides the exception (MissingHeader, ValueError, OverflowError or ZeroDivisionError) and the file is unchanged.  Opened, the collection holds exactly the headers of the file, has one chain more than there are headers sharing their predecessor with an earlier one, and all theorems about reachable collections hold of it; the bits and proof of work of its headers are NOT checked: a header that connect refuses is found after opening a file holding it.", "quantifier": "every file content (distinct headers, no hash collision among them) and checkpoint", "why_tests_cant": "all files of any number of headers, in any order and with any fork structure", "anchors": ["bitcoinx/chain.py:Headers.from_file", "bitcoinx/chain.py:Headers._read_header", "bitcoinx/chain.py:_HeaderStorage.open_file"]}
{"id": "C102", "title": "The 65537th chain damages the headers file", "statement": "In every reachable collection with 65536 or more chains, connecting a header that obeys all rules and forks from a header that has a successor raises OverflowError, but the header is already in the file and counted; the file can then not be opened again: Headers.from_file raises OverflowError on it.", "quantifier": "every reachable state with 65536 chains and every such header", "why_tests_cant": "needs more than 65536 chains and the state after an exception", "anchors": ["bitcoinx/chain.py:Headers.connect", "bitcoinx/chain.py:Headers._read_header", "bitcoinx/chain.py:Chain.append"]}
{"id": "C103", "title": "What is signed for a message", "statement": "sign_message, verify_message and from_signed_message are signing, verifying and recovering for the text that begins with the byte 24, 'Bitcoin Signed Message:' and a line feed, and continues with the message after its length as a varint; a str stands for its UTF-8. Different messages (and different strings) are signed as different texts; if a signature gives the same public key for two messages, the digests of their texts are the same number modulo the order of the curve.", "quantifier": "every key, hasher, signature, and messages shorter than 2^64 bytes", "why_tests_cant": "quantifies over all pairs of messages and signatures; that no two messages share a text is a statement about every pair", "anchors": ["bitcoinx/keys.py:_normalize_message", "bitcoinx/keys.py:PrivateKey.sign_message", "bitcoinx/keys.py:PublicKey.verify_message", "bitcoinx/keys.py:PublicKey.from_signed_message"]}
{"id": "C104", "title": "The bytes of encrypted messages", "statement": "encrypt_message gives the magic bytes, the compressed ephemeral public key, the AES-128-CBC encryption of the padded message and an HMAC-SHA256 of all that, the keys being the parts of the SHA-512 of the compressed shared point; the length is that of the magic plus 65 plus 16 * (len(m) // 16 + 1). decrypt_message gives m exactly for the byte strings of that form for m and any ephemeral point, so nothing is decrypted which was not so encrypted, and the form determines the point and the message.", "quantifier": "every key, ephemeral key, message, magic and byte string", "why_tests_cant": "the set of accepted byte strings is infinite; a test sees only strings it produced by encrypt_message or by flipping some bytes", "anchors": ["bitcoinx/keys.py:PublicKey.encrypt_message", "bitcoinx/keys.py:PrivateKey.decrypt_message", "bitcoinx/aes.py:aes_encrypt_with_iv", "bitcoinx/aes.py:aes_decrypt_with_iv"]}
{"id": "C105", "title": "A difficulty is the nearest double to what it stands for, and orders headers as their targets do", "statement": "For all bits of a positive target bits_to_difficulty returns a double at least as near as every other double to the true quotient 0xffff * 2**208 / target (no two doubles are equally near); of two such bits the one of smaller target has the strictly greater difficulty, so rounding never merges or reorders two targets; the difficulty is exactly 1 for 0x1d00ffff and for no other bits. Bits of 0 raise ZeroDivisionError, and bits that are not canonical raise ValueError. The answer does not depend on the coin: all divide the maximum target of mainnet.", "quantifier": "all integers as bits, all pairs of them", "why_tests_cant": "there are about 2**31 canonical bits and their pairs are far more; an off-by-one in rounding or a merged pair shows only at particular quotients", "anchors": ["bitcoinx/coin.py:Coin.bits_to_difficulty", "bitcoinx/coin.py:Header.difficulty", "bitcoinx/work.py:bits_to_target"]}
{"id": "C106", "title": "Printed forms determine what is printed, and secrets are not printed", "statement": "str of a Header is its fields by name: hashes as displayed, the version in hexadecimal, the other numbers in decimal; two headers read from bytes with equal texts are the same header, of the same 80 bytes and height. repr of inputs, outputs and BIP32 derivations are likewise their fields by name, and equal texts mean equal objects whatever the fields. str of a private key, extended or not, is the hexadecimal SHA-256 of its secret and of nothing else (so the repr of an extended private key, unlike that of a public one, is not of a string that can be read); str of a public key reads back as the key, str of an extended public key as the extended key. In the texts of headers and of IncorrectBits the bits are in decimal although they follow '0x': read as hexadecimal they are too great for all bits from 10 on. The text of InsufficientPoW can be made exactly if the bits of the header are canonical. The text of a transaction signature is its DER bytes in hexadecimal and the words of its sighash, and tells the signature.", "quantifier": "all headers, inputs, outputs, derivations and keys, and pairs of them", "why_tests_cant": "that no two objects share a text is about all pairs; a test compares a few texts", "anchors": ["bitcoinx/coin.py:Header.__str__", "bitcoinx/chain.py:IncorrectBits.__str__", "bitcoinx/chain.py:InsufficientPoW.__str__", "bitcoinx/tx.py:TxInput.__repr__", "bitcoinx/tx.py:TxOutput.__repr__", "bitcoinx/bip32.py:BIP32Derivation.__repr__", "bitcoinx/keys.py:PrivateKey.__str__", "bitcoinx/keys.py:PublicKey.__str__", "bitcoinx/bip32.py:BIP32PrivateKey.__repr__", "bitcoinx/bip32.py:BIP32PublicKey.__str__", "bitcoinx/signature.py:Signature.to_string"]}
{"id": "C107", "title": "The text of an address belongs to one network", "statement": "No text of ASCII characters is read by Address.from_string as an address both for Bitcoin and for one of the test networks, be it base 58 or a cash address with or without its prefix, in either case; the three test networks read exactly the same texts, as addresses that differ in their coin only.", "quantifier": "all ASCII texts, all pairs of supported coins, both kinds of address", "why_tests_cant": "that the checksum tells the networks apart without the prefix is an algebraic fact about all payloads", "anchors": ["bitcoinx/address.py:Address.from_string", "bitcoinx/address.py:Address._from_cashaddr_string", "bitcoinx/cashaddr.py:_polymod", "bitcoinx/coin.py:all_coins"]}
{"id": "C108", "title": "Seeds of BIP39 mnemonics", "statement": "The seed of a mnemonic and a passphrase is that of BIP39: PBKDF2 of RFC 8018 with HMAC-SHA512, 2048 rounds, of the words of the mnemonic, decomposed and in lower case, with single spaces between them, salted with 'mnemonic' and the decomposed passphrase. Hence case and white space of a mnemonic make no difference, those of a passphrase do; two pairs of words and passphrase with one seed are a collision of the key derivation. The seed of a valid mnemonic is the seed of exactly the text that its entropy generates.", "quantifier": "all mnemonics and passphrases, all hash functions of the right sizes, all character databases with the laws stated", "why_tests_cant": "the tests have a few vectors; that spellings agree and that nothing else does is a statement about all pairs of texts", "anchors": ["bitcoinx/mnemonic.py:BIP39Mnemonic.to_seed", "bitcoinx/mnemonic.py:BIP39Mnemonic.normalize", "bitcoinx/mnemonic.py:_normalize_text"]}
{"id": "C109", "title": "The cache of word lists", "statement": "Whatever was asked for before and however the files change, a word list that is returned was in its file when it was read and has the number of words asked for; once returned for a file it is returned for that file ever after. While the files do not change, the answer for any file does not depend on what was asked before, with one exception: the file of old Electrum words, asked for as a BIP39 list, is refused with SyntaxError unless it was read as the Electrum list before, in which case its 1626 words are returned as a BIP39 list.", "quantifier": "all histories of requests, all contents of files at every time", "why_tests_cant": "histories are unbounded, and the tests use each file in one way", "anchors": ["bitcoinx/mnemonic.py:Wordlists._cached_wordlist", "bitcoinx/mnemonic.py:Wordlists._read_wordlist", "bitcoinx/mnemonic.py:Wordlists.bip39_wordlist", "bitcoinx/mnemonic.py:Wordlists.original_electrum_wordlist"]}
{"id": "C110", "title": "Class methods that the BIP32 classes inherit", "statement": "No class method inherited from PrivateKey and PublicKey returns an extended key that works. from_int, from_hex, from_arbitrary_bytes, from_minikey, from_bytes, from_point, from_recoverable_signature and from_signed_message raise TypeError where the argument is good; verify_message_and_address of BIP32PublicKey never returns True, and raises TypeError for every good signature. BIP32PrivateKey.from_WIF and from_text, and BIP32PublicKey.combine_keys, return an object with the right secret or point and coin, but always compressed, whose child and to_extended_key_string raise AttributeError.", "quantifier": "all arguments of these methods, all keys", "why_tests_cant": "that no argument at all gives a working key cannot be sampled", "anchors": ["bitcoinx/bip32.py:BIP32PrivateKey.__init__", "bitcoinx/bip32.py:BIP32PublicKey.__init__", "bitcoinx/keys.py:PrivateKey.from_WIF", "bitcoinx/keys.py:PublicKey.from_signed_message", "bitcoinx/keys.py:PublicKey.verify_message_and_address", "bitcoinx/keys.py:PublicKey.combine_keys"]}
{"id": "C111", "title": "Damaged headers files", "statement": "Let a headers file lose some of its writes, or be cut. If the headers up to the number that the file names are all there, it is opened to exactly the collection that had this number of headers, whatever comes after them. If one is missing, opening raises MissingHeader (nothing or zeros in its place) or struct.error (part of it) and leaves the file unchanged, so that never a part of the headers is opened silently; only a file in which the checkpoint itself is damaged is created anew, and one cut to nothing raises ValueError. A file cut within its first unused place opens, but the next new header raises IndexError and the file cannot be opened afterwards. A header of which only the bytes before its bits were written, with zeros after them, is not noticed: the file is opened and holds a header that connect refuses.", "quantifier": "all histories of a collection, all places of a cut, all sets of lost writes", "why_tests_cant": "the histories, the places of a cut and the combinations of lost writes are unbounded", "anchors": ["bitcoinx/chain.py:_HeaderStorage._open_file", "bitcoinx/chain.py:_HeaderStorage.open_or_create", "bitcoinx/chain.py:_HeaderStorage._set_raw_header", "bitcoinx/chain.py:_HeaderStorage.__getitem__", "bitcoinx/chain.py:Headers._read_header"]}
{"id": "C112", "title": "Reading a headers collection while another thread connects headers", "statement": "Let one thread connect headers (and copy the network's checkpoint with set_one) while others call lookup and raw_header_at_height, with the threads exchanged between any two operations. A header held before is found as the same header on the same chain, and a header of a chain at a height from the checkpoint on is read as before, unless the file is enlarged in the meantime, when ValueError may be raised instead. Whatever lookup answers is what it answers when the writer has finished. The search ends, and raises nothing but MissingHeader, IndexError, or, if the file is enlarged, ValueError. There is always a moment at which looking up the header being connected raises IndexError and, if it extends a chain, one at which the tip of the chain is above its height and no header is found there. Two threads that connect headers can leave a collection in which neither header is found, or in which one header is stored twice.", "quantifier": "all collections, all sequences of headers connected, all moments at which the accesses of a reader are made", "why_tests_cant": "the moments at which threads are exchanged cannot be chosen by a test and their combinations are unbounded", "anchors": ["bitcoinx/chain.py:Headers.connect", "bitcoinx/chain.py:Headers.lookup", "bitcoinx/chain.py:Headers.raw_header_at_height", "bitcoinx/chain.py:Headers._add_chain_tip", "bitcoinx/chain.py:Chain.append", "bitcoinx/chain.py:_HeaderStorage._set_raw_header"]}
{"id": "C113", "title": "Inputs signed with the library may spend their outputs", "statement": "A program that signs each input in turn with tx.signature_hash, PrivateKey.sign and Signature.from_der_sig, and builds the unlocking scripts with push_many, for outputs to a key (P2PK), to the hash of a key (P2PKH), to m of n keys (bare multisig) and to the hash of such a script (P2SH), with any sighash bytes, makes a transaction that the network's rules for these scripts accept: every signature is over what its sighash byte says, by the right key and in the order of the keys. Signing an input does not spoil another, whatever their order; nothing but the scripts of these inputs changes; and the transaction is read back from its bytes as it is. verify_der_signature over signature_hash tells exactly whether a signature is one of the transaction by the key.  A signed input put at any place of another transaction that agrees with the first on everything its sighash commits to may spend the output there as well.", "quantifier": "all transactions with fields in range, all keys, values, sighash bytes, kinds of outputs, and orders of signing", "why_tests_cant": "the composition of hashing, signing, script building and serialization has to hold for every transaction, key and order of signing", "anchors": ["bitcoinx/tx.py:Tx.signature_hash", "bitcoinx/keys.py:PrivateKey.sign", "bitcoinx/signature.py:Signature.from_der_sig", "bitcoinx/script.py:Script.push_many", "bitcoinx/address.py:P2MultiSig_Output.to_script_bytes", "bitcoinx/address.py:P2SH_Address.to_script", "bitcoinx/keys.py:PublicKey.P2PKH_script", "bitcoinx/keys.py:PublicKey.verify_der_signature"]}
{"id": "C114", "title": "Two collections on one file", "statement": "Let a headers file be open in one Headers object and let a second one be made from the same file with Headers.from_file (in this process or another), while the first goes on connecting headers, setting headers before the checkpoint and reopening. The second object answers lookup of every hash, and raw_header_at_height from the checkpoint on, exactly as the first did when the second was made, also if the file is enlarged; only len counts the headers of the first, and headers before the checkpoint are those now set. If the second object connects a header that is new to it after the first has stored others (without enlarging the file), the header is stored after those of the first, a second time if the first had it; the first object's lookups stay as they are, and if the header is new to both, the second object cannot find it any more once its cache has dropped it. If the first would have accepted that header too, opening the file gives a collection with all the headers, as if the first had connected it.", "quantifier": "all hash functions, coins, checkpoints and histories of the first object before and after the second is made, all hashes, chains, heights and headers connected", "why_tests_cant": "The mapping is shared while the index, the chains and the cache are per object, so the answers depend on the whole interleaving of what the two objects did; and the header that is lost is found until the cache of 1000 entries has dropped it.", "anchors": ["bitcoinx/chain.py: Headers.from_file, Headers.lookup, Headers._header_index_slow, Headers.connect, Headers.raw_header_at_height, Headers.__len__, _HeaderStorage", "bitcoinx/util.py: map_file"]}
{"id": "C115", "title": "Watch-only wallets", "statement": "Take an extended private key of depth at most 255 and a path without hardened indices. The text of its extended public key can be parsed; deriving along the path from the parsed key succeeds exactly when deriving along it from the private key does, failing with the same exception otherwise, and gives the public key of the derived private key, with the same derivation data. The text of the address of that key, for any of the networks, is read back as the same address; and whatever is paid to its script the owner can spend: an input of any transaction signed with the derived private key (any sighash byte, any value) satisfies that script.  The same holds for the key the owner exports in the WIF of any network and reads back; a message signed with the derived key verifies against the text of the watched address; and if up to fifteen owners' extended public keys are used to make the P2SH address of an m-of-n script (at most 520 bytes), its text is read back and any m of the owners, signing in the order of the keys, can spend what was paid to it.", "quantifier": "all hash functions and curves meeting the stated laws, all valid extended private keys of a known coin, all paths, networks, transactions with fields in range, inputs, values and sighash bytes", "why_tests_cant": "A counterexample is money paid to an address that nobody can spend from; it may depend on any key, path, network or transaction, and involves five modules at once.", "anchors": ["bitcoinx/bip32.py:BIP32PrivateKey.child", "bitcoinx/bip32.py:BIP32PublicKey.child", "bitcoinx/bip32.py:bip32_key_from_string", "bitcoinx/bip32.py:BIP32PublicKey.to_extended_key_string", "bitcoinx/keys.py:PublicKey.to_address", "bitcoinx/address.py:Address.from_string", "bitcoinx/tx.py:Tx.signature_hash", "bitcoinx/keys.py:PrivateKey.sign", "bitcoinx/keys.py:PrivateKey.to_WIF", "bitcoinx/keys.py:PrivateKey.from_text", "bitcoinx/keys.py:PublicKey.verify_message_and_address", "bitcoinx/address.py:P2MultiSig_Output.to_script_bytes", "bitcoinx/address.py:P2SH_Address"]}
{"id": "C116", "title": "Forged headers cannot make the difficulty fall faster than a fixed rate", "statement": "Where the DAA is in force, the bits required at a height depend on the 147 headers before it only; the work they stand for is never less than about half of the average work of the headers 3 to 144 before, and unless it is the least that the coin allows, not more than about twice the average of the 146 before. So on every chain of a headers collection, whatever times and headers an attacker chooses, the work of the headers above the checkpoint falls by at most 0.9% from header to header: with w0 a lower bound for the work of the 144 headers before height h0, (w0 + 2) * 1000^(n+144) <= (work at h0+n + 2) * 1009^(n+144). Every header of a chain above the checkpoint, shared or not, has exactly the bits required on that chain.  So n headers made after 144 of work w0 each cost, up to 2 for each header, at least w0 * (1000/1009)^144 * (1 - (1000/1009)^n) * 1009/9, as chainwork_range counts it: about 15 w0 for 77 headers and 30 w0 for many.", "quantifier": "all chains, all heights after the DAA begins (mainnet above 504031, scaling testnet above 2200), all timestamps and all headers accepted, all numbers n of headers; collections opened fresh or with headers below the checkpoint set before the first is connected", "why_tests_cant": "The bound is over all choices of timestamps by somebody who wants the difficulty to fall, and over any number of headers; a test can only try some choices, for some hundred headers.", "anchors": ["bitcoinx/work.py:99-122", "bitcoinx/work.py:142-149", "bitcoinx/work.py:184-187", "bitcoinx/chain.py:396-409", "bitcoinx/chain.py:431-467"]}
{"id": "C117", "title": "Leaving out the timestamp when asking for the required bits", "statement": "Headers.required_bits may be called without a timestamp: on mainnet the answer is the same as with any timestamp; on the test networks there is never an answer, but TypeError if the chain has a header at the height before, also at heights where the rule does not use the timestamp, and otherwise the error of reading that header.", "quantifier": "every coin, every reachable collection, every chain and height", "why_tests_cant": "the claim is about all heights, hence all branches of the rules of the three networks, and all contents of the collection", "anchors": ["bitcoinx/chain.py:481-484", "bitcoinx/work.py:142-187"]}
{"id": "C118", "title": "Before the DAA the target rises at most fourfold in 2016 headers", "statement": "On every chain of a collection of mainnet headers, below height 478558, all headers above the checkpoint up to the next multiple of 2016 have exactly the bits of the header they follow, and a later header has a target at most 4^m times as high, m being the number of multiples of 2016 passed, whatever timestamps and headers are chosen. Under the emergency rule that followed, the target of a header is at most a quarter higher than the one before, and at multiples of 2016 at most four times.", "quantifier": "all chains, all heights, all timestamps, all numbers of headers; collections opened fresh or with headers below the checkpoint set before the first is connected", "why_tests_cant": "it bounds what somebody who chooses all the timestamps can reach after any number of headers; tests replay the one history that happened", "anchors": ["bitcoinx/work.py:80-96", "bitcoinx/work.py:125-149", "bitcoinx/chain.py:431-459"]}
{"id": "C119", "title": "The caches cannot be noticed", "statement": "The results of bits_to_target and bits_to_work, which go through least-recently-used caches of 128 entries (one nested in the other), never depend on which calls were made before or whether they succeeded; each cache holds right results only, one per argument, and a target worked out once is still kept after any calls with fewer than 128 different arguments. Reading public_key of private keys (plain or BIP32), which sets an attribute on first use, gives in every program the same as working it out anew, works it out at most once per key, never alters a key, and reading it of the class raises TypeError without spoiling later readings.", "quantifier": "all sequences of calls; all programs making keys and reading public keys in any order", "why_tests_cant": "the claim is about all histories of calls, including evictions after 128 entries and exceptions in between, and all interleavings of reading the properties of several objects", "anchors": ["bitcoinx/work.py:33-52", "bitcoinx/work.py:75-77", "bitcoinx/util.py:43-54", "bitcoinx/keys.py:142-145", "bitcoinx/bip32.py:123-126"]}
{"id": "C120", "title": "No header easier than the least difficulty of its coin is ever accepted", "statement": "The bits that any of the difficulty rules requires never stand for a target above the coin's highest target: under the DAA whatever the history is, and before it if the headers of the 2016 heights before have such targets. So on every chain of a collection every header above the checkpoint has a target and a hash not above the coin's highest target, and a chain with n headers above the checkpoint has at least n times the work of the genesis header. On the test networks before their DAA heights, when the header before a multiple of 2016 has the genesis bits, the difficulty of the other headers of the period is forgotten: after two weeks or more the genesis bits are required, and otherwise at least a quarter of the highest target; and when the header at a multiple of 2016 has the genesis bits, all headers up to the next multiple must have them.", "quantifier": "all four coins, all chains, histories and timestamps; all collections obtained by connecting headers and reopening", "why_tests_cant": "the claim is about all histories of headers of any length, by induction over the chain", "anchors": ["bitcoinx/work.py:80-187", "bitcoinx/chain.py:431-458", "bitcoinx/coin.py:62-97"]}
{"id": "C121", "title": "When the longest chain changes", "statement": "Connecting a new header leaves the longest chain what it was, or makes it the chain of which the new header is the tip: exactly if that chain then has more work than the longest chain had, or the same work and an earlier place in the list of chains. A header that is refused or known already leaves it as it was. So a wallet following longest_chain moves only to chains with at least the same work; but it may move at equal work, to a chain that reached that work later: the rule of the network that the chain seen first is kept does not hold.", "quantifier": "every reachable collection and every header connected to it", "why_tests_cant": "the claim relates all pairs of successive states; that ties are decided by the place in the list, not by arrival, needs all cases of work and place", "anchors": ["bitcoinx/chain.py:423-458", "bitcoinx/chain.py:466-471"]}
{"id": "C122", "title": "What a change of the longest chain costs", "statement": "The difference of the work of two chains is the difference of the work of their headers above the height where they fork, as common_chain_and_height gives it and chainwork_range sums it. So at any later time, however many headers were connected or refused in between, the chain that was the longest and the one that is the longest now have the same headers up to their fork, no header in common above it, and the headers of the new one above it have together at least the work of those of the old one: nobody can make a wallet give up headers it followed without at least as much work as it gives up.", "quantifier": "every reachable collection, every two of its chains, and every later state of it", "why_tests_cant": "the claim relates any two states of a history of any length, and chains that fork from each other at any depth", "anchors": ["bitcoinx/chain.py:128-142", "bitcoinx/chain.py:396-402", "bitcoinx/chain.py:466-471"]}
{"id": "C123", "title": "One honest source of headers is enough", "statement": "A collection that has accepted all the headers of another one, and perhaps more, has for each chain of that one a chain with the same headers up to its tip and at least its work, and its longest chain has at least the work of the other's longest chain. So a wallet that is told the headers of one honest source in order, with any others (valid, invalid, on other forks, repeated) from anybody else before, between and after them, accepts every one of the honest headers and ends with a longest chain of at least the work of one that is told the honest headers alone: other sources can neither hide headers from it nor make it refuse them. The claim needs room for all headers told (fewer than 65536 chains and 2^32 headers, see C102) and the same headers below the checkpoint.", "quantifier": "all collections, all sequences of honest headers and all ways of mixing them with others", "why_tests_cant": "the other headers, their number and the interleaving are chosen by an adversary", "anchors": ["bitcoinx/chain.py:Headers.connect", "bitcoinx/chain.py:Headers.lookup", "bitcoinx/chain.py:Headers.required_bits", "bitcoinx/chain.py:Headers.longest_chain"]}
{"id": "C124", "title": "What can be stored in a collection, and at what price", "statement": "A collection stores each header it has accepted exactly once, however often and in whatever order headers were connected, refused or reread, and nothing else above the checkpoint: its length is the checkpoint's height plus 1 plus the number n of different headers accepted besides the checkpoint's. It has at most n chains (one if n is 0). Every one of these headers has a hash not above the coin's highest target, so nobody can make a wallet store n headers, or fill the room for 65536 chains (C102), without finding n, or 65536, such hashes.", "quantifier": "every reachable collection of the four coins, every history", "why_tests_cant": "an exact count over histories of any length chosen by somebody who wants the file to grow", "anchors": ["bitcoinx/chain.py:Headers.connect", "bitcoinx/chain.py:Headers._read_header", "bitcoinx/chain.py:Headers.__len__", "bitcoinx/work.py:80-187"]}
{"id": "C125", "title": "A transaction's hash identifies it", "statement": "Two different transactions (with 32-byte previous hashes) have the same hash only if their serializations are different byte strings with the same double SHA-256. The text of the hash determines the hash; both exist exactly if all numbers are in range, else struct.error is raised. The hash of a transaction that was read is that of its shortest serialization: bytes from which a transaction is read either are that serialization or are longer (something follows, or a count or length is in a longer form), and then their own double SHA-256 is that of other bytes than the transaction's hash. Replacing the script of an input changes no signature hash but changes what the hash is taken of.", "quantifier": "all transactions, all bytes, all scripts; any hash function in place of SHA-256", "why_tests_cant": "injectivity over all pairs of transactions and all accepted encodings", "anchors": ["bitcoinx/tx.py:155-162", "bitcoinx/tx.py:72-82", "bitcoinx/tx.py:102-131"]}
{"id": "C126", "title": "The times of headers are not checked on mainnet", "statement": "On mainnet a new header after a known one is accepted exactly if its bits are the required ones (the same for every time) and its hash is at most their target: its own time plays no part. If the times did obey the network's rule (each after the median time past of the header before), the median time past would never fall along a chain; without a check of it, it can: there is a reachable collection where it falls from 2009 to 1972.", "quantifier": "all reachable collections, all headers; for the second part all chains and all times", "why_tests_cant": "independence of a field over all headers and histories, and monotonicity over all sequences of times", "anchors": ["bitcoinx/chain.py:423-460", "bitcoinx/chain.py:473-479", "bitcoinx/work.py:142-178"]}
{"id": "C127", "title": "What an extended public key and one private key below it give away, and when two children are the same", "statement": "If a private key is derived from an extended private key along a path without hardened indexes, then the extended public key, the path and that private key give the private key at the top: it is child.add(v), where v is the negative of a sum of HMAC halves computed from the extended public key alone (or the two keys are equal, if the sum is a multiple of the order). Any two keys so derived differ by such a public number. Two children of a key with different indexes, hardened or not, have the same secret only if the HMAC-SHA512s of two different messages begin with the same 32 bytes; two children of an extended public key pay to the same hash only in that case or if two different serialized points have the same hash.", "quantifier": "all extended keys, all paths of any length, all indexes; any hash functions and any group of the curve's order", "why_tests_cant": "an identity over all keys and paths, and injectivity over all pairs of indexes up to named collisions", "anchors": ["bitcoinx/bip32.py:128-142", "bitcoinx/bip32.py:195-204", "bitcoinx/keys.py:222-227"]}
{"id": "C128", "title": "Lock times along a chain", "statement": "Give is_final_for_block the height of a block and the median time past of the header before it. If the times of the headers obey the network's rule, a transaction that is final for one block of a chain is final for all later ones. Whatever the times, this holds exactly of the transactions that are not locked by time or have only final inputs; as the times are not checked (C126), there is a reachable collection in which a transaction is final for a block and not for a later one of the same chain.", "quantifier": "all transactions, all chains, all times", "why_tests_cant": "a monotonicity over all chains and transactions, and an exact characterization of when it needs the rule", "anchors": ["bitcoinx/tx.py:141-153", "bitcoinx/chain.py:473-479"]}
{"id": "C129", "title": "Different paths and different seeds lead to different keys", "statement": "If two paths of the same length from two extended private keys lead to keys with the same secret and chain code, then the paths are the same and the two keys at the top have the same secret and chain code, or HMAC-SHA512, as used on the way at the same distance from the top, gave the same last 32 bytes for two different pairs of key and message. If keys derived from two seeds for supported coins have the same text as extended keys, then the seeds and the paths are the same, or two different seeds have the same HMAC, or there is such a collision on the way.", "quantifier": "all extended keys, all seeds, all paths of any length, hardened or not; any hash functions and any group of the curve's order", "why_tests_cant": "injectivity over all pairs of paths and seeds up to named collisions, by induction on the length of the paths", "anchors": ["bitcoinx/bip32.py:107-111", "bitcoinx/bip32.py:128-142", "bitcoinx/bip32.py:168-170"]}
{"id": "C130", "title": "For how many digests and keys one signature verifies", "statement": "A DER signature does not pin down what was signed, but nearly.  With one public key, it verifies for at most four 32-byte digests up to multiples of the curve order: of any five it verifies for, two are the same number modulo the order.  For one digest it verifies with at most four public keys: of any five, two are the same point.  And it is never just one digest: if a signature verifies for digest e with the public key of private number d, it verifies too for another, incongruent digest e' with e + e' + 2 r d divisible by the order, which whoever knows d can compute (that a message hashes to it is another matter).", "quantifier": "all DER byte strings, all public keys and private keys, all 32-byte digests, every choice of signing nonces, over the real secp256k1 curve", "why_tests_cant": "the claim is about all keys and digests in a group of order near 2^256; a test can try only those it thinks of", "anchors": ["bitcoinx/keys.py:514-517", "bitcoinx/signature.py:143-146"]}
