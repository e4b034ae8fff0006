{
 "claims": [
  {
   "property": "C01",
   "status": "proved",
   "theorems": [
    "C01_default_size",
    "C01_explicit_size",
    "C01_bytes_to_int_to_bytes",
    "C01_negative"
   ],
   "note": ""
  },
  {
   "property": "C02",
   "status": "proved",
   "theorems": [
    "C02_struct_codecs",
    "C02_unpack_from"
   ],
   "note": ""
  },
  {
   "property": "C03",
   "status": "proved",
   "theorems": [
    "C03_varint"
   ],
   "note": ""
  },
  {
   "property": "C04",
   "status": "proved",
   "theorems": [
    "C04_packing_readers",
    "C04_tx_readers",
    "C04_overflow"
   ],
   "note": ""
  },
  {
   "property": "C05",
   "status": "proved",
   "theorems": [
    "C05_varbytes",
    "C05_list"
   ],
   "note": ""
  },
  {
   "property": "C06",
   "status": "proved",
   "theorems": [
    "C06_hash_hex_hash",
    "C06_hex_hash_hex",
    "C06_display",
    "C06_accepts"
   ],
   "note": ""
  },
  {
   "property": "C07",
   "status": "proved",
   "theorems": [
    "C07_decode_encode",
    "C07_empty",
    "C07_denotes"
   ],
   "note": ""
  },
  {
   "property": "C08",
   "status": "proved",
   "theorems": [
    "C08_accepts",
    "C08_canonical"
   ],
   "note": ""
  },
  {
   "property": "C09",
   "status": "proved",
   "theorems": [
    "C09_check_iff",
    "C09_roundtrip",
    "C09_checksum"
   ],
   "note": ""
  },
  {
   "property": "C10",
   "status": "proved",
   "theorems": [
    "C10_is_minikey"
   ],
   "note": ""
  },
  {
   "property": "C11",
   "status": "proved",
   "theorems": [
    "C11_bits_to_target",
    "C11_roundtrip",
    "C11_raises_iff"
   ],
   "note": ""
  },
  {
   "property": "C12",
   "status": "proved",
   "theorems": [
    "C12_rounds_down",
    "C12_monotone"
   ],
   "note": ""
  },
  {
   "property": "C13",
   "status": "proved",
   "theorems": [
    "C13_work",
    "C13_antitone"
   ],
   "note": ""
  },
  {
   "property": "C14",
   "status": "proved",
   "theorems": [
    "C14_genesis",
    "C14_off_boundary",
    "C14_boundary"
   ],
   "note": ""
  },
  {
   "property": "C15",
   "status": "proved",
   "theorems": [
    "C15_median"
   ],
   "note": ""
  },
  {
   "property": "C16",
   "status": "proved",
   "theorems": [
    "C16_daa",
    "C16_tiny_target_fails"
   ],
   "note": ""
  },
  {
   "property": "C17",
   "status": "proved",
   "theorems": [
    "C17_boundary",
    "C17_off_boundary",
    "C17_mainnet_dispatch",
    "C17_coins"
   ],
   "note": ""
  },
  {
   "property": "C18",
   "status": "proved",
   "theorems": [
    "C18_lookback",
    "C18_testnet"
   ],
   "note": ""
  },
  {
   "property": "C19",
   "status": "proved",
   "theorems": [
    "C19_collections",
    "C19_connect",
    "C19_only_ancestors"
   ],
   "note": ""
  },
  {
   "property": "C20",
   "status": "proved",
   "theorems": [
    "C20_fields",
    "C20_length",
    "C20_numbers"
   ],
   "note": ""
  },
  {
   "property": "C21",
   "status": "proved",
   "theorems": [
    "C21_persistent_array",
    "C21_append",
    "C21_type_error",
    "C21_negative_index"
   ],
   "note": ""
  },
  {
   "property": "C22",
   "status": "proved",
   "theorems": [
    "C22_matching",
    "C22_recreated",
    "C22_empty_file"
   ],
   "note": ""
  },
  {
   "property": "C23",
   "status": "proved",
   "theorems": [
    "C23_lookup",
    "C23_missing"
   ],
   "note": ""
  },
  {
   "property": "C24",
   "status": "proved",
   "theorems": [
    "C24_linked",
    "C24_tip",
    "C24_outside",
    "C24_below"
   ],
   "note": ""
  },
  {
   "property": "C25",
   "status": "proved",
   "theorems": [
    "C25_work"
   ],
   "note": ""
  },
  {
   "property": "C26",
   "status": "proved",
   "theorems": [
    "C26_rules",
    "C26_missing",
    "C26_malformed"
   ],
   "note": ""
  },
  {
   "property": "C27",
   "status": "proved",
   "theorems": [
    "C27_unchanged"
   ],
   "note": ""
  },
  {
   "property": "C28",
   "status": "proved",
   "theorems": [
    "C28_idempotent",
    "C28_checkpoint"
   ],
   "note": ""
  },
  {
   "property": "C29",
   "status": "proved",
   "theorems": [
    "C29_chains"
   ],
   "note": ""
  },
  {
   "property": "C30",
   "status": "proved",
   "theorems": [
    "C30_reopen"
   ],
   "note": ""
  },
  {
   "property": "C31",
   "status": "proved",
   "theorems": [
    "C31_cache",
    "C31_own_cache"
   ],
   "note": ""
  },
  {
   "property": "C32",
   "status": "proved",
   "theorems": [
    "C32_longest",
    "C32_reachable"
   ],
   "note": ""
  },
  {
   "property": "C33",
   "status": "proved",
   "theorems": [
    "C33_fork_point"
   ],
   "note": ""
  },
  {
   "property": "C34",
   "status": "proved",
   "theorems": [
    "C34_collections",
    "C34_median_time_past",
    "C34_negative",
    "C34_unique"
   ],
   "note": ""
  },
  {
   "property": "C35",
   "status": "partial",
   "theorems": [
    "C35_steps",
    "C35_crash_partial",
    "C35_torn"
   ],
   "note": "The claim is false of the code at one crash point: after the count is written and before the header is, C35_torn shows the file can no longer be opened. C35_crash_partial proves the claim for every other point, C35_steps that the points are between the file before and the file after."
  },
  {
   "property": "C36",
   "status": "proved",
   "theorems": [
    "C36_push_item_ops",
    "C36_too_long"
   ],
   "note": ""
  },
  {
   "property": "C37",
   "status": "proved",
   "theorems": [
    "C37_push_item_shortest",
    "C37_single_push"
   ],
   "note": ""
  },
  {
   "property": "C38",
   "status": "proved",
   "theorems": [
    "C38_push_int",
    "C38_item_to_int",
    "C38_item_range"
   ],
   "note": ""
  },
  {
   "property": "C39",
   "status": "proved",
   "theorems": [
    "C39_partition",
    "C39_parse",
    "C39_append",
    "C39_lshift",
    "C39_push_many"
   ],
   "note": ""
  },
  {
   "property": "C40",
   "status": "proved",
   "theorems": [
    "C40_template",
    "C40_stack",
    "C40_defined",
    "C40_single"
   ],
   "note": ""
  },
  {
   "property": "C41",
   "status": "proved",
   "theorems": [
    "C41_reads",
    "C41_words",
    "C41_item",
    "C41_name",
    "C41_word",
    "C41_roundtrip",
    "C41_digits_fail",
    "C41_zero_fail",
    "C41_error"
   ],
   "note": ""
  },
  {
   "property": "C42",
   "status": "proved",
   "theorems": [
    "C42_template",
    "C42_classify",
    "C42_roundtrip",
    "C42_hash_forms"
   ],
   "note": ""
  },
  {
   "property": "C43",
   "status": "proved",
   "theorems": [
    "C43_roundtrip",
    "C43_out_of_range",
    "C43_parts",
    "C43_read_in_range"
   ],
   "note": ""
  },
  {
   "property": "C44",
   "status": "proved",
   "theorems": [
    "C44_reserialize",
    "C44_varint",
    "C44_not_unique",
    "C44_size"
   ],
   "note": ""
  },
  {
   "property": "C45",
   "status": "proved",
   "theorems": [
    "C45_size",
    "C45_input_size",
    "C45_output_size"
   ],
   "note": ""
  },
  {
   "property": "C46",
   "status": "proved",
   "theorems": [
    "C46_preimage",
    "C46_default",
    "C46_commits"
   ],
   "note": ""
  },
  {
   "property": "C47",
   "status": "proved",
   "theorems": [
    "C47_depends_only",
    "C47_anyone_can_pay",
    "C47_none",
    "C47_single",
    "C47_inputs"
   ],
   "note": ""
  },
  {
   "property": "C48",
   "status": "proved",
   "theorems": [
    "C48_final",
    "C48_monotone"
   ],
   "note": ""
  },
  {
   "property": "C49",
   "status": "proved",
   "theorems": [
    "C49_packing",
    "C49_decode",
    "C49_module",
    "C49_oversize"
   ],
   "note": ""
  },
  {
   "property": "C50",
   "status": "proved",
   "theorems": [
    "C50_canonical",
    "C50_unique"
   ],
   "note": ""
  },
  {
   "property": "C51",
   "status": "proved",
   "theorems": [
    "C51_window",
    "C51_any_case"
   ],
   "note": ""
  },
  {
   "property": "C52",
   "status": "partial",
   "theorems": [
    "C52_errors_partial",
    "C52_index_error",
    "C52_exact"
   ],
   "note": "The claim is false of the code: C52_index_error gives, for every prefix, a string for which decode raises IndexError. C52_errors_partial proves the claim for all other strings and C52_exact says exactly which strings these are."
  },
  {
   "property": "C53",
   "status": "proved",
   "theorems": [
    "C53_roundtrip",
    "C53_injective"
   ],
   "note": ""
  },
  {
   "property": "C54",
   "status": "proved",
   "theorems": [
    "C54_total",
    "C54_sound"
   ],
   "note": ""
  },
  {
   "property": "C55",
   "status": "proved",
   "theorems": [
    "C55_roundtrip",
    "C55_accepts",
    "C55_recoverable"
   ],
   "note": ""
  },
  {
   "property": "C56",
   "status": "proved",
   "theorems": [
    "C56_injective",
    "C56_parts"
   ],
   "note": ""
  },
  {
   "property": "C57",
   "status": "proved",
   "theorems": [
    "C57_roundtrip",
    "C57_accepts",
    "C57_text",
    "C57_text_total"
   ],
   "note": ""
  },
  {
   "property": "C58",
   "status": "proved",
   "theorems": [
    "C58_roundtrip",
    "C58_accepts"
   ],
   "note": ""
  },
  {
   "property": "C59",
   "status": "proved",
   "theorems": [
    "C59_roundtrip"
   ],
   "note": ""
  },
  {
   "property": "C60",
   "status": "proved",
   "theorems": [
    "C60_errors",
    "C60_authentic"
   ],
   "note": ""
  },
  {
   "property": "C61",
   "status": "proved",
   "theorems": [
    "C61_shared",
    "C61_ecdh"
   ],
   "note": ""
  },
  {
   "property": "C62",
   "status": "proved",
   "theorems": [
    "C62_add",
    "C62_multiply",
    "C62_values"
   ],
   "note": ""
  },
  {
   "property": "C63",
   "status": "proved",
   "theorems": [
    "C63_signed",
    "C63_sound"
   ],
   "note": ""
  },
  {
   "property": "C64",
   "status": "proved",
   "theorems": [
    "C64_private",
    "C64_public",
    "C64_commutes",
    "C64_path"
   ],
   "note": ""
  },
  {
   "property": "C65",
   "status": "proved",
   "theorems": [
    "C65_raw",
    "C65_private",
    "C65_public",
    "C65_accepts"
   ],
   "note": ""
  },
  {
   "property": "C66",
   "status": "partial",
   "theorems": [
    "C66_depth",
    "C66_serializable_partial",
    "C66_fails"
   ],
   "note": "The claim is false of the code for keys deeper than 255: C66_fails. C66_serializable_partial proves it for all others and C66_depth is the exact condition."
  },
  {
   "property": "C67",
   "status": "proved",
   "theorems": [
    "C67_roundtrip"
   ],
   "note": ""
  },
  {
   "property": "C68",
   "status": "partial",
   "theorems": [
    "C68_accepts",
    "C68_wellformed_partial",
    "C68_newline"
   ],
   "note": "The claim is false of the code for strings with a newline at the end of a part: C68_newline. C68_wellformed_partial proves it for strings without newlines, and C68_accepts says exactly which strings are accepted and what they denote."
  },
  {
   "property": "C69",
   "status": "proved",
   "theorems": [
    "C69_private",
    "C69_public"
   ],
   "note": ""
  },
  {
   "property": "C70",
   "status": "proved",
   "theorems": [
    "C70_words",
    "C70_valid",
    "C70_sound",
    "C70_injective",
    "C70_generate",
    "C70_invalid",
    "C70_english"
   ],
   "note": ""
  },
  {
   "property": "C71",
   "status": "proved",
   "theorems": [
    "C71_accepts",
    "C71_rejects",
    "C71_seed",
    "C71_mnemonic",
    "C71_valid",
    "C71_generate",
    "C71_signed",
    "C71_digits"
   ],
   "note": ""
  },
  {
   "property": "C72",
   "status": "proved",
   "theorems": [
    "C72_encoding",
    "C72_injective",
    "C72_count",
    "C72_start",
    "C72_draw",
    "C72_returned",
    "C72_words",
    "C72_found",
    "C72_errors"
   ],
   "note": ""
  },
  {
   "property": "C73",
   "status": "proved",
   "theorems": [
    "C73_chunks",
    "C73_chunks_zero"
   ],
   "note": ""
  },
  {
   "property": "C74",
   "status": "proved",
   "theorems": [
    "C74_der",
    "C74_compact_der",
    "C74_der_compact",
    "C74_out_of_range",
    "C74_length"
   ],
   "note": ""
  },
  {
   "property": "C75",
   "status": "proved",
   "theorems": [
    "C75_parts",
    "C75_accepts",
    "C75_values"
   ],
   "note": ""
  },
  {
   "property": "C76",
   "status": "proved",
   "theorems": [
    "C76_private",
    "C76_new",
    "C76_from_int",
    "C76_arbitrary",
    "C76_public"
   ],
   "note": ""
  },
  {
   "property": "C77",
   "status": "proved",
   "theorems": [
    "C77_extended",
    "C77_extended_no_error",
    "C77_first",
    "C77_no_error"
   ],
   "note": ""
  },
  {
   "property": "C78",
   "status": "proved",
   "theorems": [
    "C78_bytes",
    "C78_accepts",
    "C78_eq",
    "C78_point",
    "C78_complement"
   ],
   "note": ""
  },
  {
   "property": "C79",
   "status": "proved",
   "theorems": [
    "C79_combine"
   ],
   "note": ""
  },
  {
   "property": "C80",
   "status": "proved",
   "theorems": [
    "C80_sign"
   ],
   "note": ""
  },
  {
   "property": "C81",
   "status": "proved",
   "theorems": [
    "C81_cashaddr",
    "C81_prefixes"
   ],
   "note": ""
  },
  {
   "property": "C82",
   "status": "proved",
   "theorems": [
    "C82_scripthash",
    "C82_others",
    "C82_every_scripthash"
   ],
   "note": ""
  },
  {
   "property": "C83",
   "status": "proved",
   "theorems": [
    "C83_normal_form",
    "C83_evaluation"
   ],
   "note": ""
  },
  {
   "property": "C84",
   "status": "proved",
   "theorems": [
    "C84_signed",
    "C84_sound",
    "C84_order"
   ],
   "note": ""
  },
  {
   "property": "C85",
   "status": "proved",
   "theorems": [
    "C85_seed",
    "C85_seed_error",
    "C85_valid"
   ],
   "note": ""
  },
  {
   "property": "C86",
   "status": "proved",
   "theorems": [
    "C86_words",
    "C86_result",
    "C86_shipped",
    "C86_undetected"
   ],
   "note": ""
  },
  {
   "property": "C87",
   "status": "proved",
   "theorems": [
    "C87_headers",
    "C87_chains",
    "C87_connect",
    "C87_any_order"
   ],
   "note": ""
  },
  {
   "property": "C88",
   "status": "proved",
   "theorems": [
    "C88_mainnet_address",
    "C88_testnet_address",
    "C88_WIF",
    "C88_WIF_accepted",
    "C88_extended",
    "C88_extended_accepted"
   ],
   "note": ""
  },
  {
   "property": "C89",
   "status": "proved",
   "theorems": [
    "C89_equal",
    "C89_equivalence",
    "C89_hash",
    "C89_address",
    "C89_scripts_differ",
    "C89_extended"
   ],
   "note": ""
  },
  {
   "property": "C90",
   "status": "proved",
   "theorems": [
    "C90_failures",
    "C90_content",
    "C90_coinbase",
    "C90_total",
    "C90_lossless",
    "C90_byte_order"
   ],
   "note": ""
  },
  {
   "property": "C91",
   "status": "proved",
   "theorems": [
    "C91_meaning",
    "C91_injective",
    "C91_dates"
   ],
   "note": ""
  },
  {
   "property": "C92",
   "status": "proved",
   "theorems": [
    "C92_payload",
    "C92_prefix",
    "C92_blind"
   ],
   "note": ""
  },
  {
   "property": "C93",
   "status": "proved",
   "theorems": [
    "C93_canonical",
    "C93_accepts",
    "C93_roundtrip",
    "C93_signature",
    "C93_signed",
    "C93_malleable",
    "C93_errors",
    "C93_verify_text",
    "C93_encrypted",
    "C93_decrypt_errors"
   ],
   "note": ""
  },
  {
   "property": "C94",
   "status": "proved",
   "theorems": [
    "C94_slice",
    "C94_positions_unique",
    "C94_whole",
    "C94_bad_keys",
    "C94_above",
    "C94_below",
    "C94_set_nat",
    "C94_set_negative"
   ],
   "note": ""
  },
  {
   "property": "C95",
   "status": "proved",
   "theorems": [
    "C95_curve",
    "C95_group",
    "C95_from_bytes",
    "C95_to_point",
    "C95_from_point",
    "C95_private"
   ],
   "note": ""
  },
  {
   "property": "C96",
   "status": "proved",
   "theorems": [
    "C96_verify_der",
    "C96_one",
    "C96_verify_recoverable",
    "C96_recover",
    "C96_recovered",
    "C96_commits",
    "C96_flip",
    "C96_sign"
   ],
   "note": ""
  },
  {
   "property": "C97",
   "status": "proved",
   "theorems": [
    "C97_lookup",
    "C97_chain",
    "C97_longest"
   ],
   "note": ""
  },
  {
   "property": "C98",
   "status": "proved",
   "theorems": [
    "C98_on_chain",
    "C98_all_obey",
    "C98_later"
   ],
   "note": ""
  },
  {
   "property": "C99",
   "status": "proved",
   "theorems": [
    "C99_refused",
    "C99_below",
    "C99_checkpoint"
   ],
   "note": ""
  },
  {
   "property": "C100",
   "status": "proved",
   "theorems": [
    "C100_key",
    "C100_multisig",
    "C100_classified",
    "C100_injective",
    "C100_complement"
   ],
   "note": ""
  },
  {
   "property": "C101",
   "status": "proved",
   "theorems": [
    "C101_opens",
    "C101_refused",
    "C101_iff",
    "C101_cases",
    "C101_unchecked"
   ],
   "note": ""
  },
  {
   "property": "C102",
   "status": "proved",
   "theorems": [
    "C102_too_many"
   ],
   "note": ""
  },
  {
   "property": "C103",
   "status": "proved",
   "theorems": [
    "C103_text",
    "C103_unambiguous",
    "C103_commits"
   ],
   "note": ""
  },
  {
   "property": "C104",
   "status": "proved",
   "theorems": [
    "C104_layout",
    "C104_exact",
    "C104_aes",
    "C104_unique"
   ],
   "note": ""
  },
  {
   "property": "C105",
   "status": "proved",
   "theorems": [
    "C105_nearest",
    "C105_strict",
    "C105_one"
   ],
   "note": ""
  },
  {
   "property": "C106",
   "status": "proved",
   "theorems": [
    "C106_header",
    "C106_header_determined",
    "C106_bits_misprinted",
    "C106_insufficient",
    "C106_texts",
    "C106_determined",
    "C106_private",
    "C106_public",
    "C106_signature"
   ],
   "note": ""
  },
  {
   "property": "C107",
   "status": "proved",
   "theorems": [
    "C107_separate",
    "C107_tests"
   ],
   "note": ""
  },
  {
   "property": "C108",
   "status": "proved",
   "theorems": [
    "C108_pbkdf2",
    "C108_seed",
    "C108_same",
    "C108_ascii",
    "C108_valid"
   ],
   "note": ""
  },
  {
   "property": "C109",
   "status": "proved",
   "theorems": [
    "C109_answers",
    "C109_stable",
    "C109_history",
    "C109_electrum"
   ],
   "note": ""
  },
  {
   "property": "C110",
   "status": "proved",
   "theorems": [
    "C110_private",
    "C110_WIF",
    "C110_uncompressed",
    "C110_public_key",
    "C110_useless",
    "C110_text",
    "C110_public",
    "C110_verify",
    "C110_signed",
    "C110_combine"
   ],
   "note": ""
  },
  {
   "property": "C111",
   "status": "proved",
   "theorems": [
    "C111_earlier",
    "C111_incomplete",
    "C111_cut",
    "C111_ragged",
    "C111_torn"
   ],
   "note": ""
  },
  {
   "property": "C112",
   "status": "proved",
   "theorems": [
    "C112_connect",
    "C112_lookup",
    "C112_answer",
    "C112_errors",
    "C112_height",
    "C112_early",
    "C112_tip",
    "C112_two_writers",
    "C112_same_header"
   ],
   "note": ""
  },
  {
   "property": "C113",
   "status": "proved",
   "theorems": [
    "C113_others",
    "C113_input",
    "C113_moved",
    "C113_all",
    "C113_verify"
   ],
   "note": ""
  },
  {
   "property": "C114",
   "status": "proved",
   "theorems": [
    "C114_reader",
    "C114_writer",
    "C114_reopen"
   ],
   "note": ""
  },
  {
   "property": "C115",
   "status": "proved",
   "theorems": [
    "C115_export",
    "C115_message",
    "C115_cosigners",
    "C115_keys",
    "C115_spend"
   ],
   "note": ""
  },
  {
   "property": "C116",
   "status": "proved",
   "theorems": [
    "C116_step",
    "C116_decay",
    "C116_window",
    "C116_collection",
    "C116_cost"
   ],
   "note": ""
  },
  {
   "property": "C117",
   "status": "proved",
   "theorems": [
    "C117_mainnet",
    "C117_testnet"
   ],
   "note": ""
  },
  {
   "property": "C118",
   "status": "proved",
   "theorems": [
    "C118_step",
    "C118_growth",
    "C118_collection"
   ],
   "note": ""
  },
  {
   "property": "C119",
   "status": "proved",
   "theorems": [
    "C119_transparent",
    "C119_kept",
    "C119_public_key"
   ],
   "note": ""
  },
  {
   "property": "C120",
   "status": "proved",
   "theorems": [
    "C120_required",
    "C120_coins",
    "C120_collection",
    "C120_work",
    "C120_reset",
    "C120_period"
   ],
   "note": ""
  },
  {
   "property": "C121",
   "status": "proved",
   "theorems": [
    "C121_accept",
    "C121_otherwise",
    "C121_tie"
   ],
   "note": ""
  },
  {
   "property": "C122",
   "status": "proved",
   "theorems": [
    "C122_branches",
    "C122_reorg"
   ],
   "note": ""
  },
  {
   "property": "C123",
   "status": "proved",
   "theorems": [
    "C123_more",
    "C123_honest"
   ],
   "note": ""
  },
  {
   "property": "C124",
   "status": "proved",
   "theorems": [
    "C124_size",
    "C124_price"
   ],
   "note": ""
  },
  {
   "property": "C125",
   "status": "proved",
   "theorems": [
    "C125_identity",
    "C125_text",
    "C125_read",
    "C125_malleable"
   ],
   "note": ""
  },
  {
   "property": "C126",
   "status": "proved",
   "theorems": [
    "C126_unchecked",
    "C126_rising",
    "C126_falling"
   ],
   "note": ""
  },
  {
   "property": "C127",
   "status": "proved",
   "theorems": [
    "C127_leak",
    "C127_siblings",
    "C127_children",
    "C127_addresses"
   ],
   "note": ""
  },
  {
   "property": "C128",
   "status": "proved",
   "theorems": [
    "C128_stays_final",
    "C128_by_height",
    "C128_lost"
   ],
   "note": ""
  },
  {
   "property": "C129",
   "status": "proved",
   "theorems": [
    "C129_paths",
    "C129_wallets"
   ],
   "note": ""
  },
  {
   "property": "C130",
   "status": "proved",
   "theorems": [
    "C130_digests",
    "C130_keys",
    "C130_another"
   ],
   "note": ""
  }
 ]
}