{
 "claims": [
  {
   "property": "C01",
   "status": "proved",
   "theorems": [
    "Fips205.Props.C01_pure_signatures_verify"
   ],
   "note": ""
  },
  {
   "property": "C02",
   "status": "proved",
   "theorems": [
    "Fips205.Props.C02_prehash_signatures_verify"
   ],
   "note": ""
  },
  {
   "property": "C03",
   "status": "proved",
   "theorems": [
    "Fips205.Props.C03_transported_keys",
    "Fips205.Props.C03_decoded_key_signs"
   ],
   "note": ""
  },
  {
   "property": "C04",
   "status": "proved",
   "theorems": [
    "Fips205.Props.C04_long_context_refused",
    "Fips205.Props.C04_short_context_accepted"
   ],
   "note": ""
  },
  {
   "property": "C05",
   "status": "proved",
   "theorems": [
    "Fips205.Props.C05_signing_outcomes",
    "Fips205.Props.C05_error_iff",
    "Fips205.Props.C05_hash_error_iff"
   ],
   "note": ""
  },
  {
   "property": "C06",
   "status": "proved",
   "theorems": [
    "Fips205.Props.C06_keygen_draws"
   ],
   "note": ""
  },
  {
   "property": "C07",
   "status": "proved",
   "theorems": [
    "Fips205.Props.C07_seeds_equal_rng",
    "Fips205.Props.C07_seeds_total",
    "Fips205.Props.C07_wrong_length_panics"
   ],
   "note": ""
  },
  {
   "property": "C08",
   "status": "proved",
   "theorems": [
    "Fips205.Props.C08_deterministic_signing"
   ],
   "note": ""
  },
  {
   "property": "C09",
   "status": "proved",
   "theorems": [
    "Fips205.Props.C09_hedged_same_draw",
    "Fips205.Props.C09_hedged_pk_seed"
   ],
   "note": ""
  },
  {
   "property": "C10",
   "status": "proved",
   "theorems": [
    "Fips205.Props.C10_verification_total"
   ],
   "note": ""
  },
  {
   "property": "C11",
   "status": "proved",
   "theorems": [
    "Fips205.Props.C11_public_key_decode_encode",
    "Fips205.Props.C11_public_key_encode_decode"
   ],
   "note": ""
  },
  {
   "property": "C12",
   "status": "proved",
   "theorems": [
    "Fips205.Props.C12_private_key_decode",
    "Fips205.Props.C12_generated_key_roundtrip"
   ],
   "note": ""
  },
  {
   "property": "C13",
   "status": "proved",
   "theorems": [
    "Fips205.Props.C13_sk_prf_not_validated"
   ],
   "note": ""
  },
  {
   "property": "C14",
   "status": "proved",
   "theorems": [
    "Fips205.Props.C14_signature_encode_decode",
    "Fips205.Props.C14_signature_decode_encode",
    "Fips205.Props.C14_every_byte_significant"
   ],
   "note": ""
  },
  {
   "property": "C15",
   "status": "proved",
   "theorems": [
    "Fips205.Props.C15_get_public_key",
    "Fips205.Props.C15_public_key_bytes"
   ],
   "note": ""
  },
  {
   "property": "C16",
   "status": "proved",
   "theorems": [
    "Fips205.Props.C16_requests_sign_strings",
    "Fips205.Props.C16_pure_injective",
    "Fips205.Props.C16_pure_prehash_disjoint"
   ],
   "note": ""
  },
  {
   "property": "C17",
   "status": "proved",
   "theorems": [
    "Fips205.Props.C17_prehash_injective",
    "Fips205.Props.C17_prehash_determined",
    "Fips205.Props.C17_requests_sign_injective_encoding"
   ],
   "note": ""
  },
  {
   "property": "C18",
   "status": "proved",
   "theorems": [
    "Fips205.Props.C18_keygen_conforms",
    "Fips205.Props.C18_seeded_keygen_conforms"
   ],
   "note": ""
  },
  {
   "property": "C19",
   "status": "proved",
   "theorems": [
    "Fips205.Props.C19_sign_conforms",
    "Fips205.Props.C19_hash_sign_conforms",
    "Fips205.Props.C19_deterministic_sign_iff",
    "Fips205.Props.C19_sign_iff"
   ],
   "note": ""
  },
  {
   "property": "C20",
   "status": "proved",
   "theorems": [
    "Fips205.Props.C20_verify_conforms"
   ],
   "note": ""
  },
  {
   "property": "C21",
   "status": "proved",
   "theorems": [
    "Fips205.Props.C21_hash_constructions"
   ],
   "note": ""
  },
  {
   "property": "C22",
   "status": "proved",
   "theorems": [
    "Fips205.Props.C22_to_int",
    "Fips205.Props.C22_to_byte",
    "Fips205.Props.C22_base_2b"
   ],
   "note": ""
  },
  {
   "property": "C23",
   "status": "proved",
   "theorems": [
    "Fips205.Props.C23_checksum_prevents_domination"
   ],
   "note": ""
  },
  {
   "property": "C24",
   "status": "proved",
   "theorems": [
    "Fips205.Props.C24_digest_split"
   ],
   "note": ""
  },
  {
   "property": "C25",
   "status": "proved",
   "theorems": [
    "Fips205.Props.C25_prf_inputs_distinct",
    "Fips205.Props.C25_fors_secret",
    "Fips205.Props.C25_wots_secret",
    "Fips205.Props.C25_signed_secrets"
   ],
   "note": ""
  },
  {
   "property": "C26",
   "status": "proved",
   "theorems": [
    "Fips205.Props.C26_honest_or_break",
    "Fips205.Props.C26_break_meaning"
   ],
   "note": ""
  },
  {
   "property": "C27",
   "status": "proved",
   "theorems": [
    "Fips205.Props.C27_altering_needs_break"
   ],
   "note": ""
  },
  {
   "property": "C28",
   "status": "proved",
   "theorems": [
    "Fips205.Props.C28_keygen",
    "Fips205.Props.C28_sign",
    "Fips205.Props.C28_verify",
    "Fips205.Props.C28_serdes"
   ],
   "note": ""
  },
  {
   "property": "C29",
   "status": "proved",
   "theorems": [
    "Fips205.Props.C29_try_keygen_with_rng",
    "Fips205.Props.C29_keygen_with_seeds"
   ],
   "note": ""
  },
  {
   "property": "C30",
   "status": "proved",
   "theorems": [
    "Fips205.Props.C30_try_sign_with_rng",
    "Fips205.Props.C30_try_hash_sign_with_rng",
    "Fips205.Props.C30_raw_sign"
   ],
   "note": ""
  },
  {
   "property": "C31",
   "status": "proved",
   "theorems": [
    "Fips205.Props.C31_verify",
    "Fips205.Props.C31_hash_verify",
    "Fips205.Props.C31_raw_verify"
   ],
   "note": ""
  },
  {
   "property": "C32",
   "status": "proved",
   "theorems": [
    "Fips205.Props.C32_histories",
    "Fips205.Props.C32_keys_never_change",
    "Fips205.Props.C32_no_panic"
   ],
   "note": ""
  },
  {
   "property": "C33",
   "status": "proved",
   "theorems": [
    "Fips205.Props.C33_zeroize",
    "Fips205.Props.C33_zeroized_key_still_signs"
   ],
   "note": ""
  },
  {
   "property": "C34",
   "status": "proved",
   "theorems": [
    "Fips205.Props.C34_keygen_null",
    "Fips205.Props.C34_keygen_present",
    "Fips205.Props.C34_keygen_outcomes",
    "Fips205.Props.C34_codes"
   ],
   "note": ""
  },
  {
   "property": "C35",
   "status": "proved",
   "theorems": [
    "Fips205.Props.C35_sign",
    "Fips205.Props.C35_sign_null",
    "Fips205.Props.C35_sign_error_untouched",
    "Fips205.Props.C35_verify",
    "Fips205.Props.C35_sign_then_verify"
   ],
   "note": ""
  },
  {
   "property": "C36",
   "status": "partial",
   "theorems": [
    "Fips205.Props.C36_null_pointers_partial",
    "Fips205.Props.C36_verify_null_message_is_ub",
    "Fips205.Props.C36_negative_length_aborts"
   ],
   "note": "False as stated for the present code. Proved: every null key/output pointer (and null message when signing) gives NULL_PTR_ERROR. Refuted by C36_verify_null_message_is_ub (verify has no null check on message_buf) and C36_negative_length_aborts (message_len.try_into().unwrap()). C41 gives the exact behaviour."
  },
  {
   "property": "C37",
   "status": "proved",
   "theorems": [
    "Fips205.Props.C37_raw_roundtrip",
    "Fips205.Props.C37_raw_forges_pure",
    "Fips205.Props.C37_raw_forges_prehash"
   ],
   "note": ""
  },
  {
   "property": "C38",
   "status": "proved",
   "theorems": [
    "Fips205.Props.C38_parameter_table"
   ],
   "note": ""
  },
  {
   "property": "C39",
   "status": "proved",
   "theorems": [
    "Fips205.Props.C39_public_key_ignores_sk_prf",
    "Fips205.Props.C39_rng"
   ],
   "note": ""
  },
  {
   "property": "C40",
   "status": "proved",
   "theorems": [
    "Fips205.Props.C40_stateless",
    "Fips205.Props.C40_deterministic"
   ],
   "note": ""
  },
  {
   "property": "C41",
   "status": "proved",
   "theorems": [
    "Fips205.Props.C41_verify_characterised",
    "Fips205.Props.C41_sign_characterised"
   ],
   "note": ""
  },
  {
   "property": "C42",
   "status": "proved",
   "theorems": [
    "Fips205.Props.C42_wots_key_signs_one_value"
   ],
   "note": ""
  },
  {
   "property": "C43",
   "status": "proved",
   "theorems": [
    "Fips205.Props.C43_addresses_distinct",
    "Fips205.Props.C43_wots_addresses",
    "Fips205.Props.C43_xmss_addresses",
    "Fips205.Props.C43_fors_addresses",
    "Fips205.Props.C43_code_chain",
    "Fips205.Props.C43_code_xmss",
    "Fips205.Props.C43_code_fors",
    "Fips205.Props.C43_sign_calls",
    "Fips205.Props.C43_verify_calls"
   ],
   "note": ""
  },
  {
   "property": "C44",
   "status": "proved",
   "theorems": [
    "Fips205.Props.C44_sk_try_from_bytes",
    "Fips205.Props.C44_exact"
   ],
   "note": ""
  },
  {
   "property": "C45",
   "status": "proved",
   "theorems": [
    "Fips205.Props.C45_try_sign_with_rng",
    "Fips205.Props.C45_try_hash_sign_with_rng",
    "Fips205.Props.C45_raw_sign"
   ],
   "note": ""
  },
  {
   "property": "C46",
   "status": "proved",
   "theorems": [
    "Fips205.Props.C46_try_keygen_with_rng",
    "Fips205.Props.C46_keygen_with_seeds",
    "Fips205.Props.C46_sk_try_from_bytes"
   ],
   "note": ""
  },
  {
   "property": "C47",
   "status": "proved",
   "theorems": [
    "Fips205.Props.C47_same_results",
    "Fips205.Props.C47_same_seeded",
    "Fips205.Props.C47_try_keygen_with_rng",
    "Fips205.Props.C47_keygen_with_seeds",
    "Fips205.Props.C47_sk_try_from_bytes",
    "Fips205.Props.C47_try_sign_with_rng",
    "Fips205.Props.C47_raw_sign",
    "Fips205.Props.C47_try_hash_sign_with_rng",
    "Fips205.Props.C47_verify",
    "Fips205.Props.C47_raw_verify",
    "Fips205.Props.C47_hash_verify",
    "Fips205.Props.C47_no_repeats"
   ],
   "note": ""
  },
  {
   "property": "C48",
   "status": "proved",
   "theorems": [
    "Fips205.Props.C48_signature_opens",
    "Fips205.Props.C48_new_signature_needs",
    "Fips205.Props.C48_unforgeable"
   ],
   "note": ""
  },
  {
   "property": "C49",
   "status": "proved",
   "theorems": [
    "Fips205.Props.C49_one_signature_two_messages",
    "Fips205.Props.C49_signed_for_another"
   ],
   "note": ""
  },
  {
   "property": "C50",
   "status": "proved",
   "theorems": [
    "Fips205.Props.C50_public_key_binds_seed"
   ],
   "note": ""
  },
  {
   "property": "C51",
   "status": "proved",
   "theorems": [
    "Fips205.Props.C51_fuzz_sign_total",
    "Fips205.Props.C51_fuzz_verify_total",
    "Fips205.Props.C51_fuzz_sign_results",
    "Fips205.Props.C51_fuzz_verify_results"
   ],
   "note": ""
  },
  {
   "property": "C52",
   "status": "proved",
   "theorems": [
    "Fips205.Props.C52_py_key_objects",
    "Fips205.Props.C52_py_keygen",
    "Fips205.Props.C52_py_verify_length",
    "Fips205.Props.C52_py_verify",
    "Fips205.Props.C52_py_sign",
    "Fips205.Props.C52_py_sign_then_verify",
    "Fips205.Props.C52_py_aborts",
    "Fips205.Props.C52_py_long_messages",
    "Fips205.Props.C52_py_no_ub",
    "Fips205.Props.C52_py_keygen_sign_verify"
   ],
   "note": ""
  },
  {
   "property": "C53",
   "status": "proved",
   "theorems": [
    "Fips205.Props.C53_c_keygen_memory",
    "Fips205.Props.C53_c_sign_memory",
    "Fips205.Props.C53_histories",
    "Fips205.Props.C53_into_bytes",
    "Fips205.Props.C53_c_keygen",
    "Fips205.Props.C53_c_sign"
   ],
   "note": ""
  },
  {
   "property": "C54",
   "status": "proved",
   "theorems": [
    "Fips205.Props.C54_try_keygen_with_rng",
    "Fips205.Props.C54_keygen_with_seeds",
    "Fips205.Props.C54_sk_try_from_bytes",
    "Fips205.Props.C54_try_sign_with_rng",
    "Fips205.Props.C54_raw_sign",
    "Fips205.Props.C54_try_hash_sign_with_rng",
    "Fips205.Props.C54_sign_spread",
    "Fips205.Props.C54_verify",
    "Fips205.Props.C54_raw_verify",
    "Fips205.Props.C54_hash_verify"
   ],
   "note": ""
  },
  {
   "property": "C55",
   "status": "proved",
   "theorems": [
    "Fips205.Props.C55_same_runs",
    "Fips205.Props.C55_same_checks",
    "Fips205.Props.C55_same_seeded",
    "Fips205.Props.C55_same_ffi",
    "Fips205.Props.C55_try_keygen_with_rng",
    "Fips205.Props.C55_keygen_with_seeds",
    "Fips205.Props.C55_try_sign_with_rng",
    "Fips205.Props.C55_try_hash_sign_with_rng",
    "Fips205.Props.C55_verify",
    "Fips205.Props.C55_hash_verify",
    "Fips205.Props.C55_sk_try_from_bytes"
   ],
   "note": ""
  },
  {
   "property": "C56",
   "status": "proved",
   "theorems": [
    "Fips205.Props.C56_measurement",
    "Fips205.Props.C56_keygen_trace",
    "Fips205.Props.C56_spread",
    "Fips205.Props.C56_classes_differ"
   ],
   "note": ""
  },
  {
   "property": "C57",
   "status": "proved",
   "theorems": [
    "Fips205.Props.C57_baseline",
    "Fips205.Props.C57_baseline_failure"
   ],
   "note": ""
  },
  {
   "property": "C58",
   "status": "proved",
   "theorems": [
    "Fips205.Props.C58_acvp_keygen",
    "Fips205.Props.C58_acvp_sign",
    "Fips205.Props.C58_acvp_sign_length",
    "Fips205.Props.C58_acvp_verify",
    "Fips205.Props.C58_py_vector"
   ],
   "note": ""
  },
  {
   "property": "C59",
   "status": "proved",
   "theorems": [
    "Fips205.Props.C59_round_trips",
    "Fips205.Props.C59_failure_needs",
    "Fips205.Props.C59_browser_message"
   ],
   "note": ""
  },
  {
   "property": "C60",
   "status": "proved",
   "theorems": [
    "Fips205.Props.C60_accepted_fit",
    "Fips205.Props.C60_seen",
    "Fips205.Props.C60_reuse",
    "Fips205.Props.C60_one_signature",
    "Fips205.Props.C60_altered",
    "Fips205.Props.C60_signed",
    "Fips205.Props.C60_key_determined"
   ],
   "note": ""
  },
  {
   "property": "C61",
   "status": "proved",
   "theorems": [
    "Fips205.Props.C61_new_signature_needs",
    "Fips205.Props.C61_covered_digests",
    "Fips205.Props.C61_covered_fraction"
   ],
   "note": ""
  },
  {
   "property": "C62",
   "status": "proved",
   "theorems": [
    "Fips205.Props.C62_covered_average",
    "Fips205.Props.C62_after_2_64_signatures",
    "Fips205.Props.C62_tries"
   ],
   "note": ""
  },
  {
   "property": "C63",
   "status": "proved",
   "theorems": [
    "Fips205.Props.C63_values",
    "Fips205.Props.C63_verify",
    "Fips205.Props.C63_hash_verify",
    "Fips205.Props.C63_raw_verify",
    "Fips205.Props.C63_try_sign_with_rng",
    "Fips205.Props.C63_raw_sign",
    "Fips205.Props.C63_try_hash_sign_with_rng",
    "Fips205.Props.C63_try_keygen_with_rng",
    "Fips205.Props.C63_keygen_with_seeds",
    "Fips205.Props.C63_sk_try_from_bytes"
   ],
   "note": ""
  },
  {
   "property": "C64",
   "status": "proved",
   "theorems": [
    "Fips205.Props.C64_keygen_writes",
    "Fips205.Props.C64_sign_writes",
    "Fips205.Props.C64_keygen",
    "Fips205.Props.C64_sign",
    "Fips205.Props.C64_verify",
    "Fips205.Props.C64_keygen_undefined",
    "Fips205.Props.C64_sign_undefined",
    "Fips205.Props.C64_verify_undefined",
    "Fips205.Props.C64_session",
    "Fips205.Props.C64_keygen_agrees",
    "Fips205.Props.C64_sign_agrees",
    "Fips205.Props.C64_verify_agrees"
   ],
   "note": ""
  },
  {
   "property": "C65",
   "status": "proved",
   "theorems": [
    "Fips205.Props.C65_covered_is_forged",
    "Fips205.Props.C65_covered_count",
    "Fips205.Props.C65_after_one_signature"
   ],
   "note": ""
  },
  {
   "property": "C66",
   "status": "proved",
   "theorems": [
    "Fips205.Props.C66_attack_runs",
    "Fips205.Props.C66_random_function",
    "Fips205.Props.C66_collision_forges"
   ],
   "note": ""
  },
  {
   "property": "C67",
   "status": "proved",
   "theorems": [
    "Fips205.Props.C67_random_functions",
    "Fips205.Props.C67_runs",
    "Fips205.Props.C67_bits"
   ],
   "note": ""
  },
  {
   "property": "C68",
   "status": "proved",
   "theorems": [
    "Fips205.Props.C68_shake",
    "Fips205.Props.C68_runs",
    "Fips205.Props.C68_bits"
   ],
   "note": ""
  },
  {
   "property": "C69",
   "status": "proved",
   "theorems": [
    "Fips205.Props.C69_sha2",
    "Fips205.Props.C69_random_seed",
    "Fips205.Props.C69_bits"
   ],
   "note": ""
  },
  {
   "property": "C70",
   "status": "proved",
   "theorems": [
    "Fips205.Props.C70_runs",
    "Fips205.Props.C70_calls",
    "Fips205.Props.C70_shake",
    "Fips205.Props.C70_sha2",
    "Fips205.Props.C70_bits"
   ],
   "note": ""
  },
  {
   "property": "C71",
   "status": "proved",
   "theorems": [
    "Fips205.Props.C71_runs",
    "Fips205.Props.C71_shake",
    "Fips205.Props.C71_sha2",
    "Fips205.Props.C71_bits"
   ],
   "note": ""
  },
  {
   "property": "C72",
   "status": "proved",
   "theorems": [
    "Fips205.Props.C72_example_sign",
    "Fips205.Props.C72_example_seeds",
    "Fips205.Props.C72_example_hash",
    "Fips205.Props.C72_example_public",
    "Fips205.Props.C72_bench_setup",
    "Fips205.Props.C72_bench_sign",
    "Fips205.Props.C72_bench_keygen"
   ],
   "note": ""
  },
  {
   "property": "C73",
   "status": "proved",
   "theorems": [
    "Fips205.Props.C73_runs",
    "Fips205.Props.C73_bound",
    "Fips205.Props.C73_bits",
    "Fips205.Props.C73_users"
   ],
   "note": ""
  },
  {
   "property": "C74",
   "status": "proved",
   "theorems": [
    "Fips205.Props.C74_sound",
    "Fips205.Props.C74_keys_never_change",
    "Fips205.Props.C74_as_if_alone",
    "Fips205.Props.C74_draws",
    "Fips205.Props.C74_finishes"
   ],
   "note": ""
  },
  {
   "property": "C75",
   "status": "proved",
   "theorems": [
    "Fips205.Props.C75_runs",
    "Fips205.Props.C75_bound",
    "Fips205.Props.C75_bits"
   ],
   "note": ""
  },
  {
   "property": "C76",
   "status": "proved",
   "theorems": [
    "Fips205.Props.C76_accepted_twice",
    "Fips205.Props.C76_runs",
    "Fips205.Props.C76_bound",
    "Fips205.Props.C76_bits"
   ],
   "note": ""
  },
  {
   "property": "C77",
   "status": "proved",
   "theorems": [
    "Fips205.Props.C77_u32",
    "Fips205.Props.C77_u64",
    "Fips205.Props.C77_usize",
    "Fips205.Props.C77_div",
    "Fips205.Props.C77_shift",
    "Fips205.Props.C77_convert",
    "Fips205.Props.C77_bytes",
    "Fips205.Props.C77_index",
    "Fips205.Props.C77_slice",
    "Fips205.Props.C77_copy",
    "Fips205.Props.C77_write",
    "Fips205.Props.C77_debug_assert",
    "Fips205.Props.C77_for",
    "Fips205.Props.C77_for_early",
    "Fips205.Props.C77_while"
   ],
   "note": ""
  },
  {
   "property": "C78",
   "status": "proved",
   "theorems": [
    "Fips205.Props.C78_runs",
    "Fips205.Props.C78_bound",
    "Fips205.Props.C78_bits"
   ],
   "note": ""
  },
  {
   "property": "C79",
   "status": "proved",
   "theorems": [
    "Fips205.Props.C79_runs",
    "Fips205.Props.C79_bound",
    "Fips205.Props.C79_bits"
   ],
   "note": "Bound for random functions; deterministic signing and a signer who signs several requests are not covered. With W = 1 the message is known and the bound says nothing."
  },
  {
   "property": "C80",
   "status": "proved",
   "theorems": [
    "Fips205.Props.C80_keygen_suite",
    "Fips205.Props.C80_signing_suite",
    "Fips205.Props.C80_verification_suite",
    "Fips205.Props.C80_unknown_groups"
   ],
   "note": "The files are given as read from JSON; serde is not modelled."
  },
  {
   "property": "C81",
   "status": "proved",
   "theorems": [
    "Fips205.Props.C81_python",
    "Fips205.Props.C81_wasm"
   ],
   "note": "wasm/src/lib.rs does not compile against this version; the model adapts its calls (empty context, assertion on the Bool)."
  },
  {
   "property": "C82",
   "status": "proved",
   "theorems": [
    "Fips205.Props.C82_runs",
    "Fips205.Props.C82_bound",
    "Fips205.Props.C82_bits"
   ],
   "note": "Random oracle model; the bound counts the evaluations of the player and of the two decodings."
  },
  {
   "property": "C83",
   "status": "proved",
   "theorems": [
    "Fips205.Props.C83_runs",
    "Fips205.Props.C83_bound",
    "Fips205.Props.C83_users"
   ],
   "note": "Random oracle model; reduction to C73: the presented key signs a request that was not signed before."
  },
  {
   "property": "C84",
   "status": "proved",
   "theorems": [
    "Fips205.Props.C84_resolves",
    "Fips205.Props.C84_complete",
    "Fips205.Props.C84_offers",
    "Fips205.Props.C84_hashers",
    "Fips205.Props.C84_no_dead_code"
   ],
   "note": "About the text of the source: the tables of items and uses are a scan of names (tools/items.py --check compares them with /repo/src). Without any parameter set the crate has dead code, which src/lib.rs:2-4 forbids."
  },
  {
   "property": "C85",
   "status": "proved",
   "theorems": [
    "Fips205.Props.C85_forge",
    "Fips205.Props.C85_forge_near",
    "Fips205.Props.C85_seeds",
    "Fips205.Props.C85_forge_many",
    "Fips205.Props.C85_recover"
   ],
   "note": "The hash functions are random functions, independent of the generator; their distribution stays uniform."
  },
  {
   "property": "C86",
   "status": "proved",
   "theorems": [
    "Fips205.Props.C86_runs",
    "Fips205.Props.C86_distinct",
    "Fips205.Props.C86_bits",
    "Fips205.Props.C86_weak"
   ],
   "note": "For every fixed hash behaviour; the chance is over the draws only."
  },
  {
   "property": "C87",
   "status": "proved",
   "theorems": [
    "Fips205.Props.C87_keygen",
    "Fips205.Props.C87_sign",
    "Fips205.Props.C87_hash_sign",
    "Fips205.Props.C87_verify",
    "Fips205.Props.C87_decode",
    "Fips205.Props.C87_reload",
    "Fips205.Props.C87_sound_unit",
    "Fips205.Props.C87_verify_needs_hashes"
   ],
   "note": "The unit errs in the values only: answers have the length asked for. The RNG is independent of the unit and does not panic."
  },
  {
   "property": "C88",
   "status": "proved",
   "theorems": [
    "Fips205.Props.C88_watching",
    "Fips205.Props.C88_sign",
    "Fips205.Props.C88_hash_sign",
    "Fips205.Props.C88_places",
    "Fips205.Props.C88_hash_places",
    "Fips205.Props.C88_unseen"
   ],
   "note": "Errors are in the values only, as in C87. A place is unseen if it is below the top tree and off the way from the signature to the public key; the randomizer must differ from PK.seed for this reading."
  },
  {
   "property": "C89",
   "status": "proved",
   "theorems": [
    "Fips205.Props.C89_forged",
    "Fips205.Props.C89_reuse"
   ],
   "note": "The converse of the exception in C60. How likely a forger's value meets the condition on the digits is not part of the claim; they may try any number of seeds, randomizers and messages."
  },
  {
   "property": "C90",
   "status": "proved",
   "theorems": [
    "Fips205.Props.C90_shared",
    "Fips205.Props.C90_forged"
   ],
   "note": "A limit of the scheme, which the API permits: keygen_with_seeds takes any seeds. How likely two signatures meet at a leaf is not part of the claim."
  },
  {
   "property": "C91",
   "status": "proved",
   "theorems": [
    "Fips205.Props.C91_marked",
    "Fips205.Props.C91_nothing_shared",
    "Fips205.Props.C91_address_as_key"
   ],
   "note": "The calls of PRF_msg contain SK.prf in place of PK.seed, the pre-hash neither; they are left out."
  },
  {
   "property": "C92",
   "status": "proved",
   "theorems": [
    "Fips205.Props.C92_verify",
    "Fips205.Props.C92_hash_verify",
    "Fips205.Props.C92_guess",
    "Fips205.Props.C92_tries",
    "Fips205.Props.C92_decode",
    "Fips205.Props.C92_root",
    "Fips205.Props.C92_public_key"
   ],
   "note": "The hash functions are random functions; the random functions tell inputs of up to B bytes apart, for any B of at least 160 + 2n."
  },
  {
   "property": "C93",
   "status": "proved",
   "theorems": [
    "Fips205.Props.C93_digest",
    "Fips205.Props.C93_hash_digest",
    "Fips205.Props.C93_position",
    "Fips205.Props.C93_load",
    "Fips205.Props.C93_pair",
    "Fips205.Props.C93_pair_le",
    "Fips205.Props.C93_apart"
   ],
   "note": "The hash functions are random functions; the random functions tell inputs of up to B bytes apart, for any B large enough for the requests (512 for pre-hash signing). One length of formatted messages is left out for the SHA2 sets."
  },
  {
   "property": "C94",
   "status": "proved",
   "theorems": [
    "Fips205.Props.C94_mean",
    "Fips205.Props.C94_sign",
    "Fips205.Props.C94_verify"
   ],
   "note": "The hash functions are random functions, which tell inputs of up to B bytes apart for any B large enough for the trees; nothing is asked of the length of messages. The average of the steps in the three checksum chains is only bounded (0 to 45)."
  },
  {
   "property": "C95",
   "status": "proved",
   "theorems": [
    "Fips205.Props.C95_runs",
    "Fips205.Props.C95_intact",
    "Fips205.Props.C95_verdicts",
    "Fips205.Props.C95_noise"
   ],
   "note": "The hash functions are random functions; messages have at most L bytes for any L that the domain of the functions contains. The requests are fixed before; C71 has the bound for requests that depend on earlier signatures."
  },
  {
   "property": "C96",
   "status": "proved",
   "theorems": [
    "Fips205.Props.C96_runs",
    "Fips205.Props.C96_worlds",
    "Fips205.Props.C96_tests"
   ],
   "note": "The hash functions are random functions."
  },
  {
   "property": "C97",
   "status": "proved",
   "theorems": [
    "Fips205.Props.C97_runs",
    "Fips205.Props.C97_worlds"
   ],
   "note": "The hash function is a random function. Message pointers are readable and lengths are not negative; what happens otherwise is in C36 and C41."
  },
  {
   "property": "C98",
   "status": "proved",
   "theorems": [
    "Fips205.Props.C98_uniform",
    "Fips205.Props.C98_pair",
    "Fips205.Props.C98_pair_le",
    "Fips205.Props.C98_apart",
    "Fips205.Props.C98_hedged",
    "Fips205.Props.C98_signatures",
    "Fips205.Props.C98_made"
   ],
   "note": "The hash functions are random functions, large enough for the messages. Messages that are pre-hashed do not begin with the secret SK.prf (such messages could collide with the inputs of the keyed hash)."
  },
  {
   "property": "C99",
   "status": "proved",
   "theorems": [
    "Fips205.Props.C99_runs",
    "Fips205.Props.C99_worlds",
    "Fips205.Props.C99_limit"
   ],
   "note": "The hash functions are random functions, large enough for the messages. Messages of less than 2^31 bytes, as the wrapper cuts or refuses longer ones (C52)."
  },
  {
   "property": "C100",
   "status": "proved",
   "theorems": [
    "Fips205.Props.C100_prf",
    "Fips205.Props.C100_root",
    "Fips205.Props.C100_pk_seed",
    "Fips205.Props.C100_seeds",
    "Fips205.Props.C100_any"
   ],
   "note": "In (3)-(5) the hash functions are random functions, and the damage does not depend on them other than through the stored bytes."
  }
 ]
}