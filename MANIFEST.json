{"claims": [
 {"property": "C01", "status": "proved", "theorems": ["Chalamet.C01_index_pir"], "note": ""},
 {"property": "C02", "status": "proved", "theorems": ["Chalamet.C02_decryption_boundary", "Chalamet.C02_neighbours"], "note": ""},
 {"property": "C03", "status": "proved", "theorems": ["Chalamet.C03_noise_weight", "Chalamet.C03_worst_case", "Chalamet.C03_sharp"], "note": ""},
 {"property": "C04", "status": "proved", "theorems": ["Chalamet.C04_kv_pir", "Chalamet.C04_worst_case"], "note": ""},
 {"property": "C05", "status": "proved", "theorems": ["Chalamet.C05_single_use_index", "Chalamet.C05_single_use_kv"], "note": ""},
 {"property": "C06", "status": "proved", "theorems": ["Chalamet.C06_index_query_outcome", "Chalamet.C06_refuted", "Chalamet.C06_out_of_range"], "note": "naive claim refuted (C06_refuted); exact outcome proved"},
 {"property": "C07", "status": "proved", "theorems": ["Chalamet.C07_kv_query_outcome", "Chalamet.C07_kv_query_bijection"], "note": ""},
 {"property": "C08", "status": "proved", "theorems": ["Chalamet.C08_index_query_support", "Chalamet.C08_refuted"], "note": "naive claim refuted (C08_refuted); exact support proved"},
 {"property": "C09", "status": "proved", "theorems": ["Chalamet.C09_mask_reuse_index", "Chalamet.C09_mask_reuse_kv"], "note": ""},
 {"property": "C10", "status": "proved", "theorems": ["Chalamet.C10_bytes_bits_bytes", "Chalamet.C10_bits_bytes_bits", "Chalamet.C10_bits_value", "Chalamet.C10_float_index"], "note": ""},
 {"property": "C11", "status": "proved", "theorems": ["Chalamet.C11_u32_bits_u32", "Chalamet.C11_bits_u32", "Chalamet.C11_too_many_bits"], "note": ""},
 {"property": "C12", "status": "proved", "theorems": ["Chalamet.C12_row_digits", "Chalamet.C12_kv_row_digits"], "note": ""},
 {"property": "C13", "status": "proved", "theorems": ["Chalamet.C13_element_round_trip", "Chalamet.C13_truncation"], "note": ""},
 {"property": "C14", "status": "proved", "theorems": ["Chalamet.C14_last_digit_lost", "Chalamet.C14_round_trip_iff", "Chalamet.C14_refuted"], "note": "naive claim refuted (C14_refuted); exact behaviour proved"},
 {"property": "C15", "status": "proved", "theorems": ["Chalamet.C15_base64", "Chalamet.C15_accepted_strings"], "note": ""},
 {"property": "C16", "status": "proved", "theorems": ["Chalamet.C16_row_iterator"], "note": ""},
 {"property": "C17", "status": "proved", "theorems": ["Chalamet.C17_element_length"], "note": ""},
 {"property": "C18", "status": "proved", "theorems": ["Chalamet.C18_row_width"], "note": ""},
 {"property": "C19", "status": "proved", "theorems": ["Chalamet.C19_scaling", "Chalamet.C19_zero_bits", "Chalamet.C19_too_many_bits", "Chalamet.C19_truncated"], "note": ""},
 {"property": "C20", "status": "proved", "theorems": ["Chalamet.C20_respond"], "note": ""},
 {"property": "C21", "status": "proved", "theorems": ["Chalamet.C21_linear", "Chalamet.C21_unit_query"], "note": ""},
 {"property": "C22", "status": "proved", "theorems": ["Chalamet.C22_response_round_trip"], "note": ""},
 {"property": "C23", "status": "proved", "theorems": ["Chalamet.C23_transpose", "Chalamet.C23_empty", "Chalamet.C23_switch_fmt"], "note": ""},
 {"property": "C24", "status": "proved", "theorems": ["Chalamet.C24_same_matrix", "Chalamet.C24_matrix_words"], "note": ""},
 {"property": "C25", "status": "proved", "theorems": ["Chalamet.C25_dimension_check", "Chalamet.C25_dimension_check_kv"], "note": ""},
 {"property": "C26", "status": "proved", "theorems": ["Chalamet.C26_ternary_sample", "Chalamet.C26_ternary_vector"], "note": ""},
 {"property": "C27", "status": "proved", "theorems": ["Chalamet.C27_preimage_counts"], "note": "exact uniformity is false; exact counts proved"},
 {"property": "C28", "status": "proved", "theorems": ["Chalamet.C28_retrieve", "Chalamet.C28_retrieve_distinct"], "note": "release builds: hypothesis that no slot is hit by 64 or more keys (u8 counters wrap)"},
 {"property": "C29", "status": "proved", "theorems": ["Chalamet.C29_total"], "note": ""},
 {"property": "C30", "status": "proved", "theorems": ["Chalamet.C30_retries_useless"], "note": ""},
 {"property": "C31", "status": "proved", "theorems": ["Chalamet.C31_slots"], "note": ""},
 {"property": "C32", "status": "proved", "theorems": ["Chalamet.C32_mix64_bijective", "Chalamet.C32_mix_bijective"], "note": ""},
 {"property": "C33", "status": "proved", "theorems": ["Chalamet.C33_permutation_collision", "Chalamet.C33_refuted"], "note": "naive claim refuted (C33_refuted)"},
 {"property": "C34", "status": "proved", "theorems": ["Chalamet.C34_collision_shares_datum", "Chalamet.C34_last_datum", "Chalamet.C34_refuted"], "note": "naive claim refuted (C34_refuted)"},
 {"property": "C35", "status": "proved", "theorems": ["Chalamet.C35_modulus_characterisation", "Chalamet.C35_refuted"], "note": "naive claim refuted (C35_refuted); exact characterisation proved"},
 {"property": "C36", "status": "proved", "theorems": ["Chalamet.C36_unmask"], "note": ""},
 {"property": "C37", "status": "proved", "theorems": ["Chalamet.C37_shared_geometry"], "note": ""},
 {"property": "C38", "status": "proved", "theorems": ["Chalamet.C38_columns_together"], "note": ""},
 {"property": "C39", "status": "proved", "theorems": ["Chalamet.C39_absent_keys", "Chalamet.C39_row_value"], "note": ""},
 {"property": "C40", "status": "proved", "theorems": ["Chalamet.C40_no_false_negatives", "Chalamet.C40_total", "Chalamet.C40_keys_do_not_collide"], "note": "release builds: slot load below 64"},
 {"property": "C41", "status": "proved", "theorems": ["Chalamet.C41_no_false_negatives", "Chalamet.C41_total"], "note": ""},
 {"property": "C42", "status": "proved", "theorems": ["Chalamet.C42_duplicates"], "note": ""},
 {"property": "C43", "status": "proved", "theorems": ["Chalamet.C43_no_false_negatives", "Chalamet.C43_total"], "note": ""},
 {"property": "C44", "status": "proved", "theorems": ["Chalamet.C44_small_inputs"], "note": "naive claim (Err) is false; exact behaviour proved"},
 {"property": "C45", "status": "proved", "theorems": ["Chalamet.C45_no_false_negatives", "Chalamet.C45_over_xor", "Chalamet.C45_hash_collision"], "note": ""},
 {"property": "C46", "status": "proved", "theorems": ["Chalamet.C46_seeds_distinct"], "note": ""},
 {"property": "C47", "status": "proved", "theorems": ["Chalamet.C47_params_not_loadable"], "note": "naive round trip is false for every shard"},
 {"property": "C48", "status": "proved", "theorems": ["Chalamet.C48_db_not_loadable"], "note": "naive round trip is false for every shard"},
 {"property": "C49", "status": "proved", "theorems": ["Chalamet.C49_write_two_files"], "note": ""},
 {"property": "C50", "status": "proved", "theorems": ["Chalamet.C50_keyword_derivation"], "note": ""},
 {"property": "C51", "status": "proved", "theorems": ["Chalamet.C51_length_mismatch", "Chalamet.C51_malformed_value", "Chalamet.C51_short_value"], "note": ""},
 {"property": "C52", "status": "proved", "theorems": ["Chalamet.C52_kv_bytes", "Chalamet.C52_index_bytes"], "note": ""},
 {"property": "C53", "status": "proved", "theorems": ["Chalamet.C53_fuse_duplicates"], "note": ""},
 {"property": "C54", "status": "proved", "theorems": ["Chalamet.C54_index_params", "Chalamet.C54_filter_params", "Chalamet.C54_kv_params", "Chalamet.C54_query_params"], "note": ""},
 {"property": "C55", "status": "proved", "theorems": ["Chalamet.C55_kv_documents", "Chalamet.C55_index_from_json", "Chalamet.C55_kv_from_json"], "note": ""},
 {"property": "C56", "status": "proved", "theorems": ["Chalamet.C56_kv_failure_rate_sized", "Chalamet.C56_kv_published_parameters", "Chalamet.C56_column_failure_rate", "Chalamet.C56_index_failure_rate", "Chalamet.C56_kv_failure_rate", "Chalamet.C56_default_parameters", "Chalamet.C56_published_parameters"], "note": "Hoeffding-type bound proved in Lemmas/Hoeffding.lean; counts accepted generator words"},
 {"property": "C57", "status": "proved", "theorems": ["Chalamet.C57_kv_filter", "Chalamet.C57_kv_filter_failure", "Chalamet.C57_order_irrelevant", "Chalamet.C57_binary_fuse", "Chalamet.C57_fuse", "Chalamet.C57_xor", "Chalamet.C57_xor_terminates"], "note": ""},
 {"property": "C58", "status": "proved", "theorems": ["Chalamet.C58_index_profiles_equal", "Chalamet.C58_kv_client_profiles_equal", "Chalamet.C58_debug_predicts_release", "Chalamet.C58_kv_filter_difference"], "note": ""},
 {"property": "C59", "status": "proved", "theorems": ["Chalamet.C59_index_any_response", "Chalamet.C59_kv_any_response", "Chalamet.C59_index_bytes_length"], "note": ""},
 {"property": "C60", "status": "proved", "theorems": ["Chalamet.C60_index_malleable", "Chalamet.C60_kv_malleable"], "note": ""},
 {"property": "C61", "status": "proved", "theorems": ["Chalamet.C61_index_build", "Chalamet.C61_zero_bits"], "note": ""},
 {"property": "C62", "status": "proved", "theorems": ["Chalamet.C62_kv_build", "Chalamet.C62_kv_never_err", "Chalamet.C62_kv_debug", "Chalamet.C62_recorded_m", "Chalamet.C62_values_play_no_part"], "note": ""},
 {"property": "C63", "status": "proved", "theorems": ["Chalamet.C63_kv_row_iterator"], "note": ""},
 {"property": "C64", "status": "proved", "theorems": ["Chalamet.C64_xor", "Chalamet.C64_fuse", "Chalamet.C64_binary_fuse_hash", "Chalamet.C64_binary_fuse"], "note": ""},
 {"property": "C65", "status": "proved", "theorems": ["Chalamet.C65_failure_rate", "Chalamet.C65_advantage_at_most", "Chalamet.C65_advantage_attained", "Chalamet.C65_kv_no_advantage"], "note": ""},
 {"property": "C66", "status": "proved", "theorems": ["Chalamet.C66_binary_fuse", "Chalamet.C66_binary_fuse_rate", "Chalamet.C66_fuse", "Chalamet.C66_fuse_rate", "Chalamet.C66_kv"], "note": ""},
 {"property": "C67", "status": "proved", "theorems": ["Chalamet.C67_index_history", "Chalamet.C67_kv_history"], "note": ""},
 {"property": "C68", "status": "proved", "theorems": ["Chalamet.C68_copy_sends_index", "Chalamet.C68_copy_sends_kv", "Chalamet.C68_copies_reveal_index", "Chalamet.C68_copies_reveal_kv"], "note": ""},
 {"property": "C69", "status": "proved", "theorems": ["Chalamet.C69_document", "Chalamet.C69_no_filter_params"], "note": ""},
 {"property": "C70", "status": "proved", "theorems": ["Chalamet.C70_kv_respond", "Chalamet.C70_kv_linear", "Chalamet.C70_kv_unit_query"], "note": ""},
 {"property": "C71", "status": "proved", "theorems": ["Chalamet.C71_index_sizes", "Chalamet.C71_kv_sizes"], "note": ""},
 {"property": "C72", "status": "proved", "theorems": ["Chalamet.C72_parse_number", "Chalamet.C72_exponent", "Chalamet.C72_env", "Chalamet.C72_options", "Chalamet.C72_options_exact", "Chalamet.C72_defaults"], "note": ""},
 {"property": "C73", "status": "proved", "theorems": ["Chalamet.C73_any_filter_params", "Chalamet.C73_any_params_bijection"], "note": ""},
 {"property": "C74", "status": "proved", "theorems": ["Chalamet.C74_xor_len", "Chalamet.C74_fuse_len"], "note": ""},
 {"property": "C75", "status": "proved", "theorems": ["Chalamet.C75_fuse_too_small", "Chalamet.C75_fuse_101_to_179"], "note": ""},
 {"property": "C76", "status": "proved", "theorems": ["Chalamet.C76_layout", "Chalamet.C76_tiny", "Chalamet.C76_len", "Chalamet.C76_kv_height"], "note": ""},
 {"property": "C77", "status": "proved", "theorems": ["Chalamet.C77_index_mask", "Chalamet.C77_kv_mask", "Chalamet.C77_kv_privacy", "Chalamet.C77_index_privacy", "Chalamet.C77_public_matrix"], "note": ""},
 {"property": "C78", "status": "proved", "theorems": ["Chalamet.C78_binary_fuse", "Chalamet.C78_xor"], "note": ""},
 {"property": "C79", "status": "proved", "theorems": ["Chalamet.C79_keyed", "Chalamet.C79_binary_fuse", "Chalamet.C79_fuse", "Chalamet.C79_xor", "Chalamet.C79_fuse_stale", "Chalamet.C79_xor_stale", "Chalamet.C79_binary_fuse_stale", "Chalamet.C79_no_false_negatives"], "note": ""},
 {"property": "C80", "status": "proved", "theorems": ["Chalamet.C80_binary_fuse", "Chalamet.C80_keyed", "Chalamet.C80_attack", "Chalamet.C80_attack_sizes", "Chalamet.C80_kv_database"], "note": ""},
 {"property": "C81", "status": "proved", "theorems": ["Chalamet.C81_seed_words"], "note": ""},
 {"property": "C82", "status": "proved", "theorems": ["Chalamet.C82_lost_key", "Chalamet.C82_lost_key_sizes"], "note": ""},
 {"property": "C83", "status": "proved", "theorems": ["Chalamet.C83_index_params", "Chalamet.C83_filter_params", "Chalamet.C83_kv_params", "Chalamet.C83_encoded_kv", "Chalamet.C83_query_params", "Chalamet.C83_total", "Chalamet.C83_total_others", "Chalamet.C83_load"], "note": ""},
 {"property": "C84", "status": "proved", "theorems": ["Chalamet.C84_binary_fuse", "Chalamet.C84_binary_fuse_p", "Chalamet.C84_fuse", "Chalamet.C84_xor", "Chalamet.C84_proxy", "Chalamet.C84_total", "Chalamet.C84_round_trip"], "note": ""},
 {"property": "C85", "status": "proved", "theorems": ["Chalamet.C85_binary_fuse", "Chalamet.C85_binary_fuse_unsafe", "Chalamet.C85_binary_fuse_safe", "Chalamet.C85_binary_fuse_built", "Chalamet.C85_binary_fuse_p", "Chalamet.C85_xor_safe", "Chalamet.C85_fuse_safe", "Chalamet.C85_fuse_xor_built", "Chalamet.C85_xor", "Chalamet.C85_fuse"], "note": ""},
 {"property": "C86", "status": "proved", "theorems": ["Chalamet.C86_generated_file", "Chalamet.C86_bad_exponent", "Chalamet.C86_load_generated", "Chalamet.C86_default_truncation"], "note": ""},
 {"property": "C87", "status": "proved", "theorems": ["Chalamet.C87_flag_index", "Chalamet.C87_flag_kv", "Chalamet.C87_reset_reveals", "Chalamet.C87_reset_retrieval", "Chalamet.C87_bench_loop", "Chalamet.C87_bench_loop_fails", "Chalamet.C87_bench_data", "Chalamet.C87_bench_stream", "Chalamet.C87_bench_kv_stream"], "note": ""},
 {"property": "C88", "status": "proved", "theorems": ["Chalamet.C88_printed"], "note": ""},
 {"property": "C89", "status": "proved", "theorems": ["Chalamet.C89_xor", "Chalamet.C89_fuse", "Chalamet.C89_binary_fuse_million", "Chalamet.C89_binary_fuse_at_least"], "note": ""},
 {"property": "C90", "status": "proved", "theorems": ["Chalamet.C90_index_access", "Chalamet.C90_element_size_zero", "Chalamet.C90_kv_access", "Chalamet.C90_kv_local_lookup"], "note": ""},
 {"property": "C91", "status": "proved", "theorems": ["Chalamet.C91_xor", "Chalamet.C91_fuse", "Chalamet.C91_binary_fuse_bound", "Chalamet.C91_binary_fuse", "Chalamet.C91_binary_fuse_sized", "Chalamet.C91_keyed_bound", "Chalamet.C91_kv_bound"], "note": ""},
 {"property": "C92", "status": "proved", "theorems": ["Chalamet.C92_index_safe", "Chalamet.C92_index_unsafe", "Chalamet.C92_bound_is_sharp", "Chalamet.C92_defaults", "Chalamet.C92_kv_exact"], "note": ""},
 {"property": "C93", "status": "proved", "theorems": ["Chalamet.C93_kv_one_query_reads_many", "Chalamet.C93_kv_no_query_reads_more", "Chalamet.C93_one_query_reads_many", "Chalamet.C93_no_query_reads_more"], "note": ""},
 {"property": "C94", "status": "proved", "theorems": ["Chalamet.C94_zero_columns_reveal_the_index", "Chalamet.C94_zero_columns_reveal_the_slots", "Chalamet.C94_contents_are_not_checked", "Chalamet.C94_dimension_zero"], "note": ""},
 {"property": "C95", "status": "proved", "theorems": ["Chalamet.C95_retrieve_distribution", "Chalamet.C95_fresh_slot_uniform", "Chalamet.C95_same_slots", "Chalamet.C95_kv_distribution"], "note": ""},
 {"property": "C96", "status": "proved", "theorems": ["Chalamet.C96_index_database", "Chalamet.C96_kv_database", "Chalamet.C96_shard", "Chalamet.C96_kv_shard", "Chalamet.C96_total", "Chalamet.C96_round_trip"], "note": ""},
 {"property": "C97", "status": "proved", "theorems": ["Chalamet.C97_filter_params", "Chalamet.C97_index_database", "Chalamet.C97_index_params", "Chalamet.C97_kv_database", "Chalamet.C97_kv_params", "Chalamet.C97_shard", "Chalamet.C97_kv_shard", "Chalamet.C97_key_value", "Chalamet.C97_query_params", "Chalamet.C97_round_trip", "Chalamet.C97_vec", "Chalamet.C97_vec_read", "Chalamet.C97_shard_restored", "Chalamet.C97_kv_shard_restored", "Chalamet.C97_shard_size", "Chalamet.C97_kv_shard_size", "Chalamet.C97_unchecked"], "note": ""},
 {"property": "C98", "status": "proved", "theorems": ["Chalamet.C98_contents", "Chalamet.C98_recovery", "Chalamet.C98_lost"], "note": ""},
 {"property": "C99", "status": "proved", "theorems": ["Chalamet.C99_reader", "Chalamet.C99_unambiguous", "Chalamet.C99_truncated", "Chalamet.C99_writer", "Chalamet.C99_writer_list", "Chalamet.C99_writer_fields", "Chalamet.C99_round_trip", "Chalamet.C99_read", "Chalamet.C99_crash", "Chalamet.C99_interrupted", "Chalamet.C99_generated", "Chalamet.C99_refines", "Chalamet.C99_generator"], "note": ""},
 {"property": "C100", "status": "proved", "theorems": ["Chalamet.C100_not_stored", "Chalamet.C100_debug", "Chalamet.C100_misread", "Chalamet.C100_sizes"], "note": ""},
 {"property": "C101", "status": "proved", "theorems": ["Chalamet.C101_index", "Chalamet.C101_kv"], "note": ""},
 {"property": "C102", "status": "proved", "theorems": ["Chalamet.C102_one_sample", "Chalamet.C102_kv_adaptive", "Chalamet.C102_index_adaptive"], "note": ""},
 {"property": "C103", "status": "proved", "theorems": ["Chalamet.C103_kv_row_shows_masks", "Chalamet.C103_kv_row_shows_key", "Chalamet.C103_kv_row_shows_secret", "Chalamet.C103_kv_secret_shows_slots", "Chalamet.C103_row_shows_secret", "Chalamet.C103_secret_shows_index", "Chalamet.C103_row_shows_index"], "note": ""},
 {"property": "C104", "status": "proved", "theorems": ["Chalamet.C104_respond", "Chalamet.C104_kv_respond", "Chalamet.C104_index_query", "Chalamet.C104_kv_query", "Chalamet.C104_parse", "Chalamet.C104_kv_parse"], "note": "Exhaustive: each theorem decides the outcome (value, error or panic) for every object."},
 {"property": "C105", "status": "proved", "theorems": ["Chalamet.C105_build", "Chalamet.C105_unusable", "Chalamet.C105_kv_never_built"], "note": "Products of sizes are natural numbers in the model (see DESIGN.md)."},
 {"property": "C106", "status": "proved", "theorems": ["Chalamet.C106_index_build", "Chalamet.C106_kv_build", "Chalamet.C106_decode", "Chalamet.C106_decode_refuted"], "note": ""},
 {"property": "C107", "status": "proved", "theorems": ["Chalamet.C107_layouts", "Chalamet.C107_readme", "Chalamet.C107_overhead"], "note": ""},
 {"property": "C108", "status": "proved", "theorems": ["Chalamet.C108_right_row_stays", "Chalamet.C108_wrong_row_survives", "Chalamet.C108_identified", "Chalamet.C108_enough_queries", "Chalamet.C108_kv_nothing_accumulates"], "note": ""},
 {"property": "C109", "status": "proved", "theorems": ["Chalamet.C109_stale_row", "Chalamet.C109_unchanged_column", "Chalamet.C109_noise", "Chalamet.C109_kv_noise"], "note": ""},
 {"property": "C110", "status": "proved", "theorems": ["Chalamet.C110_index_test", "Chalamet.C110_index_rate", "Chalamet.C110_index_test_is_flaky", "Chalamet.C110_index_joint_rate", "Chalamet.C110_index_test_fails", "Chalamet.C110_reuse_test", "Chalamet.C110_reuse_rate", "Chalamet.C110_binary_fuse_test", "Chalamet.C110_one_key_test", "Chalamet.C110_filter_tests", "Chalamet.C110_one_pair_tests", "Chalamet.C110_kv_test", "Chalamet.C110_kv_rate", "Chalamet.C110_kv_test_passes", "Chalamet.C110_kv_test_unbuildable"], "note": ""},
 {"property": "C111", "status": "proved", "theorems": ["Chalamet.C111_cells", "Chalamet.C111_filters", "Chalamet.C111_fuse_binary_fuse"], "note": ""},
 {"property": "C112", "status": "proved", "theorems": ["Chalamet.C112_kv_filter", "Chalamet.C112_kv_shard", "Chalamet.C112_binary_fuse"], "note": ""},
 {"property": "C113", "status": "proved", "theorems": ["Chalamet.C113_variance", "Chalamet.C113_column", "Chalamet.C113_index", "Chalamet.C113_kv", "Chalamet.C113_too_many_rows"], "note": ""},
 {"property": "C114", "status": "proved", "theorems": ["Chalamet.C114_mean_square", "Chalamet.C114_column", "Chalamet.C114_index", "Chalamet.C114_bench_database", "Chalamet.C114_published_parameters", "Chalamet.C114_quarter_million"], "note": ""},
 {"property": "C115", "status": "proved", "theorems": ["Chalamet.C115_matrix_uniform", "Chalamet.C115_column", "Chalamet.C115_kv_failure_rate", "Chalamet.C115_kv_published_parameters"], "note": ""},
 {"property": "C116", "status": "proved", "theorems": ["Chalamet.C116_uniform", "Chalamet.C116_words_needed", "Chalamet.C116_index_failure_rate", "Chalamet.C116_index_session", "Chalamet.C116_index_success_rate", "Chalamet.C116_kv_failure_rate", "Chalamet.C116_kv_session", "Chalamet.C116_kv_success_rate", "Chalamet.C116_default_session"], "note": ""},
 {"property": "C117", "status": "proved", "theorems": ["Chalamet.C117_binary_fuse", "Chalamet.C117_binary_fuse_sized", "Chalamet.C117_kv"], "note": ""},
 {"property": "C118", "status": "proved", "theorems": ["Chalamet.C118_texts_refine", "Chalamet.C118_new_texts", "Chalamet.C118_index_query_text", "Chalamet.C118_kv_query_text", "Chalamet.C118_bits_text", "Chalamet.C118_texts_distinct"], "note": ""},
 {"property": "C119", "status": "proved", "theorems": ["Chalamet.C119_debug_reveals_row", "Chalamet.C119_debug_reveals_slots", "Chalamet.C119_debug_reveals_answer"], "note": ""},
 {"property": "C120", "status": "proved", "theorems": ["Chalamet.C120_stuck", "Chalamet.C120_one_in_a_thousand", "Chalamet.C120_two_entries", "Chalamet.C120_two_count", "Chalamet.C120_project_sizes"], "note": ""},
 {"property": "C121", "status": "proved", "theorems": ["Chalamet.C121_respond", "Chalamet.C121_respond_kv", "Chalamet.C121_setup", "Chalamet.C121_setup_kv", "Chalamet.C121_client", "Chalamet.C121_client_kv", "Chalamet.C121_passes_bound", "Chalamet.C121_passes", "Chalamet.C121_two_entries", "Chalamet.C121_one_in_a_thousand", "Chalamet.C121_binary_fuse", "Chalamet.C121_fuse", "Chalamet.C121_xor"], "note": ""},
 {"property": "C122", "status": "proved", "theorems": ["Chalamet.C122_session_index", "Chalamet.C122_session_kv", "Chalamet.C122_parameters_answer_index", "Chalamet.C122_parameters_answer_kv", "Chalamet.C122_parameters_give_away", "Chalamet.C122_small_database_is_public", "Chalamet.C122_small_kv_database_is_public"], "note": ""}
]}
