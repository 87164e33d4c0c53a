Verif.C01_u64_roundtrip: propext Classical.choice Quot.sound
Verif.C01_u32_roundtrip: propext Classical.choice Quot.sound
Verif.C01_u16_roundtrip: propext Classical.choice Quot.sound
Verif.C01_u64_format: propext Classical.choice Quot.sound
Verif.C01_u64_prefix_free: propext Classical.choice Quot.sound
Verif.C02_i64_roundtrip: propext Classical.choice Quot.sound
Verif.C02_i32_roundtrip: propext Classical.choice Quot.sound
Verif.C02_i16_roundtrip: propext Classical.choice Quot.sound
Verif.C02_zigzag64_bijective: propext Classical.choice Quot.sound
Verif.C02_zigzag64_value: propext Classical.choice Quot.sound
Verif.C03_get_u64_some: propext Classical.choice Quot.sound
Verif.C03_get_u64_none: propext Quot.sound
Verif.C03_get_u32_iff: propext Quot.sound
Verif.C03_get_u16_iff: propext Quot.sound
Verif.C03_overlong_accepted: propext Quot.sound
Verif.C04_bits_roundtrip: propext Quot.sound
Verif.C04_short_string_roundtrip: propext Quot.sound
Verif.C04_short_string_too_long: propext
Verif.C04_vec_roundtrip: propext Classical.choice Quot.sound
Verif.C04_option_roundtrip: propext Quot.sound
Verif.C04_opt_box_roundtrip: propext
Verif.C04_u32_be_roundtrip: propext Quot.sound
Verif.C04_option_swallows_errors: propext Quot.sound
Verif.C05_try_from_u64: propext Classical.choice Quot.sound
Verif.C05_try_from_i64: propext Classical.choice Quot.sound
Verif.C05_checked_add: propext Classical.choice Quot.sound
Verif.C05_checked_sub: propext Classical.choice Quot.sound
Verif.C05_checked_mul: propext Classical.choice Quot.sound
Verif.C05_checked_mul_u32_partial: propext Classical.choice Quot.sound
Verif.C05_mul_u32_zero_violates: propext Classical.choice Quot.sound
Verif.C05_from_str_violates: propext Quot.sound
Verif.C05_checked_sum: propext Classical.choice Quot.sound
Verif.C05_box_value_roundtrip: propext Classical.choice Quot.sound
Verif.C05_parsed_in_bounds: propext Classical.choice Quot.sound
Verif.C05_obtainable_in_bounds_partial: propext Classical.choice Quot.sound
Verif.C05_token_try_from: propext Classical.choice Quot.sound
Verif.C05_token_checked_add: propext Classical.choice Quot.sound
Verif.C05_token_checked_sub: propext Classical.choice Quot.sound
Verif.C06_select_conserves: propext Classical.choice Quot.sound
Verif.C06_release_wraps: propext Quot.sound
Verif.C06_select_no_panic: propext Classical.choice Quot.sound
Verif.C07_select_complete_partial: propext Classical.choice Quot.sound
Verif.C07_many_tokens_incomplete: propext Quot.sound
Verif.C08_build_conserves: propext Quot.sound
Verif.C08_build_conserves_release_partial: propext Quot.sound
Verif.C08_build_shape: propext Quot.sound
Verif.C08_outputs_valid: propext Quot.sound
Verif.C08_release_wraps: propext Quot.sound
Verif.C08_small_box_panics: none
Verif.C09_token_balance: propext Classical.choice Quot.sound
Verif.C09_only_mint_creates: propext Classical.choice Quot.sound
Verif.C09_burn_needs_exact_permit: propext Classical.choice Quot.sound
Verif.C10_ignores_proofs: propext Quot.sound
Verif.C10_bytes_injective: propext Classical.choice Quot.sound
Verif.C10_commits: propext Classical.choice Quot.sound
Verif.C10_signing_keeps_id: propext Classical.choice Quot.sound
Verif.C10_signing_total: propext Classical.choice Quot.sound
Verif.C11_token_table_limit: propext Classical.choice Quot.sound
Verif.C11_roundtrip: propext Classical.choice Quot.sound
Verif.C11_box_roundtrip: propext Classical.choice Quot.sound
Verif.C11_candidate_roundtrip: propext Classical.choice Quot.sound
Verif.C11_constructor_total: propext Classical.choice Quot.sound
Verif.C11_read_good: propext Classical.choice Quot.sound
Verif.C11_token_index: propext Classical.choice Quot.sound
Verif.C11_roundtrip_nested: propext Classical.choice Quot.sound
Verif.C11_read_good_nested: propext Classical.choice Quot.sound
Verif.C11_repeated_table_shifts: propext Quot.sound
Verif.C12_same_expr: propext Quot.sound
Verif.C12_same_exprs: propext Quot.sound
Verif.C12_bytes_panic: propext Quot.sound
Verif.C12_of_map: propext Classical.choice Quot.sound
Verif.C12_to_map: propext Classical.choice Quot.sound
Verif.C12_map_roundtrip: propext Classical.choice Quot.sound
Verif.C12_get_constant: propext Classical.choice Quot.sound
Verif.C12_get_constant_read: propext Classical.choice Quot.sound
Verif.C12_get_violates: propext Classical.choice Quot.sound
Verif.C12_get_partial: propext
Verif.C12_names: propext Quot.sound
Verif.C12_names_panic: propext Quot.sound
Verif.C12_numbers: propext Quot.sound
Verif.C12_roundtrip: propext Classical.choice Quot.sound
Verif.C12_unparseable: propext Quot.sound
Verif.C12_bytes: propext Classical.choice Quot.sound
Verif.C12_read_good: propext Quot.sound
Verif.C13_roundtrip: propext Classical.choice Quot.sound
Verif.C13_prefix_free: propext Classical.choice Quot.sound
Verif.C13_refused_iff: propext Classical.choice Quot.sound
Verif.C13_parsed: propext Classical.choice Quot.sound
Verif.C13_reparse: propext Classical.choice Quot.sound
Verif.C13_not_canonical: propext
Verif.C14_roundtrip: propext Classical.choice Quot.sound
Verif.C14_data_roundtrip: propext Classical.choice Quot.sound
Verif.C14_prefix_free: propext Classical.choice Quot.sound
Verif.C14_parsed: propext Classical.choice Quot.sound
Verif.C14_long_collection_panics: propext Quot.sound
Verif.C14_long_bigint_refused: propext Classical.choice Quot.sound
Verif.C14_bigint_read: propext Classical.choice Quot.sound
Verif.C14_option_refused: propext Quot.sound
Verif.C14_not_canonical: propext Quot.sound
Verif.C15_roundtrip: propext Classical.choice Quot.sound
Verif.C15_prefix_free: propext Classical.choice Quot.sound
Verif.C15_parsed_bounded: propext Classical.choice Quot.sound
Verif.C15_threshold_truncated: propext Quot.sound
Verif.C16_cand: propext Classical.choice Quot.sound
Verif.C16_cor: propext Classical.choice Quot.sound
Verif.C16_threshold: propext Classical.choice Quot.sound
Verif.C17_sound: propext Classical.choice Quot.sound
Verif.C17_sound_variables: propext Classical.choice Quot.sound
Verif.C17_parameters: propext Quot.sound
Verif.C17_ground: propext Classical.choice Quot.sound
Verif.C17_idempotent_partial: propext Classical.choice Quot.sound
Verif.C17_complete: propext
Verif.C17_many: propext Classical.choice Quot.sound
Verif.C17_unit_breaks_law: propext
Verif.C17_variables_on_the_right: propext
Verif.C18_multiply: propext Classical.choice Quot.sound
Verif.C18_faithful: propext Classical.choice Quot.sound
Verif.C18_add: propext Classical.choice Quot.sound
Verif.C18_modulus_irreducible: propext Classical.choice Quot.sound
Verif.C18_mul_by_i8: propext Classical.choice Quot.sound
Verif.C18_comm: propext Classical.choice Quot.sound
Verif.C18_assoc: propext Classical.choice Quot.sound
Verif.C18_distrib: propext Classical.choice Quot.sound
Verif.C18_one: propext Classical.choice Quot.sound
Verif.C18_add_self: propext Classical.choice Quot.sound
Verif.C18_no_zero_divisors: propext Classical.choice Quot.sound
Verif.C19_invert: propext Classical.choice Quot.sound
Verif.C19_invert_unique: propext Classical.choice Quot.sound
Verif.C19_invert_zero: propext Classical.choice Quot.sound
Verif.C19_pow2To2ToK: propext Classical.choice Quot.sound
Verif.C19_sqr: propext Classical.choice Quot.sound
Verif.C20_evaluate: propext Classical.choice Quot.sound
Verif.C20_interpolate: propext Classical.choice Quot.sound
Verif.C20_unique: propext Classical.choice Quot.sound
Verif.C20_length_mismatch: propext Quot.sound
Verif.C20_bytes: propext Classical.choice Quot.sound
Verif.C20_bytes_canonical: propext Classical.choice Quot.sound
Verif.C20_element_bytes: propext Classical.choice Quot.sound
Verif.C20_bytes_element: propext Classical.choice Quot.sound
Verif.C20_conflict_unreported: propext Quot.sound
Verif.C21_accepted_partial: propext Classical.choice Quot.sound
Verif.C21_trivial: propext Classical.choice Quot.sound
Verif.C21_refused: propext Classical.choice Quot.sound
Verif.C21_trivial_false: propext Classical.choice Quot.sound
Verif.C21_only_provable: propext Classical.choice Quot.sound
Verif.C21_duplicate_or_rejected: propext Classical.choice Quot.sound
Verif.C21_threshold_panic: propext Classical.choice Quot.sound
Verif.C22_roundtrip: propext Classical.choice Quot.sound
Verif.C22_parsed_consistent: propext Classical.choice Quot.sound
Verif.C23_sound: propext Classical.choice Quot.sound
Verif.C23_complete: propext Classical.choice Quot.sound
Verif.C23_empty: propext Classical.choice Quot.sound
Verif.C23_malleable: propext Classical.choice Quot.sound
Verif.C23_unreduced_response: propext Classical.choice Quot.sound
Verif.C23_threshold_panic: propext Classical.choice Quot.sound
Verif.C24_leaf: propext Classical.choice Quot.sound
Verif.C24_tree: propext Classical.choice Quot.sound
Verif.C24_accepted: propext Classical.choice Quot.sound
Verif.C24_simulated: propext Quot.sound
Verif.C24_indistinguishable: propext Quot.sound
Verif.C25_injective: propext Classical.choice Quot.sound
Verif.C25_challenge: propext Classical.choice Quot.sound
Verif.C25_counts_fit: propext Quot.sound
Verif.C26_proof_by_index: propext Classical.choice Quot.sound
Verif.C26_out_of_range: propext Classical.choice Quot.sound
Verif.C26_proof_by_element: propext Classical.choice Quot.sound
Verif.C26_absent_element: propext Classical.choice Quot.sound
Verif.C26_empty: propext
Verif.C27_sound: propext Classical.choice Quot.sound
Verif.C27_forgery_collides: propext Classical.choice Quot.sound
Verif.C28_complete: propext Classical.choice Quot.sound
Verif.C28_bad_indices: propext Classical.choice Quot.sound
Verif.C29_position_not_authenticated: propext Classical.choice Quot.sound
Verif.C29_duplicates_unchecked: propext Classical.choice Quot.sound
Verif.C29_members_partial: propext Classical.choice Quot.sound
Verif.C30_zero_hash_lost: propext Quot.sound
Verif.C30_roundtrip_partial: propext Quot.sound
Verif.C30_writable: propext Quot.sound
Verif.C30_canonical: propext Classical.choice Quot.sound
Verif.C31_roundtrip: propext Classical.choice Quot.sound
Verif.C31_pack_partial: propext Classical.choice Quot.sound
Verif.C31_debug: propext Quot.sound
Verif.C31_violation_release: propext Quot.sound
Verif.C31_update: propext Classical.choice Quot.sound
Verif.C31_chain: propext Classical.choice Quot.sound
Verif.C31_violation_negative: propext Quot.sound
Verif.C32_step: propext Classical.choice Quot.sound
Verif.C32_anchored: propext Classical.choice Quot.sound
Verif.C32_valid_means: propext Classical.choice Quot.sound
Verif.C32_valid_kept: propext Classical.choice Quot.sound
Verif.C32_valid_partial: propext Classical.choice Quot.sound
Verif.C32_violation_first: propext Classical.choice Quot.sound
Verif.C32_asymmetric_partial: propext Classical.choice Quot.sound
Verif.C32_violation_different_m: propext Classical.choice Quot.sound
Verif.C32_violation_cycle: propext Classical.choice Quot.sound
Verif.C33_highest: propext Quot.sound
Verif.C33_other_genesis: propext
Verif.C33_common: propext Quot.sound
Verif.C33_symm: propext Quot.sound
Verif.C34_roundtrip: propext Classical.choice Quot.sound
Verif.C34_roundtrip_same: propext Classical.choice Quot.sound
Verif.C34_read_good: propext Classical.choice Quot.sound
Verif.C34_id_commits: propext Classical.choice Quot.sound
Verif.C34_violation_fields: propext Classical.choice Quot.sound
Verif.C34_violation_nonce: propext Classical.choice Quot.sound
Verif.C34_violation_new_fields: propext Classical.choice Quot.sound
Verif.C34_preheader: propext Quot.sound
Verif.C35_arith_exact: propext Classical.choice Quot.sound
Verif.C35_never_wraps: propext Classical.choice Quot.sound
Verif.C35_compare: propext Classical.choice Quot.sound
Verif.C35_remainder: propext Classical.choice Quot.sound
Verif.C35_remainder_big: propext Classical.choice Quot.sound
Verif.C35_violation_min_rem: propext Classical.choice Quot.sound
Verif.C35_bitwise: propext Classical.choice Quot.sound
Verif.C35_invert: propext Classical.choice Quot.sound
Verif.C35_negate: propext Classical.choice Quot.sound
Verif.C35_mixed_refused: propext Quot.sound
Verif.C35_upcast: propext Classical.choice Quot.sound
Verif.C35_downcast: propext Classical.choice Quot.sound
Verif.C35_violation_downcast_refused: propext
Verif.C35_node: propext Quot.sound
Verif.C36_longToByteArray: propext Classical.choice Quot.sound
Verif.C36_byteArrayToBigInt: propext Classical.choice Quot.sound
Verif.C36_byteArrayToLong_partial: propext Classical.choice Quot.sound
Verif.C36_long_roundtrip_partial: propext Classical.choice Quot.sound
Verif.C36_violation_byteArrayToLong: propext Quot.sound
Verif.C36_nodes: propext Quot.sound
Verif.C36_short_refused: propext Quot.sound
Verif.C37_bindings_kept_partial: propext Classical.choice Quot.sound
Verif.C37_bindings_decide: propext Quot.sound
Verif.C37_siblings_partial: propext Classical.choice Quot.sound
Verif.C37_violation_top: propext Quot.sound
Verif.C37_violation_siblings: propext Quot.sound
Verif.C37_violation_block_twice: propext Quot.sound
Verif.C37_violation_func_twice: propext Quot.sound
Verif.C38_strict_node: propext Quot.sound
Verif.C38_append: propext Quot.sound
Verif.C38_append_mixed: propext Quot.sound
Verif.C38_slice: propext Classical.choice Quot.sound
Verif.C38_size: propext Quot.sound
Verif.C38_byIndex: propext Classical.choice Quot.sound
Verif.C38_byIndex_default: propext Classical.choice Quot.sound
Verif.C38_updated: propext Classical.choice Quot.sound
Verif.C38_updateMany: propext Classical.choice Quot.sound
Verif.C38_patch_partial: propext Classical.choice Quot.sound
Verif.C38_violation_patch: propext Quot.sound
Verif.C38_zip: propext Quot.sound
Verif.C38_indices: propext Quot.sound
Verif.C38_indexOf_partial: propext Classical.choice Quot.sound
Verif.C38_violation_indexOf: propext Quot.sound
Verif.C38_violation_updated_type: propext Quot.sound
Verif.C38_map: propext Quot.sound
Verif.C38_filter: propext Quot.sound
Verif.C38_exists: propext Quot.sound
Verif.C38_forall: propext Classical.choice Quot.sound
Verif.C38_fold: propext Quot.sound
Verif.C39_roundtrip_partial: propext Classical.choice Quot.sound
Verif.C39_injective_partial: propext Classical.choice Quot.sound
Verif.C39_parse_stable: propext Classical.choice Quot.sound
Verif.C39_accepts: propext Classical.choice Quot.sound
Verif.C39_rejects_partial: propext Quot.sound
Verif.C39_nothing_dropped: propext Classical.choice Quot.sound
Verif.C39_violation_dropped: propext Quot.sound
Verif.C39_violation_texts: propext Classical.choice Quot.sound
Verif.C39_violation_lenient: propext Classical.choice Quot.sound
Verif.C39_violation_next: propext Quot.sound
Verif.C39_whitespace: propext Quot.sound
Verif.C39_next: propext Quot.sound
Verif.C39_ledger: propext Quot.sound
Verif.C39_violation_bits: propext Quot.sound
Verif.C39_violation_depth: propext Quot.sound
Verif.C40_child: propext Classical.choice Quot.sound
Verif.C40_derive: propext Classical.choice Quot.sound
Verif.C40_master: propext Classical.choice Quot.sound
Verif.C40_hardened_refused: propext Quot.sound
Verif.C40_staged: propext Classical.choice Quot.sound
Verif.C40_staged_partial: propext Classical.choice Quot.sound
Verif.C40_path: propext Classical.choice Quot.sound
Verif.C40_bip32: propext Classical.choice Quot.sound
Verif.C40_skip: propext Quot.sound
Verif.C40_parent_recoverable: propext Classical.choice Quot.sound
Verif.C40_violation_short: propext Quot.sound
Verif.C40_violation_skipped: propext Classical.choice Quot.sound
Verif.C40_violation_range: propext Classical.choice Quot.sound
Verif.C41_roundtrip_partial: propext Quot.sound
Verif.C41_network: propext Classical.choice Quot.sound
Verif.C41_injective_partial: propext Classical.choice Quot.sound
Verif.C41_checksum: propext Quot.sound
Verif.C41_canonical_partial: propext Quot.sound
Verif.C41_violation_empty: propext Quot.sound
Verif.C41_violation_trailing: propext Quot.sound
Verif.C41_violation_head: propext Quot.sound
Verif.C42_new: propext Classical.choice Quot.sound
Verif.C42_new_plain: propext Quot.sound
Verif.C42_proposition_partial: propext Classical.choice Quot.sound
Verif.C42_with_constant: propext Quot.sound
Verif.C42_replaced_proposition_partial: propext Classical.choice Quot.sound
Verif.C42_inline_constant_violates: propext Quot.sound
Verif.C42_new_placeholder_violates: propext Quot.sound
Verif.C43_header: propext Quot.sound
Verif.C43_header_bytes: propext Quot.sound
Verif.C43_roundtrip: propext Classical.choice Quot.sound
Verif.C43_bytes_roundtrip: propext Classical.choice Quot.sound
Verif.C43_reread: propext Classical.choice Quot.sound
Verif.C43_unparsed_bytes: propext Quot.sound
Verif.C43_unparsed_in_box_partial: propext Classical.choice Quot.sound
Verif.C43_unparsed_in_box_violates: propext Quot.sound
Verif.C43_trailing_bytes_violates: propext Quot.sound
Verif.C43_many_constants_violates: propext Classical.choice Quot.sound
Verif.C43_leaked_variable_violates: propext Quot.sound
Verif.C43_tree_codec: propext Classical.choice Quot.sound
Verif.C44_history_partial: propext Quot.sound
Verif.C44_isolation: propext Quot.sound
Verif.C44_violation_public: propext Quot.sound
Verif.C44_commitments: propext Quot.sound
Verif.C44_generate: propext Classical.choice Quot.sound
Verif.C44_extract: propext Classical.choice Quot.sound
Verif.C44_violation_leak: propext Classical.choice Quot.sound
Verif.C45_indexes_partial: propext Classical.choice Quot.sound
Verif.C45_indexes_panic: propext Classical.choice Quot.sound
Verif.C45_violation_zero_window: propext Classical.choice Quot.sound
Verif.C45_table_monotone: propext Classical.choice Quot.sound
Verif.C45_table_bound: propext Classical.choice Quot.sound
Verif.C45_hit: propext Classical.choice Quot.sound
Verif.C45_hit_value: propext Classical.choice Quot.sound
Verif.C46_value: propext Quot.sound
Verif.C46_sign: propext Quot.sound
Verif.C46_exact: propext Quot.sound
Verif.C46_violation_zero: propext Quot.sound
Verif.C47_size_byte: propext Quot.sound
Verif.C47_ip_size: propext
Verif.C47_addr: propext Classical.choice Quot.sound
Verif.C47_version: none
Verif.C47_feature: propext Classical.choice Quot.sound
Verif.C47_roundtrip_partial: propext Classical.choice Quot.sound
Verif.C47_injective: propext Classical.choice Quot.sound
Verif.C47_reread: propext Quot.sound
Verif.C47_refused: propext Classical.choice Quot.sound
Verif.C47_violation_agent: propext Quot.sound
Verif.C47_violation_port: propext Classical.choice Quot.sound
Verif.C47_violation_ignored: propext Classical.choice Quot.sound
Verif.C48_extension: propext Classical.choice Quot.sound
Verif.C48_proof: propext Classical.choice Quot.sound
Verif.C48_proof_bytes: propext Classical.choice Quot.sound
Verif.C48_prover_result: propext Classical.choice Quot.sound
Verif.C48_read_good: propext Classical.choice Quot.sound
Verif.C48_full_extension_lost: propext Quot.sound
Verif.C48_long_proof_lost: propext Classical.choice Quot.sound
Verif.C49_outputs: propext Quot.sound
Verif.C49_box_id_commits: propext Classical.choice Quot.sound
Verif.C49_outputs_distinct: propext Classical.choice Quot.sound
Verif.C49_box_id_fixes_transaction: propext Classical.choice Quot.sound
Verif.C50_roundtrip: propext Classical.choice Quot.sound
Verif.C50_substituting: propext Classical.choice Quot.sound
Verif.C50_injective: propext Classical.choice Quot.sound
Verif.C50_reread: propext Classical.choice Quot.sound
Verif.C50_bools_operand_violates: propext Quot.sound
Verif.C50_long_collection_violates: propext Quot.sound
Verif.C51_levels: propext Classical.choice Quot.sound
Verif.C51_tx_roundtrip: propext Classical.choice Quot.sound
Verif.C51_box_roundtrip: propext Classical.choice Quot.sound
Verif.C51_tx_commits: propext Classical.choice Quot.sound
Verif.C52_flatMap_partial: propext Quot.sound
Verif.C52_violation_bytes: propext Quot.sound
Verif.C52_violation_type: propext Classical.choice Quot.sound
Verif.C52_join_bytes: propext Quot.sound
Verif.C53_limit: propext Quot.sound
Verif.C53_stack: propext Quot.sound
Verif.C53_violation_loop: propext Classical.choice Quot.sound
Verif.C54_violation_closure: propext Quot.sound
Verif.C54_violation_dynamic: propext Quot.sound
Verif.C54_apply_partial: propext Quot.sound
Verif.C55_violation_panic: propext Quot.sound
Verif.C55_result_partial: propext Quot.sound
Verif.C56_prove_partial: propext Classical.choice Quot.sound
Verif.C56_violation_m_zero: propext Classical.choice Quot.sound
Verif.C56_violation_all_suffix: propext Quot.sound
Verif.C57_violation_any_header: propext Classical.choice Quot.sound
Verif.C57_violation_panic: propext Classical.choice Quot.sound
Verif.C57_members_partial: propext Classical.choice Quot.sound
Verif.C58_interlink_proof: propext Classical.choice Quot.sound
Verif.C58_checked_partial: propext Classical.choice Quot.sound
Verif.C58_violation_other_fields: propext Classical.choice Quot.sound
Verif.C59_popow_roundtrip_partial: propext Classical.choice Quot.sound
Verif.C59_roundtrip_partial: propext Classical.choice Quot.sound
Verif.C59_injective_partial: propext Classical.choice Quot.sound
Verif.C59_violation_sizes: propext Classical.choice Quot.sound
Verif.C60_best_partial: propext Classical.choice Quot.sound
Verif.C60_monotone: propext Classical.choice Quot.sound
Verif.C60_violation_m_zero: propext Quot.sound
Verif.C60_violation_negative: propext Quot.sound
Verif.C61_p2pk: propext Classical.choice Quot.sound
Verif.C61_p2s_bytes: propext Quot.sound
Verif.C61_p2s_partial: propext Classical.choice Quot.sound
Verif.C61_unparsed: propext Quot.sound
Verif.C61_p2sh_means: propext Quot.sound
Verif.C61_p2sh_recreate: propext Quot.sound
Verif.C61_violation_p2sh_bytes: propext Quot.sound
Verif.C61_violation_p2sh_unspendable: propext Quot.sound
Verif.C61_violation_p2sh_recreate: propext Quot.sound
Verif.C61_violation_p2pk_header: propext Classical.choice Quot.sound
Verif.C62_addr: propext Quot.sound
Verif.C62_from_addr_version: none
Verif.C62_history: propext Quot.sound
Verif.C62_keys: propext Classical.choice Quot.sound
Verif.C62_answers: propext Quot.sound
Verif.C62_from_addr: propext Quot.sound
Verif.C63_session: propext Classical.choice Quot.sound
Verif.C64_context: propext Quot.sound
Verif.C64_missing_box: propext Classical.choice Quot.sound
Verif.C64_same: propext Classical.choice Quot.sound
Verif.C64_accepted_partial: propext Classical.choice Quot.sound
Verif.C64_refused: propext Classical.choice Quot.sound
Verif.C64_single: propext Classical.choice Quot.sound
Verif.C64_hints_isolated: propext Classical.choice Quot.sound
Verif.C64_bound: propext Classical.choice Quot.sound
Verif.C64_verify: propext Classical.choice Quot.sound
Verif.C65_agrees: propext Classical.choice Quot.sound
Verif.C65_made: propext Classical.choice Quot.sound
Verif.C65_transfer: propext Classical.choice Quot.sound
Verif.C65_commitments: propext Quot.sound
Verif.C65_extract: propext Classical.choice Quot.sound
Verif.C65_violation_replaced: propext Classical.choice Quot.sound
Verif.C65_violation_panic: propext Classical.choice Quot.sound
Verif.C66_rebuilt: propext Quot.sound
Verif.C66_prints_partial: propext Quot.sound
Verif.C66_one_evaluation_partial: propext Quot.sound
Verif.C66_source: propext Quot.sound
Verif.C66_read_partial: propext Quot.sound
Verif.C66_violation_panic: propext Quot.sound
Verif.C66_violation_indent: propext Classical.choice Quot.sound
Verif.C66_violation_accepts: propext Quot.sound
Verif.C67_value_partial: propext Classical.choice Quot.sound
Verif.C67_no_type_error_partial: propext Classical.choice Quot.sound
Verif.C67_reduce_partial: propext Classical.choice Quot.sound
Verif.C67_violation_register: propext Quot.sound
Verif.C67_violation_state_root: propext Quot.sound
Verif.C67_violation_get_reg: propext Quot.sound
Verif.C67_violation_flat_map: propext Quot.sound
Verif.C67_violation_unimplemented: propext Quot.sound
Verif.C68_depth: propext Classical.choice Quot.sound
Verif.C68_terminates: propext Classical.choice Quot.sound
Verif.C68_closed: propext Classical.choice Quot.sound
Verif.C68_reduce_partial: propext Classical.choice Quot.sound
Verif.C68_violation_deserialize: propext Quot.sound
Verif.C69_agrees_partial: propext Classical.choice Quot.sound
Verif.C69_total_partial: propext Classical.choice Quot.sound
Verif.C69_reduce_partial: propext Classical.choice Quot.sound
Verif.C69_closed: propext Quot.sound
Verif.C69_violation_rebind: propext Quot.sound
Verif.C69_violation_closure: propext Quot.sound
Verif.C70_node: propext Quot.sound
Verif.C70_boolean: propext Classical.choice Quot.sound
Verif.C70_not: propext Quot.sound
Verif.C70_sigma_and: propext Classical.choice Quot.sound
Verif.C70_sigma_or: propext Classical.choice Quot.sound
Verif.C70_atLeast_partial: propext Classical.choice Quot.sound
Verif.C70_atLeast_refused: propext Quot.sound
Verif.C70_violation_atLeast: propext Quot.sound
Verif.C70_keys: propext Quot.sound
Verif.C71_substitutes: propext Classical.choice Quot.sound
Verif.C71_proposition_partial: propext Classical.choice Quot.sound
Verif.C71_refused: propext Classical.choice Quot.sound
Verif.C71_lengths: propext Quot.sound
Verif.C71_unparsed: propext Quot.sound
Verif.C71_violation_bytes: propext Quot.sound
Verif.C72_registers: propext Quot.sound
Verif.C72_additional: propext Classical.choice Quot.sound
Verif.C72_register_range: propext Quot.sound
Verif.C72_getVar: propext Quot.sound
Verif.C72_selfBoxIndex: propext Classical.choice Quot.sound
Verif.C72_xor_partial: propext Quot.sound
Verif.C72_violation_xor: propext Quot.sound
Verif.C72_point: propext Quot.sound
Verif.C72_violation_point: propext Quot.sound
Verif.C72_exp_partial: propext Quot.sound
Verif.C72_violation_exp: propext Quot.sound
Verif.C72_propBytes: propext Quot.sound
Verif.C72_propBytes_key: propext Quot.sound
Verif.C72_avl_flags: propext Quot.sound
Verif.C72_avl_allowed: propext Quot.sound
Verif.C72_avl_modify: propext Quot.sound
Verif.C72_avl_lookup: propext Quot.sound
Verif.C72_avl_set_flags: propext Quot.sound
Verif.C72_last_root: propext Quot.sound
Verif.C72_deserialize: propext Quot.sound
Verif.C72_deserialize_refused: propext Quot.sound
Verif.C73_operands: propext Quot.sound
Verif.C73_accepted: propext Quot.sound
Verif.C73_typed_partial: propext Classical.choice Quot.sound
Verif.C73_tree_partial: propext Classical.choice Quot.sound
Verif.C73_violation_if: propext Quot.sound
Verif.C73_violation_items: propext Quot.sound
Verif.C73_violation_function: propext Quot.sound
Verif.C73_violation_scope: propext Quot.sound
Verif.C73_violation_option_flag: propext Quot.sound
Verif.C74_hex: propext Quot.sound
Verif.C74_amounts: propext Classical.choice Quot.sound
Verif.C74_candidate_roundtrip: propext Classical.choice Quot.sound
Verif.C74_box_roundtrip: propext Classical.choice Quot.sound
Verif.C74_good_box: propext Quot.sound
Verif.C74_tree_box_roundtrip: propext Classical.choice Quot.sound
Verif.C74_id: propext Quot.sound
Verif.C74_declared_id: propext Classical.choice Quot.sound
Verif.C74_field_order: propext Classical.choice Quot.sound
Verif.C74_other_fields: propext Quot.sound
Verif.C74_null_id: propext Classical.choice Quot.sound
Verif.C74_repeated_field: propext Quot.sound
Verif.C74_register_order: propext Quot.sound
Verif.C74_reads_partial: propext Classical.choice Quot.sound
Verif.C74_stable: propext Classical.choice Quot.sound
Verif.C74_tree_reread: propext Classical.choice Quot.sound
Verif.C74_panics: propext Classical.choice Quot.sound
Verif.C74_bounds_violates: propext Classical.choice Quot.sound
Verif.C74_twins_violate: propext Classical.choice Quot.sound
Verif.C75_roundtrip: propext Classical.choice Quot.sound
Verif.C75_unsigned_roundtrip: propext Classical.choice Quot.sound
Verif.C75_good_tx: propext Quot.sound
Verif.C75_id: propext Classical.choice Quot.sound
Verif.C75_content: propext Classical.choice Quot.sound
Verif.C75_wrong_id: propext Classical.choice Quot.sound
Verif.C75_reads_partial: propext Classical.choice Quot.sound
Verif.C75_stable: propext Classical.choice Quot.sound
Verif.C75_outputs_candidates: propext Quot.sound
Verif.C75_fields: propext Classical.choice Quot.sound
Verif.C75_output_ids_violate: propext Classical.choice Quot.sound
Verif.C76_roundtrip: propext Classical.choice Quot.sound
Verif.C76_proof_roundtrip: propext Classical.choice Quot.sound
Verif.C76_reads: propext Classical.choice Quot.sound
Verif.C76_names: propext Quot.sound
Verif.C76_names_violate: propext Quot.sound
Verif.C76_trailing_violates: propext Quot.sound
Verif.C76_empty_proof_violates: propext Quot.sound
Verif.C77_proposition_roundtrip: propext Classical.choice Quot.sound
Verif.C77_proposition_reads: propext Classical.choice Quot.sound
Verif.C77_position: propext Classical.choice Quot.sound
Verif.C77_hint_roundtrip: propext Classical.choice Quot.sound
Verif.C77_hint_reads: propext Classical.choice Quot.sound
Verif.C77_same_proof: propext Classical.choice Quot.sound
Verif.C77_library_hints: propext Classical.choice Quot.sound
Verif.C77_bag_roundtrip: propext Classical.choice Quot.sound
Verif.C77_session: propext Classical.choice Quot.sound
Verif.C77_panics_partial: propext Classical.choice Quot.sound
Verif.C77_threshold_panic: propext Classical.choice Quot.sound
Verif.C77_condition_violates: propext Classical.choice Quot.sound
Verif.C77_empty_position_violates: propext Quot.sound
Verif.C77_point_trailing_violates: propext Classical.choice Quot.sound
Verif.C77_proof_trailing_violates: propext Classical.choice Quot.sound
Verif.C77_secret_violates: propext Classical.choice Quot.sound
Verif.C77_field_order: propext Classical.choice Quot.sound
Verif.C78_session: propext Classical.choice Quot.sound
Verif.C78_send_memory: propext Quot.sound
Verif.C78_send_json: propext Classical.choice Quot.sound
Verif.C78_join: propext Classical.choice Quot.sound
Verif.C79_total: propext Classical.choice Quot.sound
Verif.C79_bip39: propext Classical.choice Quot.sound
Verif.C79_words: propext Classical.choice Quot.sound
Verif.C79_injective: propext Classical.choice Quot.sound
Verif.C79_generate: propext Classical.choice Quot.sound
Verif.C79_lists: propext Quot.sound
Verif.C79_language: propext Classical.choice Quot.sound
Verif.C79_characters_partial: propext Classical.choice Quot.sound
Verif.C79_french_violates: propext Classical.choice Quot.sound
Verif.C80_bytes_roundtrip: propext Classical.choice Quot.sound
Verif.C80_bytes_reads: propext Quot.sound
Verif.C80_dlog_canonical: propext Quot.sound
Verif.C80_dht_canonical_violates: propext Quot.sound
Verif.C80_biguint_partial: propext Classical.choice Quot.sound
Verif.C80_biguint_violates: propext Quot.sound
Verif.C80_hex: propext Classical.choice Quot.sound
Verif.C80_json_roundtrip: propext Classical.choice Quot.sound
Verif.C80_json_agrees: propext Quot.sound
Verif.C80_json_violates: propext Classical.choice Quot.sound
Verif.C80_address: propext Classical.choice Quot.sound
Verif.C80_spends_partial: propext Classical.choice Quot.sound
Verif.C80_random: propext Quot.sound
Verif.C80_inconsistent_violates: propext Classical.choice Quot.sound
Verif.C81_roundtrip: propext Quot.sound
Verif.C81_injective: propext Quot.sound
Verif.C81_typed: propext Quot.sound
Verif.C81_bytes: propext Classical.choice Quot.sound
Verif.C81_exact: propext Quot.sound
Verif.C81_digest: propext Quot.sound
Verif.C81_mismatch_partial: propext Quot.sound
Verif.C81_longer_tuple_violates: propext
Verif.C81_empty_violates: propext
Verif.C81_option_not_storable: propext Quot.sound
Verif.C81_dlog: propext
Verif.C81_value: propext Quot.sound
Verif.C81_option_value_violates: propext
Verif.Props.C82_refines: propext Classical.choice Quot.sound
Verif.Props.C82_panic: propext Classical.choice Quot.sound
Verif.Props.C82_consistent: propext Classical.choice Quot.sound
Verif.Props.C82_sorted: propext Classical.choice Quot.sound
Verif.Props.C82_stale_slot: propext
Verif.Props.C83_delay: propext Classical.choice Quot.sound
Verif.Props.C83_resolves: propext Classical.choice Quot.sound
Verif.Props.C83_next_event: propext Classical.choice Quot.sound
Verif.Props.C83_gone_partial: propext Classical.choice Quot.sound
Verif.Props.C83_reset_gone_violates: propext
Verif.Props.C83_past_violates: propext
Verif.Props.C83_micro: propext Classical.choice Quot.sound
Verif.Props.C83_race_violates: propext
Verif.Props.C84_next: propext Quot.sound
Verif.Props.C84_panic: propext Quot.sound
Verif.Props.C84_zero_violates: propext
Verif.Props.C84_poll: propext Classical.choice Quot.sound
Verif.Props.C84_rate: propext Classical.choice Quot.sound
Verif.Props.C84_gone_violates: propext Quot.sound
Verif.Props.C84_elapsed_violates: propext Quot.sound
Verif.C85_tokens: propext Classical.choice Quot.sound
Verif.C85_lossless: propext Classical.choice Quot.sound
Verif.C85_grammar: propext Classical.choice Quot.sound
Verif.C85_accepts: propext Classical.choice Quot.sound
Verif.C85_unambiguous: propext Classical.choice Quot.sound
Verif.C85_errors: propext Classical.choice Quot.sound
Verif.C86_compiles: propext Classical.choice Quot.sound
Verif.C86_panics: propext Classical.choice Quot.sound
Verif.C86_errors: propext Classical.choice Quot.sound
Verif.C86_meaning_partial: propext Classical.choice Quot.sound
Verif.C86_tree: propext Classical.choice Quot.sound
Verif.C86_no_proposition_violates: propext Classical.choice Quot.sound
Verif.C86_operators_violate: propext Classical.choice Quot.sound
Verif.C86_dropped_violates: propext Classical.choice Quot.sound
Verif.C86_types_violate: propext Classical.choice Quot.sound
Verif.C86_height_violates: propext Classical.choice Quot.sound
Verif.C86_exponential_violates: propext Classical.choice Quot.sound
Verif.C87_inside: propext Classical.choice Quot.sound
Verif.C87_described_partial: propext Classical.choice Quot.sound
Verif.C87_whole_violates: propext Classical.choice Quot.sound
Verif.C87_line_partial: propext Classical.choice Quot.sound
Verif.C87_line_violates: propext Classical.choice Quot.sound
Verif.C88_roundtrip_partial: propext Classical.choice Quot.sound
Verif.C88_no_distance_violates: propext Quot.sound
Verif.C88_parsed_violates: propext Classical.choice Quot.sound
Verif.C88_fields: propext Classical.choice Quot.sound
Verif.C88_required: propext Quot.sound
Verif.C88_id_violates: propext Classical.choice Quot.sound
Verif.C88_node_text_violates: propext Classical.choice Quot.sound
Verif.C88_distance: propext Quot.sound
Verif.C88_distance_number: propext Quot.sound
Verif.C88_distance_text: propext Classical.choice Quot.sound
Verif.C88_votes_string: propext Quot.sound
Verif.C88_votes_array_partial: propext Quot.sound
Verif.C88_votes_cut_violates: propext Quot.sound
Verif.C88_votes_panic_violates: propext Classical.choice Quot.sound
Verif.C89_merkle_roundtrip: propext Quot.sound
Verif.C89_batch_roundtrip: propext Quot.sound
Verif.C89_levels: propext Quot.sound
Verif.C89_leaf_violates: propext Quot.sound
Verif.C89_nipopow_roundtrip_partial: propext Classical.choice Quot.sound
Verif.C89_nipopow_violates: propext Classical.choice Quot.sound
Verif.C89_block_roundtrip_partial: propext Classical.choice Quot.sound
Verif.C89_block_violates: propext Quot.sound
Verif.C89_block_content: propext Classical.choice Quot.sound
Verif.C90_seeds: propext Quot.sound
Verif.C90_complete: propext Classical.choice Quot.sound
Verif.C90_result: propext Classical.choice Quot.sound
Verif.C90_once_partial: propext Classical.choice Quot.sound
Verif.C90_twice_violates: propext Classical.choice Quot.sound
Verif.C90_no_panic: propext Classical.choice Quot.sound
Verif.C91_progress_partial: propext Classical.choice Quot.sound
Verif.C91_bounded: propext Classical.choice Quot.sound
Verif.C91_timeout_partial: propext Classical.choice Quot.sound
Verif.C91_late_violates: propext Quot.sound
Verif.C91_parallel_violates: propext Classical.choice Quot.sound
Verif.C91_dead_violates: propext Classical.choice Quot.sound
Verif.C92_session_partial: propext Classical.choice Quot.sound
Verif.C92_k_of_n: propext Classical.choice Quot.sound
Verif.C92_too_many_violates: propext Classical.choice Quot.sound
Verif.C92_nested_violates: propext Classical.choice Quot.sound
Verif.C92_same_key_violates: propext Classical.choice Quot.sound
Verif.C93_version_partial: propext Classical.choice Quot.sound
Verif.C93_patch_violates: propext Classical.choice Quot.sound
Verif.C93_major_violates: propext Classical.choice Quot.sound
Verif.C93_json: propext
Verif.C94_address: propext Classical.choice Quot.sound
Verif.C94_brackets: propext Classical.choice Quot.sound
Verif.C94_no_panic: propext
Verif.C94_json: propext Quot.sound
Verif.C94_url_partial: propext Quot.sound
Verif.C94_scope_violates: propext Classical.choice Quot.sound
Verif.C95_result: propext Classical.choice Quot.sound
Verif.C95_complete: propext Classical.choice Quot.sound
Verif.C95_whole: propext Classical.choice Quot.sound
Verif.C95_throttle: propext Classical.choice Quot.sound
Verif.C95_no_panic: propext Classical.choice Quot.sound
Verif.C95_time: propext Classical.choice Quot.sound
Verif.C95_once_first: propext Classical.choice Quot.sound
Verif.C95_once_partial: propext Classical.choice Quot.sound
Verif.C95_again_violates: propext Quot.sound
Verif.C96_stuck_partial: propext Classical.choice Quot.sound
Verif.C96_bounded: propext Classical.choice Quot.sound
Verif.C96_timeout_partial: propext Quot.sound
Verif.C96_lost_violates: propext Classical.choice Quot.sound
Verif.C96_late_violates: propext Classical.choice Quot.sound
Verif.C96_single_violates: propext Classical.choice Quot.sound
Verif.C96_small_violates: propext Classical.choice Quot.sound
Verif.C97_getters: propext Classical.choice Quot.sound
Verif.C97_build: propext Classical.choice Quot.sound
Verif.C97_refused: propext Classical.choice Quot.sound
Verif.C97_minted: propext Classical.choice Quot.sound
Verif.C97_overflow_violates: propext Quot.sound
Verif.C97_min_value_partial: propext Classical.choice Quot.sound
Verif.C97_min_value_thrice: propext Classical.choice Quot.sound
Verif.C97_box_size: propext Quot.sound
Verif.C97_small_box_panics_violates: propext Classical.choice Quot.sound
Verif.C97_zero_per_byte_violates: propext Classical.choice Quot.sound
Verif.C97_in_tx_builder: propext Classical.choice Quot.sound
Verif.C97_min_value_violates: propext Classical.choice Quot.sound
Verif.C97_box_below_min_violates: propext Classical.choice Quot.sound
Verif.C98_sound: propext Classical.choice Quot.sound
Verif.C98_first_partial: propext Classical.choice Quot.sound
Verif.C98_all_partial: propext Classical.choice Quot.sound
Verif.C98_complete: propext Classical.choice Quot.sound
Verif.C98_error: propext Classical.choice Quot.sound
Verif.C98_made: propext Classical.choice Quot.sound
Verif.C98_interpreter: propext Quot.sound
Verif.C98_duplicate_input_violates: propext Classical.choice Quot.sound
Verif.C98_zero_bytes_violates: propext Classical.choice Quot.sound
Verif.C99_to_int: propext Classical.choice Quot.sound
Verif.C99_of_int: propext Classical.choice Quot.sound
Verif.C99_inverse: propext Classical.choice Quot.sound
Verif.C99_secp: propext Classical.choice Quot.sound
Verif.C99_exp: propext Classical.choice Quot.sound
Verif.C99_no_int: propext Classical.choice Quot.sound
Verif.Props.C100_future: propext Classical.choice Quot.sound
Verif.Props.C100_items: propext Quot.sound
Verif.Props.C100_stream: propext Classical.choice Quot.sound
Verif.Props.C100_gone_violates: propext Quot.sound
Verif.C101_read_partial: propext Classical.choice Quot.sound
Verif.C101_accepts: propext Classical.choice Quot.sound
Verif.C101_unambiguous: propext Classical.choice Quot.sound
Verif.C101_typed_partial: propext Classical.choice Quot.sound
Verif.C101_type: propext Classical.choice Quot.sound
Verif.C101_shown: propext Quot.sound
Verif.C101_round_trip_partial: propext Classical.choice Quot.sound
Verif.C101_tuple: propext Classical.choice Quot.sound
Verif.C101_tuple_violates: propext Classical.choice Quot.sound
Verif.C101_mixed_violates: propext Classical.choice Quot.sound
Verif.C101_long_first_violates: propext Classical.choice Quot.sound
Verif.C101_small_types_violates: propext Classical.choice Quot.sound
Verif.C101_empty_violates: propext Quot.sound
Verif.C101_number_violates: propext Quot.sound
Verif.C102_accepts: propext Classical.choice Quot.sound
Verif.C102_headers_partial: propext Classical.choice Quot.sound
Verif.C102_defaults_violates: propext Classical.choice Quot.sound
Verif.C102_rest: propext Classical.choice Quot.sound
Verif.C102_limit_partial: propext Classical.choice Quot.sound
Verif.C102_limit_violates: propext Classical.choice Quot.sound
Verif.C102_replace: propext Classical.choice Quot.sound
Verif.C103_path: propext Classical.choice Quot.sound
Verif.C103_distinct: propext Classical.choice Quot.sound
Verif.C103_sent: propext Classical.choice Quot.sound
Verif.C103_content: propext Classical.choice Quot.sound
Verif.C103_key_partial: propext Classical.choice Quot.sound
Verif.C103_key_violates: propext Classical.choice Quot.sound
Verif.C103_limit_partial: propext Classical.choice Quot.sound
Verif.C103_limit_violates: propext Classical.choice Quot.sound
Verif.C104_since: propext Classical.choice Quot.sound
Verif.C104_add: propext Quot.sound
Verif.C104_elapsed: propext Classical.choice Quot.sound
Verif.C104_system_elapsed_violates: propext Classical.choice Quot.sound
Verif.C104_next_partial: propext Quot.sound
Verif.C104_next_ok: propext Classical.choice Quot.sound
Verif.C104_next_violates: propext Quot.sound
Verif.C104_fraction_violates: propext
Verif.C105_chain_partial: propext Classical.choice Quot.sound
Verif.C105_provable: propext Classical.choice Quot.sound
Verif.C105_continued: propext Classical.choice Quot.sound
Verif.C105_header: propext Classical.choice Quot.sound
Verif.C105_work: propext Classical.choice Quot.sound
Verif.C105_target: propext Classical.choice Quot.sound
Verif.C105_lost_links_violates: propext Classical.choice Quot.sound
Verif.C105_later_partial: propext Classical.choice Quot.sound
Verif.C105_later_violates: propext Classical.choice Quot.sound
Verif.C105_short_sum_violates: propext Classical.choice Quot.sound
Verif.C105_panic_violates: propext Classical.choice Quot.sound
Verif.C106_proof_size: propext Classical.choice Quot.sound
Verif.C106_signed_size: propext Classical.choice Quot.sound
Verif.C106_estimate_partial: propext Classical.choice Quot.sound
Verif.C106_estimate_violates: propext Classical.choice Quot.sound
Verif.C106_long_proof_violates: propext Classical.choice Quot.sound
Verif.C107_signs: propext Classical.choice Quot.sound
Verif.C107_refuses: propext Classical.choice Quot.sound
Verif.C107_keeps_partial: propext Classical.choice Quot.sound
Verif.C107_bound: propext Classical.choice Quot.sound
Verif.C107_mnemonic: propext Classical.choice Quot.sound
Verif.C107_message_spends: propext Classical.choice Quot.sound
Verif.C107_bad_secret_violates: propext Classical.choice Quot.sound
Verif.C108_value: propext Classical.choice Quot.sound
Verif.C108_honest: propext Classical.choice Quot.sound
Verif.C108_errors: propext Classical.choice Quot.sound
Verif.C108_limit_partial: propext Classical.choice Quot.sound
Verif.C108_limit_violates: propext Classical.choice Quot.sound
Verif.C108_status_violates: propext Classical.choice Quot.sound
Verif.C108_other_violates: propext Classical.choice Quot.sound
Verif.C108_panic_violates: propext Classical.choice Quot.sound
Verif.C108_timeout_violates: propext Quot.sound
Verif.C108_no_cors_violates: propext Classical.choice Quot.sound
Verif.C108_error_for_status: propext Classical.choice Quot.sound
Verif.C108_headers: propext Classical.choice Quot.sound
Verif.C108_content_length: propext Classical.choice Quot.sound
Verif.C109_no_ub_partial: propext Classical.choice Quot.sound
Verif.C109_null_ub_violates: propext Classical.choice Quot.sound
Verif.C109_null_partial: propext Classical.choice Quot.sound
Verif.C109_null_panic_violates: propext Classical.choice Quot.sound
Verif.C109_key_null: propext Classical.choice Quot.sound
Verif.C109_makes: propext Classical.choice Quot.sound
Verif.C109_makes_not: propext Classical.choice Quot.sound
Verif.C109_frame: propext Classical.choice Quot.sound
Verif.C109_frame_run: propext Classical.choice Quot.sound
Verif.C109_no_leak: propext Classical.choice Quot.sound
Verif.C109_delete: propext Classical.choice Quot.sound
Verif.C109_reads: propext Classical.choice Quot.sound
Verif.C109_to_bytes: propext Classical.choice Quot.sound
Verif.C109_error_text: propext Classical.choice Quot.sound
Verif.C109_contents: propext Classical.choice Quot.sound
Verif.C109_get_copy: propext Classical.choice Quot.sound
Verif.C109_token_round_trip: propext Classical.choice Quot.sound
Verif.C109_strings_violates: propext
Verif.C110_start: propext Classical.choice Quot.sound
Verif.C110_start_null: propext
Verif.C110_completion_once: propext Quot.sound
Verif.C110_completion_answer: propext Quot.sound
Verif.C110_exactly_once_partial: propext Quot.sound
Verif.C110_abort_final: propext Quot.sound
Verif.C110_abort_ends: propext Quot.sound
Verif.C110_abort_calls: propext Quot.sound
Verif.C110_delete_handle: propext Quot.sound
Verif.C110_swift: propext Quot.sound
Verif.C110_abort_safe_partial: propext Classical.choice Quot.sound
Verif.C110_abort_violates: none
Verif.C110_silent_violates: propext
Verif.C110_over: propext Quot.sound
Verif.C110_handle_violates: propext
Verif.C111_texts: propext Classical.choice Quot.sound
Verif.C111_candidate: propext Classical.choice Quot.sound
Verif.C111_box: propext Classical.choice Quot.sound
Verif.C111_input: propext Classical.choice Quot.sound
Verif.C111_unsigned_input: propext Classical.choice Quot.sound
Verif.C111_transaction: propext Classical.choice Quot.sound
Verif.C111_unsigned_transaction: propext Classical.choice Quot.sound
Verif.C111_reads_box: propext Classical.choice Quot.sound
Verif.C111_reads_transaction: propext Classical.choice Quot.sound
Verif.C111_box_names: propext Classical.choice Quot.sound
Verif.C111_input_names: propext Classical.choice Quot.sound
Verif.C111_register_names: propext Classical.choice Quot.sound
Verif.C111_unsigned_input_violates: propext Classical.choice Quot.sound
Verif.C111_header: propext Classical.choice Quot.sound
Verif.C111_proofs: propext Classical.choice Quot.sound
Verif.C111_block: propext Classical.choice Quot.sound
Verif.C111_propositions: propext Classical.choice Quot.sound
Verif.C111_hints: propext Classical.choice Quot.sound
Verif.C111_hint_bags: propext Classical.choice Quot.sound
Verif.C111_node: propext Classical.choice Quot.sound
Verif.C112_token: propext Classical.choice Quot.sound
Verif.C112_box: propext Classical.choice Quot.sound
Verif.C112_transaction: propext Classical.choice Quot.sound
Verif.C112_unsigned_transaction: propext Classical.choice Quot.sound
Verif.C112_numbers: propext Classical.choice Quot.sound
Verif.C112_plain: propext Classical.choice Quot.sound
Verif.C113_numbers: propext Classical.choice Quot.sound
Verif.C113_types_written: propext Classical.choice Quot.sound
Verif.C113_types_partial: propext Classical.choice Quot.sound
Verif.C113_short_pair_violates: propext
Verif.C113_proposition: propext Classical.choice Quot.sound
Verif.C113_constant_partial: propext Classical.choice Quot.sound
Verif.C113_box_partial: propext Classical.choice Quot.sound
Verif.C113_transaction_partial: propext Classical.choice Quot.sound
Verif.C113_reduced_partial: propext Classical.choice Quot.sound
Verif.C113_expression_partial: propext Classical.choice Quot.sound
Verif.C113_tree_partial: propext Classical.choice Quot.sound
Verif.C113_codes: none
Verif.C113_header_without_pow: propext Classical.choice Quot.sound
Verif.C113_header: propext Classical.choice Quot.sound
Verif.C113_batch: propext Quot.sound
Verif.C113_nipopow: propext Classical.choice Quot.sound
Verif.C113_signature: propext Classical.choice Quot.sound
Verif.C113_fiat_shamir: propext Classical.choice Quot.sound
Verif.C113_peer: propext Classical.choice Quot.sound
Verif.C114_text: propext Classical.choice Quot.sound
Verif.C114_add: propext Classical.choice Quot.sound
Verif.C114_box_value: propext Classical.choice Quot.sound
Verif.C114_token_amount: propext Classical.choice Quot.sound
Verif.C114_bytes: propext Quot.sound
Verif.C114_number_partial: propext Classical.choice Quot.sound
Verif.C114_number_violates: propext
Verif.C114_longs: propext Classical.choice Quot.sound
Verif.C114_longs_read: propext Quot.sound
Verif.C114_tokens: propext Classical.choice Quot.sound
Verif.C114_get_partial: propext Classical.choice Quot.sound
Verif.C114_get_violates: propext
Verif.C114_headers: propext
