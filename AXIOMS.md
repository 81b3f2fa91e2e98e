# Axioms each theorem depends on

Generated by tools/axioms.sh (`#print axioms`). All are Lean's own; names are in namespace `Props`.

## none (1 theorems)

C40_kind_numbers

## propext (11 theorems)

C44_go_rust_agree, C44_ts_functions_match, C44_ts_kind_names_false, C44_ts_kind_names_undefined, C48_style_guide_unchanged, C51_nil_target, C60_new_overflows, C77_go_false, C77_go_lines, C78_rust_lines, C87_determined

## propext, Classical.choice, Quot.sound (322 theorems)

C01_bool_roundtrip, C01_float32_roundtrip, C01_float64_roundtrip, C01_int32_roundtrip, C01_int64_roundtrip, C01_nil_roundtrip, C01_uint16_roundtrip, C01_uint32_roundtrip, C01_uint64_roundtrip, C01_uint8_roundtrip, C02_map_roundtrip, C02_slice_roundtrip, C03_error_roundtrip, C03_string_roundtrip, C04_bytes_roundtrip_partial, C04_decoder_correct, C04_false_from_2pow28, C05_message_roundtrip, C05_message_roundtrip_fresh, C06_encoder_emits_wire, C06_encoder_exact_any_length, C07_encode_append_only, C07_write_append_only, C08_any_size, C08_buffer_is_a_log, C10_false_silent_truncation, C10_no_panic_partial, C11_false, C11_no_panic_partial, C11_panics_exactly_on_cut_varints, C12_failed_read_position_partial, C12_failed_read_restores_partial, C13_false, C13_progress_partial, C14_only_moves_forward, C14_sequence_only_moves_forward, C14_success_depends_on_consumed_bytes_only, C14_success_unaffected_by_appending, C15_kind_mismatch, C15_own_error, C15_success_needs_kind, C15_zero_value_on_error, C16_int32_value, C16_int64_value, C16_rejected_iff, C16_success_iff, C16_uint16_value, C16_uint32_value, C16_uint64_value, C17_accepted_prefix_free, C17_messages_injective, C17_prefix_free, C17_v2_encoder_injective, C18_bounds, C18_minimal, C18_overlong_accepted, C19_get_empty_and_exclusive, C19_owned_is_unreachable, C19_put_completes, C19_use_never_panics, C20_bool_strict, C20_float32_bijection, C20_float64_bijection, C21_pooled_contents, C21_pooled_wire, C21_reset_forgets, C22_map_claims_any_size, C22_payload_is_from_input, C22_slice_claims_any_size, C23_item_roundtrip, C23_message_roundtrip, C24_same_bytes, C24_v1_to_v2, C24_v1_wire_format, C24_v2_to_v1, C25_byte_log, C25_byte_log_any_slice, C26_bytes_payload_partial, C26_exact_result, C26_false, C27_false, C27_no_panic_partial, C27_panics_exactly_on_cut_varints, C27_same_panics_as_v2, C28_accepted_exactly, C28_false, C28_rejects_too_many_groups_partial, C29_get_exclusive, C29_owned_is_unreachable, C29_reads_own_input, C29_return_completes, C29_returned_holds_no_input, C30_agree, C30_bare_headers, C30_bytes_success, C31_appends_wire, C31_message_appends_wire, C31_overwrites_in_place, C31_same_bytes_as_go, C32_go_v1_to_rust, C32_go_v2_to_rust, C32_invalid_utf8_rejected, C32_reads_wire, C32_rust_roundtrip, C32_rust_to_go_v2, C33_never_panics, C33_sequence_never_panics, C34_mismatch_restores_partial, C35_appends_wire, C35_false_for_subarrays, C35_message_bytes, C35_new_encoder, C35_same_bytes_as_go, C36_false_payload, C36_false_payload_default, C36_false_reachable, C36_false_varint, C36_fixed_size, C36_grows_partial, C37_false_bom, C37_false_uint16, C37_go_v2_to_typescript_partial, C37_message_partial, C37_no_truncation, C37_reads_wire_partial, C37_roundtrip_partial, C37_uint16_exact, C38_false_bytes, C38_false_number, C40_cycle, C40_decode_success, C40_encode_appends, C40_encode_string_utf8, C40_false_interior_nul, C41_empty_message_false, C41_false, C41_nil_element_false, C41_no_nil_partial, C41_roundtrip_partial, C41_schema_roundtrip_partial, C42_exact, C42_false, C42_same_as_fresh_partial, C43_bytes, C43_go_layout, C43_rust_layout, C43_ts_constructor_false, C44_go_kind_checked, C44_rust_kind_checked, C44_ts_imports_false, C46_exact, C46_leading_underscore, C47_false_in_general, C49_bytes, C49_no_writes, C49_session, C50_NewBufferFromBytes, C50_program, C50_program_any, C51_is_iff_same_message, C51_not_symmetric, C51_v1_roundtrip_is, C51_v2_roundtrip_is, C52_go_success_is_rust_success, C52_rust_success_is_go_success, C53_false_u16_u64, C53_mismatch_error_partial, C54_cursor_discipline, C54_success_is_local, C54_success_progress, C58_decoder_on_any_input, C58_valid_call_safe, C58_valid_program_safe, C59_string_lifecycle, C60_exact, C60_new_iff, C60_nil_false, C60_no_nil_partial, C60_roundtrip_finite_partial, C60_roundtrip_partial, C61_bounded_partial, C61_list_false, C62_programs_partial, C62_same_bytes, C62_v1_to_v2, C62_v2_to_v1, C63_roundtrip, C64_enum_false, C64_go_v1_to_rust_partial, C64_go_v2_to_rust_partial, C64_nil_false, C64_rust_to_go, C65_reencode, C65_remote_error, C65_safe, C65_stack, C66_no_panic_partial, C66_panic_false, C66_reencode, C66_well_formed, C67_amplification, C67_rust_amplification, C68_go, C68_rust, C69_stable, C69_until_reset, C70_own_output, C71_independent, C72_bytes_failure, C72_bytes_roundtrip, C72_int32_failure, C72_int32_roundtrip, C72_int64_failure, C72_int64_roundtrip, C72_nil, C72_uint32_failure, C72_uint32_roundtrip, C72_uint64_failure, C72_uint64_roundtrip, C73_go_constructor_collision_false, C73_go_cross_file_false, C73_go_deep_enum_false, C73_go_enum_only_false, C73_go_nested_collision_false, C73_go_package_partial, C73_go_repeated_enum_false, C73_go_resolved_partial, C73_go_two_files_false, C73_go_unique_partial, C74_error_field_false, C74_members_partial, C75_ordered_partial, C75_recursive_false, C75_returns_iff_partial, C76_cross_file_false, C76_dependencies_partial, C76_hidden_map_false, C76_inner_enum_false, C76_keyword_field_false, C76_reserved_false, C76_rust_module_partial, C76_rust_resolved_partial, C76_rust_unique_partial, C77_go_compiles_iff_partial, C78_rust_compiles_iff_partial, C78_rust_false, C79_independent, C79_program, C80_own_output, C80_stable, C80_until_reset, C81_bytes, C81_fresh, C81_no_writes, C81_reused_scratch, C81_scratch_in_input, C81_session, C82_v1, C82_v2, C83_contents, C83_disjoint, C83_no_panic, C83_own_slices, C84_rust_program, C84_rust_refuted, C84_rust_success, C84_v1, C84_v2, C85_declares, C85_declares_v1, C85_reads, C85_shipped, C85_tokens, C86_any_stack, C86_encode, C86_text, C87_any_input_partial, C87_any_stack, C87_decode, C87_new, C87_roundtrip_partial, C87_text, C88_defects, C88_exact_partial, C88_own_types_partial, C88_text, C89_answer, C89_shipped_false, C90_ts_exact, C90_ts_first_partial, C90_ts_independent_false, C91_reuse_partial, C91_text_partial, C92_new, C92_new_endless_false, C92_roundtrip_partial, C93_both, C93_roundtrip_v2_partial, C93_text, C93_works, C94_declares, C94_reads, C94_shipped, C94_tokens, C95_decode, C95_encode, C95_from_text, C95_languages, C95_roundtrip, C95_untrusted, C96_constructor, C96_imports, C96_links, C96_shipped, C96_tokens, C97_scoped, C98_maps, C99_rust_answer, C99_rust_independent, C99_rust_shipped_false, C99_ts_answer, C99_ts_shipped_false

## propext, Quot.sound (95 theorems)

C03_nil_error_panics, C08_NewBufferSize, C09_grow, C10_false_spare_capacity, C10_write_works_on_spare_capacity, C12_false, C18_bounds_tight, C19_double_put_breaks_exclusivity, C20_bool_rejects, C23_error_nil_panics, C27_empty_kind_panics, C29_double_return_breaks_exclusivity, C30_bool, C30_bool_differs, C31_size_truncated, C34_false_array, C34_false_error, C34_false_map, C34_probe_loses_a_byte, C36_false_corruption, C38_empty_throws, C38_false_boolean, C38_false_window, C38_fixed_size_partial, C39_false_decode_none, C39_false_null_string, C39_false_unterminated_string, C39_null_free, C39_null_reported_partial, C39_null_status_aborts, C40_decode_failure, C40_decode_none_status, C40_encode_call, C40_encoder_buffer, C40_encoder_buffer_small, C40_encoder_size_status, C40_false_four_gib, C41_nil_target, C43_ts_decode_order, C43_ts_encode_order, C43_ts_false, C44_go_tables, C44_rust_tables, C45_agree, C45_constants_are_indices, C45_declared_numbers_false, C45_generated_enums, C45_inner_enums_missing_false, C45_rust_accepts, C46_exported_identifier, C46_idempotent, C46_no_dot, C46_words_capitalised, C47_collisions_partial, C47_style_guide_injective_partial, C48_exact, C48_idempotent, C48_keeps_letters, C48_no_upper_case, C49_reused_scratch, C49_scratch_in_input, C52_exceptions, C53_false_array, C55_mismatch_restores, C55_null_any, C56_forward_only, C56_progress, C57_exact, C57_first_letter_only, C58_create_free, C58_create_free_decoder, C59_false_free_empty, C59_false_free_strict, C59_free_partial, C59_free_string, C70_free_part, C72_generator_decode, C72_generator_encode, C79_NewBuffer, C80_free_part, C82_shared_scratch, C83_put_invalidates, C84_rust_counts, C84_rust_limit, C85_package, C87_hidden_enum_false, C88_unhidden, C89_independent, C89_names, C93_both_false, C93_homonym_false, C96_declares, C97_needs, C98_encode, C98_enum
