{
 "claims": [
  {
   "property": "C01",
   "status": "proved",
   "theorems": [
    "Props.C01_nil_roundtrip",
    "Props.C01_bool_roundtrip",
    "Props.C01_uint8_roundtrip",
    "Props.C01_uint16_roundtrip",
    "Props.C01_uint32_roundtrip",
    "Props.C01_uint64_roundtrip",
    "Props.C01_int32_roundtrip",
    "Props.C01_int64_roundtrip",
    "Props.C01_float32_roundtrip",
    "Props.C01_float64_roundtrip"
   ],
   "note": "All ten scalar types, any fresh buffer, any following bytes."
  },
  {
   "property": "C02",
   "status": "proved",
   "theorems": [
    "Props.C02_map_roundtrip",
    "Props.C02_slice_roundtrip"
   ],
   "note": "Round trip and kind check, all sizes and kinds."
  },
  {
   "property": "C03",
   "status": "proved",
   "theorems": [
    "Props.C03_string_roundtrip",
    "Props.C03_error_roundtrip",
    "Props.C03_nil_error_panics"
   ],
   "note": "All strings and error messages shorter than 2^32; Error(nil) panics (shown)."
  },
  {
   "property": "C04",
   "status": "partial",
   "theorems": [
    "Props.C04_bytes_roundtrip_partial",
    "Props.C04_decoder_correct",
    "Props.C04_false_from_2pow28"
   ],
   "note": "Proved for lengths below 2^28; the decoder is proved for all lengths below 2^32. From 2^28 on the claim is false of the code: encodeBytes forgets offset++ after the fifth length byte (C04_false_from_2pow28 gives the exact corrupted output)."
  },
  {
   "property": "C05",
   "status": "proved",
   "theorems": [
    "Props.C05_message_roundtrip",
    "Props.C05_message_roundtrip_fresh"
   ],
   "note": "All item sequences (byte slices below 2^28, see C04)."
  },
  {
   "property": "C06",
   "status": "proved",
   "theorems": [
    "Props.C06_encoder_emits_wire",
    "Props.C06_encoder_exact_any_length"
   ],
   "note": "All items; byte slices from 2^28 on are covered by the exact theorem C06_encoder_exact_any_length, which shows the deviation."
  },
  {
   "property": "C07",
   "status": "proved",
   "theorems": [
    "Props.C07_encode_append_only",
    "Props.C07_write_append_only"
   ],
   "note": "All items of any length, all writes, all usable buffers."
  },
  {
   "property": "C08",
   "status": "proved",
   "theorems": [
    "Props.C08_buffer_is_a_log",
    "Props.C08_any_size",
    "Props.C08_NewBufferSize"
   ],
   "note": "All histories by induction; C08_any_size drops the size limit (the appended bytes are then wireV2, which differs from the wire format from 2^28 bytes on, see C01)."
  },
  {
   "property": "C09",
   "status": "proved",
   "theorems": [
    "Props.C09_grow"
   ],
   "note": ""
  },
  {
   "property": "C10",
   "status": "partial",
   "theorems": [
    "Props.C10_no_panic_partial",
    "Props.C10_false_spare_capacity",
    "Props.C10_write_works_on_spare_capacity",
    "Props.C10_false_silent_truncation"
   ],
   "note": "Proved after any history for NewBuffer, NewBufferSize and NewBufferFromBytes without spare capacity; false for NewBufferFromBytes of a slice with spare capacity (two refutations: panic, silent truncation)."
  },
  {
   "property": "C11",
   "status": "partial",
   "theorems": [
    "Props.C11_panics_exactly_on_cut_varints",
    "Props.C11_no_panic_partial",
    "Props.C11_false"
   ],
   "note": "The exact set of panicking inputs is proved (C11_panics_exactly_on_cut_varints); the claim itself is false: every request that reads a varint panics on a varint cut off by the end of the input (C11_false)."
  },
  {
   "property": "C12",
   "status": "partial",
   "theorems": [
    "Props.C12_failed_read_restores_partial",
    "Props.C12_failed_read_position_partial",
    "Props.C12_false"
   ],
   "note": "Proved for every request except Map, Slice, String and Error; for those four the possible positions after a failure are proved and the claim is refuted (C12_false)."
  },
  {
   "property": "C13",
   "status": "partial",
   "theorems": [
    "Props.C13_progress_partial",
    "Props.C13_false"
   ],
   "note": "Proved except for Bytes on a length field of five continuation bytes, where the claim is false (C13_false)."
  },
  {
   "property": "C14",
   "status": "proved",
   "theorems": [
    "Props.C14_only_moves_forward",
    "Props.C14_sequence_only_moves_forward",
    "Props.C14_success_unaffected_by_appending",
    "Props.C14_success_depends_on_consumed_bytes_only"
   ],
   "note": "All requests, all inputs; also for sequences of reads."
  },
  {
   "property": "C15",
   "status": "proved",
   "theorems": [
    "Props.C15_success_needs_kind",
    "Props.C15_kind_mismatch",
    "Props.C15_own_error",
    "Props.C15_zero_value_on_error"
   ],
   "note": "All requests, all inputs, including zero values."
  },
  {
   "property": "C16",
   "status": "proved",
   "theorems": [
    "Props.C16_success_iff",
    "Props.C16_uint16_value",
    "Props.C16_uint32_value",
    "Props.C16_uint64_value",
    "Props.C16_int32_value",
    "Props.C16_int64_value",
    "Props.C16_rejected_iff"
   ],
   "note": "Exact success, rejection and (C11) panic sets for all integer types."
  },
  {
   "property": "C17",
   "status": "proved",
   "theorems": [
    "Props.C17_prefix_free",
    "Props.C17_accepted_prefix_free",
    "Props.C17_messages_injective",
    "Props.C17_v2_encoder_injective"
   ],
   "note": "For canonical and for all accepted encodings, for items and messages, and for the v2 encoder."
  },
  {
   "property": "C18",
   "status": "proved",
   "theorems": [
    "Props.C18_bounds",
    "Props.C18_bounds_tight",
    "Props.C18_minimal",
    "Props.C18_overlong_accepted"
   ],
   "note": "Bounds, tightness, minimality for all item types."
  },
  {
   "property": "C19",
   "status": "proved",
   "theorems": [
    "Props.C19_get_empty_and_exclusive",
    "Props.C19_owned_is_unreachable",
    "Props.C19_use_never_panics",
    "Props.C19_put_completes",
    "Props.C19_double_put_breaks_exclusivity"
   ],
   "note": "Interleaving state machine over any number of goroutines and events; sync.Pool modelled as a multiset that may drop items; the discipline (put only what you own, once) is a hypothesis shown necessary by C19_double_put_breaks_exclusivity."
  },
  {
   "property": "C20",
   "status": "proved",
   "theorems": [
    "Props.C20_bool_strict",
    "Props.C20_bool_rejects",
    "Props.C20_float32_bijection",
    "Props.C20_float64_bijection"
   ],
   "note": "Bit patterns; the CPU's float conversions are outside the model."
  },
  {
   "property": "C21",
   "status": "proved",
   "theorems": [
    "Props.C21_reset_forgets",
    "Props.C21_pooled_contents",
    "Props.C21_pooled_wire"
   ],
   "note": "All histories before and after Reset, values of any size; for pooled buffers all interleavings (C21_pooled_contents, C21_pooled_wire)."
  },
  {
   "property": "C22",
   "status": "proved",
   "theorems": [
    "Props.C22_map_claims_any_size",
    "Props.C22_slice_claims_any_size",
    "Props.C22_payload_is_from_input"
   ],
   "note": ""
  },
  {
   "property": "C23",
   "status": "proved",
   "theorems": [
    "Props.C23_item_roundtrip",
    "Props.C23_message_roundtrip",
    "Props.C23_error_nil_panics"
   ],
   "note": "All item sequences the v1 API can write; agrees byte for byte with the wire format except where noted in the theorems."
  },
  {
   "property": "C24",
   "status": "proved",
   "theorems": [
    "Props.C24_v1_wire_format",
    "Props.C24_same_bytes",
    "Props.C24_v1_to_v2",
    "Props.C24_v2_to_v1"
   ],
   "note": ""
  },
  {
   "property": "C25",
   "status": "proved",
   "theorems": [
    "Props.C25_byte_log",
    "Props.C25_byte_log_any_slice"
   ],
   "note": ""
  },
  {
   "property": "C26",
   "status": "partial",
   "theorems": [
    "Props.C26_exact_result",
    "Props.C26_bytes_payload_partial",
    "Props.C26_false"
   ],
   "note": "Proved when the scratch slice is not longer than the payload; false otherwise: the stale tail of a longer scratch slice is returned (C26_false)."
  },
  {
   "property": "C27",
   "status": "partial",
   "theorems": [
    "Props.C27_panics_exactly_on_cut_varints",
    "Props.C27_same_panics_as_v2",
    "Props.C27_no_panic_partial",
    "Props.C27_false",
    "Props.C27_empty_kind_panics"
   ],
   "note": "The exact set of panicking inputs is proved; the claim itself is false (C27_false)."
  },
  {
   "property": "C28",
   "status": "partial",
   "theorems": [
    "Props.C28_accepted_exactly",
    "Props.C28_rejects_too_many_groups_partial",
    "Props.C28_false"
   ],
   "note": "The overflow check is unreachable, so over-long varints are not rejected as claimed (C28_false); what is rejected is characterised exactly."
  },
  {
   "property": "C29",
   "status": "proved",
   "theorems": [
    "Props.C29_get_exclusive",
    "Props.C29_owned_is_unreachable",
    "Props.C29_reads_own_input",
    "Props.C29_returned_holds_no_input",
    "Props.C29_return_completes",
    "Props.C29_double_return_breaks_exclusivity"
   ],
   "note": "All interleavings of any number of goroutines; GetDecoder and ReturnDecoder are two steps each; the discipline (use and return only what you own) is a hypothesis shown necessary by C29_double_return_breaks_exclusivity."
  },
  {
   "property": "C30",
   "status": "proved",
   "theorems": [
    "Props.C30_agree",
    "Props.C30_bare_headers",
    "Props.C30_bool",
    "Props.C30_bool_differs",
    "Props.C30_bytes_success"
   ],
   "note": ""
  },
  {
   "property": "C31",
   "status": "proved",
   "theorems": [
    "Props.C31_appends_wire",
    "Props.C31_message_appends_wire",
    "Props.C31_overwrites_in_place",
    "Props.C31_same_bytes_as_go",
    "Props.C31_size_truncated"
   ],
   "note": "All items, all vectors; also writing at positions before the end. Sizes above 2^32 are silently truncated (C31_size_truncated)."
  },
  {
   "property": "C32",
   "status": "proved",
   "theorems": [
    "Props.C32_reads_wire",
    "Props.C32_rust_roundtrip",
    "Props.C32_go_v2_to_rust",
    "Props.C32_go_v1_to_rust",
    "Props.C32_rust_to_go_v2",
    "Props.C32_invalid_utf8_rejected"
   ],
   "note": "Sequences from the Go v1, Go v2 and Rust encoders, any position and any following bytes; both semantics of Cursor::read_exact."
  },
  {
   "property": "C33",
   "status": "proved",
   "theorems": [
    "Props.C33_never_panics",
    "Props.C33_sequence_never_panics"
   ],
   "note": "All inputs, positions, methods and sequences of calls. vec![0; n] is assumed not to abort on out-of-memory."
  },
  {
   "property": "C34",
   "status": "partial",
   "theorems": [
    "Props.C34_mismatch_restores_partial",
    "Props.C34_false_array",
    "Props.C34_false_map",
    "Props.C34_false_error",
    "Props.C34_probe_loses_a_byte"
   ],
   "note": "Proved for every method but decode_array, decode_map and decode_error of a lone byte; for these the claim is false and the resulting positions are proved (C34_false_*)."
  },
  {
   "property": "C35",
   "status": "proved",
   "theorems": [
    "Props.C35_appends_wire",
    "Props.C35_message_bytes",
    "Props.C35_new_encoder",
    "Props.C35_false_for_subarrays",
    "Props.C35_same_bytes_as_go"
   ],
   "note": "Encodings equal the wire specification and the Go v2 bytes, for encoders whose array covers its buffer (which is what the constructor makes by default); for a subarray window the bytes getter returns wrong bytes (C35_false_for_subarrays)."
  },
  {
   "property": "C36",
   "status": "partial",
   "theorems": [
    "Props.C36_grows_partial",
    "Props.C36_fixed_size",
    "Props.C36_false_varint",
    "Props.C36_false_reachable",
    "Props.C36_false_corruption",
    "Props.C36_false_payload",
    "Props.C36_false_payload_default"
   ],
   "note": "Proved for calls for which the reserve is large enough and doubling once suffices; false in general: varint methods reserve too little and resize doubles only once (C36_false_*)."
  },
  {
   "property": "C37",
   "status": "partial",
   "theorems": [
    "Props.C37_reads_wire_partial",
    "Props.C37_message_partial",
    "Props.C37_roundtrip_partial",
    "Props.C37_go_v2_to_typescript_partial",
    "Props.C37_uint16_exact",
    "Props.C37_false_uint16",
    "Props.C37_false_bom",
    "Props.C37_no_truncation"
   ],
   "note": "False for most uint16 values from 16384 (C37_false_uint16, exact set C37_uint16_exact) and for strings that begin with a byte order mark (C37_false_bom); proved for everything else."
  },
  {
   "property": "C38",
   "status": "partial",
   "theorems": [
    "Props.C38_empty_throws",
    "Props.C38_fixed_size_partial",
    "Props.C38_false_boolean",
    "Props.C38_false_number",
    "Props.C38_false_bytes",
    "Props.C38_false_window"
   ],
   "note": "Proved for empty input and for uint8/float32/float64 on whole arrays; false for the other methods (C38_false_*)."
  },
  {
   "property": "C39",
   "status": "partial",
   "theorems": [
    "Props.C39_null_reported_partial",
    "Props.C39_false_decode_none",
    "Props.C39_false_null_string",
    "Props.C39_false_unterminated_string",
    "Props.C39_null_status_aborts",
    "Props.C39_null_free"
   ],
   "note": "Proved for every function but polyglot_decode_none (which dereferences the null decoder: C39_false_decode_none) and for encoder/decoder/buffer arguments; null strings are dereferenced (C39_false_null_string), and strings without a zero byte are read past their end (C39_false_unterminated_string). Null status aborts, freeing null is a no-op."
  },
  {
   "property": "C40",
   "status": "partial",
   "theorems": [
    "Props.C40_encode_call",
    "Props.C40_encode_appends",
    "Props.C40_encode_string_utf8",
    "Props.C40_decode_success",
    "Props.C40_decode_failure",
    "Props.C40_decode_none_status",
    "Props.C40_encoder_size_status",
    "Props.C40_encoder_buffer",
    "Props.C40_encoder_buffer_small",
    "Props.C40_false_four_gib",
    "Props.C40_cycle",
    "Props.C40_false_interior_nul",
    "Props.C40_kind_numbers"
   ],
   "note": "Encode and decode calls proved equal to the Rust calls, and the full cycle proved, for strings without zero bytes and messages below 4 GiB. Refuted beyond: interior NUL (C40_false_interior_nul), 4 GiB (C40_false_four_gib); polyglot_decode_none and polyglot_encoder_size do not set the status (C40_decode_none_status, C40_encoder_size_status)."
  },
  {
   "property": "C41",
   "status": "partial",
   "theorems": [
    "Props.C41_roundtrip_partial",
    "Props.C41_schema_roundtrip_partial",
    "Props.C41_no_nil_partial",
    "Props.C41_false",
    "Props.C41_nil_element_false",
    "Props.C41_empty_message_false",
    "Props.C41_nil_target"
   ],
   "note": "Proved for all supported schemas and all values whose messages do not write a nil first and whose repeated fields and maps hold no nil messages (C41_roundtrip_partial), and for all values without nil messages whatever their types (C41_no_nil_partial); refuted otherwise (C41_false, C41_nil_element_false, C41_empty_message_false)."
  },
  {
   "property": "C42",
   "status": "partial",
   "theorems": [
    "Props.C42_exact",
    "Props.C42_same_as_fresh_partial",
    "Props.C42_false"
   ],
   "note": "C42_exact says exactly what the struct holds afterwards for every old value; equality with a fresh struct holds for values without nil messages and is refuted by C42_false (a nil message keeps the stale one)."
  },
  {
   "property": "C43",
   "status": "partial",
   "theorems": [
    "Props.C43_go_layout",
    "Props.C43_rust_layout",
    "Props.C43_bytes",
    "Props.C43_ts_encode_order",
    "Props.C43_ts_decode_order",
    "Props.C43_ts_false",
    "Props.C43_ts_constructor_false"
   ],
   "note": "C43_go_layout, C43_rust_layout, C43_bytes: generated Go and Rust encoders write exactly the layout given by an independent specification; the decoders read in that order (C41, C60, C63, C64). TypeScript: encode follows the same order (C43_ts_encode_order) but decode does not (C43_ts_decode_order), so the claim is false for every message type with a scalar and a non-scalar field (C43_ts_false), and constructor arguments are permuted (C43_ts_constructor_false)."
  },
  {
   "property": "C44",
   "status": "partial",
   "theorems": [
    "Props.C44_go_kind_checked",
    "Props.C44_rust_kind_checked",
    "Props.C44_go_tables",
    "Props.C44_rust_tables",
    "Props.C44_go_rust_agree",
    "Props.C44_ts_imports_false",
    "Props.C44_ts_kind_names_false",
    "Props.C44_ts_kind_names_undefined",
    "Props.C44_ts_functions_match"
   ],
   "note": "Go and Rust: C44_go_tables, C44_rust_tables (for every value of every kind the tables name the encoder, the announced kind and the decoder of the item it stands for), C44_go_rust_agree, C44_go_kind_checked, C44_rust_kind_checked (decoders reject any other first byte). TypeScript: the encode/decode function tables match (C44_ts_functions_match) but imported names and Kind members are wrong (C44_ts_imports_false, C44_ts_kind_names_false, C44_ts_kind_names_undefined), hence partial."
  },
  {
   "property": "C45",
   "status": "proved",
   "theorems": [
    "Props.C45_constants_are_indices",
    "Props.C45_generated_enums",
    "Props.C45_agree",
    "Props.C45_rust_accepts",
    "Props.C45_declared_numbers_false",
    "Props.C45_inner_enums_missing_false"
   ],
   "note": "Generated constants are declaration indices in Go, Rust and TypeScript, for top-level enums; numbers declared in the .proto are ignored (C45_declared_numbers_false) and enums declared inside messages are not generated at all (C45_inner_enums_missing_false)."
  },
  {
   "property": "C46",
   "status": "proved",
   "theorems": [
    "Props.C46_exported_identifier",
    "Props.C46_no_dot",
    "Props.C46_words_capitalised",
    "Props.C46_idempotent",
    "Props.C46_exact",
    "Props.C46_leading_underscore"
   ],
   "note": "Names that start with an underscore are outside the claim; for them the doc comment is wrong (C46_leading_underscore)."
  },
  {
   "property": "C47",
   "status": "partial",
   "theorems": [
    "Props.C47_collisions_partial",
    "Props.C47_style_guide_injective_partial",
    "Props.C47_false_in_general"
   ],
   "note": "False in general (C47_false_in_general); proved: collisions only between names that agree up to case, underscores and dots, and injective on style-guide names."
  },
  {
   "property": "C48",
   "status": "proved",
   "theorems": [
    "Props.C48_no_upper_case",
    "Props.C48_idempotent",
    "Props.C48_keeps_letters",
    "Props.C48_style_guide_unchanged",
    "Props.C48_exact"
   ],
   "note": "Strings are taken as sequences of runes."
  },
  {
   "property": "C49",
   "status": "proved",
   "theorems": [
    "Props.C49_no_writes",
    "Props.C49_bytes",
    "Props.C49_session",
    "Props.C49_reused_scratch",
    "Props.C49_scratch_in_input"
   ],
   "note": "over a memory model in which slices are references; C49_no_writes: all methods but Bytes; C49_bytes: Bytes with a scratch slice disjoint from the input, and all later contents of the input; C49_session: whole sessions; C49_reused_scratch and C49_scratch_in_input show that the conditions on the scratch slices are needed"
  },
  {
   "property": "C50",
   "status": "proved",
   "theorems": [
    "Props.C50_program_any",
    "Props.C50_program",
    "Props.C50_NewBufferFromBytes"
   ],
   "note": "C50_program_any: any program of calls on any buffers and writes into its own slices, values of any size (contents: what the encoders append, wireV2); C50_program: the same against the wire format for values below 2^28 bytes; C50_NewBufferFromBytes for slices whose length is their capacity (see C21 for others)"
  },
  {
   "property": "C51",
   "status": "proved",
   "theorems": [
    "Props.C51_is_iff_same_message",
    "Props.C51_v2_roundtrip_is",
    "Props.C51_v1_roundtrip_is",
    "Props.C51_nil_target",
    "Props.C51_not_symmetric"
   ],
   "note": "errors.Is of the standard library is modelled; foreign error types without their own Is method."
  },
  {
   "property": "C52",
   "status": "proved",
   "theorems": [
    "Props.C52_rust_success_is_go_success",
    "Props.C52_go_success_is_rust_success",
    "Props.C52_exceptions"
   ],
   "note": "Both directions, with the three exceptions shown real (C52_exceptions)."
  },
  {
   "property": "C53",
   "status": "partial",
   "theorems": [
    "Props.C53_mismatch_error_partial",
    "Props.C53_false_u16_u64",
    "Props.C53_false_array"
   ],
   "note": "False for decode_array, decode_u16, decode_u64 (C53_false_*), proved for all others."
  },
  {
   "property": "C54",
   "status": "proved",
   "theorems": [
    "Props.C54_cursor_discipline",
    "Props.C54_success_progress",
    "Props.C54_success_is_local"
   ],
   "note": ""
  },
  {
   "property": "C55",
   "status": "proved",
   "theorems": [
    "Props.C55_mismatch_restores",
    "Props.C55_null_any"
   ],
   "note": ""
  },
  {
   "property": "C56",
   "status": "proved",
   "theorems": [
    "Props.C56_forward_only",
    "Props.C56_progress"
   ],
   "note": ""
  },
  {
   "property": "C57",
   "status": "proved",
   "theorems": [
    "Props.C57_first_letter_only",
    "Props.C57_exact"
   ],
   "note": "unicode.ToLower modelled on ASCII only, which is all a proto identifier can start with."
  },
  {
   "property": "C58",
   "status": "proved",
   "theorems": [
    "Props.C58_valid_call_safe",
    "Props.C58_valid_program_safe",
    "Props.C58_decoder_on_any_input",
    "Props.C58_create_free",
    "Props.C58_create_free_decoder"
   ],
   "note": "Valid arguments as in polyglot.h: right type or null (decode_none: not null; strings: not null). For polyglot_free_decode_bytes validity excludes the cases of C59."
  },
  {
   "property": "C59",
   "status": "partial",
   "theorems": [
    "Props.C59_false_free_empty",
    "Props.C59_false_free_strict",
    "Props.C59_free_partial",
    "Props.C59_free_string",
    "Props.C59_string_lifecycle"
   ],
   "note": "Strings and errors: proved for every allocator. Byte slices: only non-empty ones and only with a size-agnostic allocator; refuted otherwise (C59_false_free_empty, C59_false_free_strict)."
  },
  {
   "property": "C60",
   "status": "partial",
   "theorems": [
    "Props.C60_roundtrip_partial",
    "Props.C60_no_nil_partial",
    "Props.C60_exact",
    "Props.C60_nil_false",
    "Props.C60_new_overflows",
    "Props.C60_new_iff",
    "Props.C60_roundtrip_finite_partial"
   ],
   "note": "Proved for types whose New terminates (exactly those without an endless chain of singular fields, C60_new_iff) and values without nil messages, of any shape; C60_nil_false and C60_new_overflows refute the rest."
  },
  {
   "property": "C62",
   "status": "proved",
   "theorems": [
    "Props.C62_same_bytes",
    "Props.C62_v1_to_v2",
    "Props.C62_v2_to_v1",
    "Props.C62_programs_partial"
   ],
   "note": "C62_same_bytes for every message value; decoding exactly as by the own decoder for messages anchored as in C41. Lengths: byte slices below 2^28 where v2 encodes. C62_programs_partial states it about the programs that the two generators print, for messages without nil."
  },
  {
   "property": "C63",
   "status": "proved",
   "theorems": [
    "Props.C63_roundtrip"
   ],
   "note": "Full property for all schemas whose Rust code compiles (RustSupported) and all values of Rust structs."
  },
  {
   "property": "C64",
   "status": "partial",
   "theorems": [
    "Props.C64_go_v2_to_rust_partial",
    "Props.C64_go_v1_to_rust_partial",
    "Props.C64_rust_to_go",
    "Props.C64_nil_false",
    "Props.C64_enum_false"
   ],
   "note": "Rust to Go in full (C64_rust_to_go, v1 and v2). Go to Rust for every Go value that has a Rust counterpart; refuted for nil messages (C64_nil_false) and undeclared enum numbers (C64_enum_false), which Go encodes and Rust rejects."
  },
  {
   "property": "C61",
   "status": "partial",
   "theorems": [
    "Props.C61_bounded_partial",
    "Props.C61_list_false"
   ],
   "note": "Proved for FiniteSize schemas (C61_bounded_partial); C61_list_false refutes it for a message with a singular field of its own type: the stack overflows on every input not starting with Nil, for every stack depth."
  },
  {
   "property": "C66",
   "status": "partial",
   "theorems": [
    "Props.C66_well_formed",
    "Props.C66_no_panic_partial",
    "Props.C66_panic_false",
    "Props.C66_reencode"
   ],
   "note": "C66_well_formed and C66_reencode in full; C66_no_panic_partial needs the last input byte < 128; C66_panic_false shows the panic is real (truncated varint)."
  },
  {
   "property": "C67",
   "status": "proved",
   "theorems": [
    "Props.C67_amplification",
    "Props.C67_rust_amplification"
   ],
   "note": "Go v2 (C67_amplification) and Rust (C67_rust_amplification), for every n below 2^32."
  },
  {
   "property": "C65",
   "status": "proved",
   "theorems": [
    "Props.C65_safe",
    "Props.C65_stack",
    "Props.C65_reencode",
    "Props.C65_remote_error"
   ],
   "note": "C65_safe, C65_stack, C65_reencode, C65_remote_error. Allocation failure (Vec::with_capacity of an announced size) is outside the model; see C67."
  },
  {
   "property": "C68",
   "status": "proved",
   "theorems": [
    "Props.C68_go",
    "Props.C68_rust"
   ],
   "note": "Stated for a message with a bool and a map field (Go: a message with maps only does not compile) or a map field (Rust) and scalar map values; keys and values of every supported kind."
  },
  {
   "property": "C69",
   "status": "proved",
   "theorems": [
    "Props.C69_stable",
    "Props.C69_until_reset"
   ],
   "note": "C69_stable, and C69_until_reset for the limit"
  },
  {
   "property": "C70",
   "status": "proved",
   "theorems": [
    "Props.C70_own_output",
    "Props.C70_free_part"
   ],
   "note": "values below 2^28 bytes for Encoder.Bytes; C70_free_part for the limit"
  },
  {
   "property": "C71",
   "status": "proved",
   "theorems": [
    "Props.C71_independent"
   ],
   "note": "values of any size"
  },
  {
   "property": "C72",
   "status": "proved",
   "theorems": [
    "Props.C72_bytes_roundtrip",
    "Props.C72_bytes_failure",
    "Props.C72_int32_roundtrip",
    "Props.C72_int32_failure",
    "Props.C72_uint32_roundtrip",
    "Props.C72_uint32_failure",
    "Props.C72_int64_roundtrip",
    "Props.C72_int64_failure",
    "Props.C72_uint64_roundtrip",
    "Props.C72_uint64_failure",
    "Props.C72_nil",
    "Props.C72_generator_encode",
    "Props.C72_generator_decode"
   ],
   "note": "bench.polyglot.go is transcribed by hand (Bench/Code.lean); C72_generator_* is a translation validation of Gen/GoGen.lean against it."
  },
  {
   "property": "C73",
   "status": "partial",
   "theorems": [
    "Props.C73_go_resolved_partial",
    "Props.C73_go_unique_partial",
    "Props.C73_go_two_files_false",
    "Props.C73_go_cross_file_false",
    "Props.C73_go_enum_only_false",
    "Props.C73_go_repeated_enum_false",
    "Props.C73_go_package_partial",
    "Props.C73_go_nested_collision_false",
    "Props.C73_go_constructor_collision_false",
    "Props.C73_go_deep_enum_false"
   ],
   "note": "The code violates the property: two files in one package both declare ErrDecodeNil (C73_go_two_files_false), so references across files never compile (C73_go_cross_file_false); files without messages do not use an import (C73_go_enum_only_false); the type of a repeated enum field is mis-capitalised (C73_go_repeated_enum_false); nested messages, constructors and deep enums clash or are missing (C73_go_nested_collision_false, C73_go_constructor_collision_false, C73_go_deep_enum_false). C73_go_resolved_partial, C73_go_unique_partial and C73_go_package_partial prove it for one file per package whose names differ in more than case, underscores and dots."
  },
  {
   "property": "C74",
   "status": "partial",
   "theorems": [
    "Props.C74_members_partial",
    "Props.C74_error_field_false"
   ],
   "note": "Violated by fields called error, encode or decode (C74_error_field_false). C74_members_partial: for distinct style-guide names these are the only exceptions."
  },
  {
   "property": "C75",
   "status": "partial",
   "theorems": [
    "Props.C75_returns_iff_partial",
    "Props.C75_ordered_partial",
    "Props.C75_recursive_false"
   ],
   "note": "Violated by every recursive message type reachable from a top-level message (C75_recursive_false). C75_returns_iff_partial characterises exactly the files for which it holds; C75_ordered_partial is the usual sufficient condition."
  },
  {
   "property": "C76",
   "status": "partial",
   "theorems": [
    "Props.C76_dependencies_partial",
    "Props.C76_rust_resolved_partial",
    "Props.C76_rust_unique_partial",
    "Props.C76_rust_module_partial",
    "Props.C76_keyword_field_false",
    "Props.C76_cross_file_false",
    "Props.C76_hidden_map_false",
    "Props.C76_inner_enum_false",
    "Props.C76_reserved_false"
   ],
   "note": "Violated by keyword field names, references across files, map fields and enums that only occur inside messages, and messages named like an import (C76_keyword_field_false, C76_cross_file_false, C76_hidden_map_false, C76_inner_enum_false, C76_reserved_false). C76_dependencies_partial says exactly what is imported; C76_rust_module_partial proves the property outside these cases."
  },
  {
   "property": "C77",
   "status": "partial",
   "theorems": [
    "Props.C77_go_compiles_iff_partial",
    "Props.C77_go_false",
    "Props.C77_go_lines"
   ],
   "note": "Fails for repeated enums, repeated bytes, maps to bytes and message types with map fields only (C77_go_false). C77_go_compiles_iff_partial determines exactly the schemas for which it holds; they are those the round-trip theorems C41-C43 and C50-C68 assume (GoSupported)."
  },
  {
   "property": "C78",
   "status": "partial",
   "theorems": [
    "Props.C78_rust_compiles_iff_partial",
    "Props.C78_rust_false",
    "Props.C78_rust_lines"
   ],
   "note": "Fails for repeated numbers and enums, map keys other than strings, maps to strings or bytes, and types containing themselves through singular fields (C78_rust_false). C78_rust_compiles_iff_partial determines exactly the schemas for which it holds; they are those the Rust round-trip theorems assume (RustSupported, FiniteSize)."
  },
  {
   "property": "C79",
   "status": "proved",
   "theorems": [
    "Props.C79_NewBuffer",
    "Props.C79_program",
    "Props.C79_independent"
   ],
   "note": "values below 2^32 bytes; over a memory model in which slices are references; C79_independent: interleaved calls equal separate calls"
  },
  {
   "property": "C80",
   "status": "proved",
   "theorems": [
    "Props.C80_stable",
    "Props.C80_until_reset",
    "Props.C80_own_output",
    "Props.C80_free_part"
   ],
   "note": "values below 2^32 bytes for Encoder.Bytes; C80_until_reset and C80_free_part show the limits"
  },
  {
   "property": "C81",
   "status": "proved",
   "theorems": [
    "Props.C81_no_writes",
    "Props.C81_bytes",
    "Props.C81_session",
    "Props.C81_fresh",
    "Props.C81_reused_scratch",
    "Props.C81_scratch_in_input"
   ],
   "note": "C81_no_writes: all methods but Bytes; C81_bytes: Bytes with any scratch slice disjoint from the input, and all later contents of the input; C81_session: whole sessions; C81_fresh: with a nil scratch slice the value is a new array; C81_reused_scratch and C81_scratch_in_input show that the conditions are needed"
  },
  {
   "property": "C82",
   "status": "proved",
   "theorems": [
    "Props.C82_v2",
    "Props.C82_shared_scratch",
    "Props.C82_v1"
   ],
   "note": "v2: C82_v2; v1: C82_v1. One call is one atomic step: the theorems show no call writes what another call reads, which is why finer interleavings do not matter. C82_shared_scratch shows that the condition on scratch slices is needed."
  },
  {
   "property": "C83",
   "status": "proved",
   "theorems": [
    "Props.C83_disjoint",
    "Props.C83_contents",
    "Props.C83_no_panic",
    "Props.C83_own_slices",
    "Props.C83_put_invalidates"
   ],
   "note": "Over the memory model. Arguments are slices outside the arrays of the pooled buffers. C83_put_invalidates shows the limit: a slice from Bytes() is overwritten by the next holder after Put."
  },
  {
   "property": "C84",
   "status": "partial",
   "theorems": [
    "Props.C84_v2",
    "Props.C84_v1",
    "Props.C84_rust_success",
    "Props.C84_rust_limit",
    "Props.C84_rust_counts",
    "Props.C84_rust_refuted",
    "Props.C84_rust_program"
   ],
   "note": "Go v2 and v1: proved (strings of a failing call are not built; payloads of strings are values in the model, so their allocation is the payload itself). Rust: proved for calls and programs that succeed; false for failing calls: vec![0u8; size] runs before read_exact, so a 7-byte input makes decode_bytes ask for up to 2^32-1 bytes (C84_rust_refuted); C84_rust_limit is the bound that holds. C84_rust_counts ties the instrumented functions to the model."
  },
  {
   "property": "C85",
   "status": "partial",
   "theorems": [
    "Props.C85_tokens",
    "Props.C85_reads",
    "Props.C85_shipped",
    "Props.C85_package",
    "Props.C85_declares",
    "Props.C85_declares_v1"
   ],
   "note": "Proved for both generators (the library is a parameter): template files (byte for byte, parsed by a model of text/template) print, for every well-formed file, one text, if version and path have no newline; it is read by the model's Go lexer and parser as the program `program f` and nothing else (C85_reads, with C85_tokens, C85_package, C85_declares, C85_declares_v1). Refuted for the shipped version text, which ends with a newline: the text starts with `, DO NOT EDIT.` and is read as no program (C85_shipped). Excluded by hypothesis: packages and repeated enum types named like keywords, names with a leading underscore."
  },
  {
   "property": "C86",
   "status": "proved",
   "theorems": [
    "Props.C86_encode",
    "Props.C86_text",
    "Props.C86_any_stack"
   ],
   "note": "For both generators. The printed program (C85) is executed by an interpreter for the Go subset it is written in (Text/GoRun.lean); the result is compared with the independent layout specification. Hypothesis Plain: names are proto identifiers, referenced types are declared in the file, no Go name is declared twice, fields supported (see Field.GoSupported). C86_text states it about the text: the one text printed is read by the lexer and parser as the program that is run."
  },
  {
   "property": "C87",
   "status": "partial",
   "theorems": [
    "Props.C87_decode",
    "Props.C87_new",
    "Props.C87_roundtrip_partial",
    "Props.C87_any_input_partial",
    "Props.C87_text",
    "Props.C87_hidden_enum_false",
    "Props.C87_any_stack",
    "Props.C87_determined"
   ],
   "note": "For both generators, except C87_new and C87_roundtrip_partial (v2; for v1 see C92). C87_decode: the printed Decode returns what the model GoGen.Decode returns, for every receiver and input; C87_roundtrip_partial composes it with C86 and C41, C87_any_input_partial with C61 and C66 (same restrictions as there: anchored messages without nil elements, no singular recursion; inputs ending in a continuation byte may panic). Missing from the full statement: files in which an enum has the Go name of a local variable of a decoder (C87_hidden_enum_false: such code has no meaning, Unhidden excludes it). C87_text states it about the text."
  },
  {
   "property": "C88",
   "status": "partial",
   "theorems": [
    "Props.C88_exact_partial",
    "Props.C88_own_types_partial",
    "Props.C88_unhidden",
    "Props.C88_defects",
    "Props.C88_text"
   ],
   "note": "exact (iff) for all well-formed files but two kinds of homonyms (type of another file with the Go name of an own declaration; repeated enum named uint32): includes that fields refer to own types only and that no decoder variable hides a needed name. C88_own_types_partial, C88_unhidden, C88_defects: necessary conditions without any restriction."
  },
  {
   "property": "C89",
   "status": "partial",
   "theorems": [
    "Props.C89_answer",
    "Props.C89_names",
    "Props.C89_shipped_false",
    "Props.C89_independent"
   ],
   "note": "For both generators. Proved for version texts without newline (C89_answer, C89_names, C89_independent). Refuted for the version text that ships: it ends with a newline, the printed text does not start with `package`, and protogen turns that into an error answer for every request (C89_shipped_false). Go's parser/printer is a parameter with two conditions, which the model's own parser is shown to meet; protogen's option `module` and I/O are not modelled."
  },
  {
   "property": "C90",
   "status": "partial",
   "theorems": [
    "Props.C90_ts_exact",
    "Props.C90_ts_independent_false",
    "Props.C90_ts_first_partial"
   ],
   "note": "False: names recorded for earlier files stay in the import line of later files (C90_ts_independent_false). C90_ts_exact says exactly which names each file of a request imports; C90_ts_first_partial: the claim holds for the first file."
  },
  {
   "property": "C91",
   "status": "partial",
   "theorems": [
    "Props.C91_reuse_partial",
    "Props.C91_text_partial"
   ],
   "note": "For both generators. C91_reuse_partial, C91_text_partial for all files as in C87 without singular self-recursion. Missing from the full claim because false of the code: messages with nil message fields keep the old field (C42_false); inputs whose last byte is 128 or more may panic (C66_panic_false). Not modelled: the struct after a recovered panic."
  },
  {
   "property": "C92",
   "status": "partial",
   "theorems": [
    "Props.C92_new",
    "Props.C92_new_endless_false",
    "Props.C92_roundtrip_partial"
   ],
   "note": "C92_new for types without an endless chain of singular fields, refuted for all others (C92_new_endless_false: NewT() exceeds every call stack). C92_roundtrip_partial: for messages without nil messages, files without endless chains; with nil messages false (C60_nil_false). Hypotheses Plain and Unhidden as in C86 and C87."
  },
  {
   "property": "C93",
   "status": "proved",
   "theorems": [
    "Props.C93_works",
    "Props.C93_text",
    "Props.C93_roundtrip_v2_partial",
    "Props.C93_both",
    "Props.C93_both_false",
    "Props.C93_homonym_false"
   ],
   "note": "C93_works (both versions), C93_text (about the printed text), C93_both (v1 compiles iff v2 compiles), C93_roundtrip_v2_partial (restrictions of C41 on nil values); refutations for homonyms (C93_homonym_false) and for the error variables (C93_both_false). Uses the exact characterisation C88."
  },
  {
   "property": "C94",
   "status": "proved",
   "theorems": [
    "Props.C94_tokens",
    "Props.C94_shipped",
    "Props.C94_reads",
    "Props.C94_declares"
   ],
   "note": "C94_tokens (text = tokens of the program), C94_reads (a parser written from the Rust grammar reads the text as exactly this program iff no struct, field, enum or enum value name is printed as a Rust keyword, and as no program otherwise), C94_shipped (what the shipped version text does: no program), C94_declares (names). rustfmt is not modelled; the text is what it is given."
  },
  {
   "property": "C95",
   "status": "proved",
   "theorems": [
    "Props.C95_encode",
    "Props.C95_decode",
    "Props.C95_roundtrip",
    "Props.C95_untrusted",
    "Props.C95_from_text",
    "Props.C95_languages"
   ],
   "note": "RustRun.lean is an interpreter for the Rust syntax that is printed (statements, `?`, ok_or, nested functions, struct literals, Vec, HashMap in insertion order, try_from of TryFromPrimitive, trait methods); the cursor methods are those of the model of the Rust library. C95_encode and C95_decode: the printed program does what the schema-level model (C63, C65) does, on every input and stack depth; C95_roundtrip, C95_untrusted, C95_languages (Go v1, Go v2 and Rust programs) follow; C95_from_text ties it to the printed text: the generator prints one text, and it is read as one program, this one. Ownership, lifetimes and types are not checked by the interpreter: a step that rustc would reject is `bad`, and is shown not to happen. Allocation failure is not modelled."
  },
  {
   "property": "C96",
   "status": "proved",
   "theorems": [
    "Props.C96_tokens",
    "Props.C96_shipped",
    "Props.C96_imports",
    "Props.C96_links",
    "Props.C96_declares",
    "Props.C96_constructor"
   ],
   "note": "Text of the templates as printed; running the TypeScript program is not modelled. C96_links and C96_constructor are equivalences, which show that most files are not linked and when arguments are swapped."
  },
  {
   "property": "C97",
   "status": "proved",
   "theorems": [
    "Props.C97_scoped",
    "Props.C97_needs"
   ],
   "note": "Scoping rules (block scopes, temporal order of let/const, parameters, members, types) written for the syntax trees of C96. Sufficient condition C97_scoped and necessary condition C97_needs; they differ only in variables of decode that have the name of a loop variable or package function. Types of expressions are not checked."
  },
  {
   "property": "C98",
   "status": "proved",
   "theorems": [
    "Props.C98_encode",
    "Props.C98_maps",
    "Props.C98_enum"
   ],
   "note": "C98_encode and C98_enum characterise the files for which the first two parts hold; C98_maps shows for every map field that the map which the constructor gets is always empty: the variable that holds it is set to an object with a new Map and mentioned in the constructor call only. Readings of the syntax tree of C96, whose text is the text of the generator; running TypeScript is not modelled."
  },
  {
   "property": "C99",
   "status": "partial",
   "theorems": [
    "Props.C99_rust_answer",
    "Props.C99_rust_independent",
    "Props.C99_rust_shipped_false",
    "Props.C99_ts_answer",
    "Props.C99_ts_shipped_false"
   ],
   "note": "Rust: C99_rust_answer says exactly which requests are answered and with what (rustfmt is a parameter with three conditions, which the model's own reader is shown to meet), C99_rust_independent; TypeScript: C99_ts_answer for all well-formed files. False for the version text that ships, which ends with a newline: C99_rust_shipped_false (no answer at all), C99_ts_shipped_false (files that begin with a comma). protogen's own checks of the request are not modelled."
  }
 ]
}