{
 "C01": [
  "proved",
  "All ten scalar types, any fresh buffer, any following bytes."
 ],
 "C02": [
  "proved",
  "Round trip and kind check, all sizes and kinds."
 ],
 "C03": [
  "proved",
  "All strings and error messages shorter than 2^32; Error(nil) panics (shown)."
 ],
 "C04": [
  "partial",
  "Proved for lengths below 2^28; the decoder is proved for all lengths below 2^32. From 2^28 on the claim is false of the code: encodeBytes forgets offset++ after the fifth length byte (C04_false_from_2pow28 gives the exact corrupted output)."
 ],
 "C05": [
  "proved",
  "All item sequences (byte slices below 2^28, see C04)."
 ],
 "C06": [
  "proved",
  "All items; byte slices from 2^28 on are covered by the exact theorem C06_encoder_exact_any_length, which shows the deviation."
 ],
 "C07": [
  "proved",
  "All items of any length, all writes, all usable buffers."
 ],
 "C08": [
  "proved",
  "All histories by induction; C08_any_size drops the size limit (the appended bytes are then wireV2, which differs from the wire format from 2^28 bytes on, see C01)."
 ],
 "C09": [
  "proved",
  ""
 ],
 "C10": [
  "partial",
  "Proved after any history for NewBuffer, NewBufferSize and NewBufferFromBytes without spare capacity; false for NewBufferFromBytes of a slice with spare capacity (two refutations: panic, silent truncation)."
 ],
 "C21": [
  "proved",
  "All histories before and after Reset, values of any size; for pooled buffers all interleavings (C21_pooled_contents, C21_pooled_wire)."
 ],
 "C11": [
  "partial",
  "The exact set of panicking inputs is proved (C11_panics_exactly_on_cut_varints); the claim itself is false: every request that reads a varint panics on a varint cut off by the end of the input (C11_false)."
 ],
 "C12": [
  "partial",
  "Proved for every request except Map, Slice, String and Error; for those four the possible positions after a failure are proved and the claim is refuted (C12_false)."
 ],
 "C13": [
  "partial",
  "Proved except for Bytes on a length field of five continuation bytes, where the claim is false (C13_false)."
 ],
 "C14": [
  "proved",
  "All requests, all inputs; also for sequences of reads."
 ],
 "C15": [
  "proved",
  "All requests, all inputs, including zero values."
 ],
 "C16": [
  "proved",
  "Exact success, rejection and (C11) panic sets for all integer types."
 ],
 "C17": [
  "proved",
  "For canonical and for all accepted encodings, for items and messages, and for the v2 encoder."
 ],
 "C18": [
  "proved",
  "Bounds, tightness, minimality for all item types."
 ],
 "C20": [
  "proved",
  "Bit patterns; the CPU's float conversions are outside the model."
 ],
 "C22": [
  "proved",
  ""
 ],
 "C19": [
  "proved",
  "Interleaving state machine over any number of goroutines and events; sync.Pool modelled as a multiset that may drop items; the discipline (put only what you own, once) is a hypothesis shown necessary by C19_double_put_breaks_exclusivity."
 ],
 "C23": [
  "proved",
  "All item sequences the v1 API can write; agrees byte for byte with the wire format except where noted in the theorems."
 ],
 "C24": [
  "proved",
  ""
 ],
 "C25": [
  "proved",
  ""
 ],
 "C26": [
  "partial",
  "Proved when the scratch slice is not longer than the payload; false otherwise: the stale tail of a longer scratch slice is returned (C26_false)."
 ],
 "C27": [
  "partial",
  "The exact set of panicking inputs is proved; the claim itself is false (C27_false)."
 ],
 "C28": [
  "partial",
  "The overflow check is unreachable, so over-long varints are not rejected as claimed (C28_false); what is rejected is characterised exactly."
 ],
 "C30": [
  "proved",
  ""
 ],
 "C29": [
  "proved",
  "All interleavings of any number of goroutines; GetDecoder and ReturnDecoder are two steps each; the discipline (use and return only what you own) is a hypothesis shown necessary by C29_double_return_breaks_exclusivity."
 ],
 "C31": [
  "proved",
  "All items, all vectors; also writing at positions before the end. Sizes above 2^32 are silently truncated (C31_size_truncated)."
 ],
 "C32": [
  "proved",
  "Sequences from the Go v1, Go v2 and Rust encoders, any position and any following bytes; both semantics of Cursor::read_exact."
 ],
 "C33": [
  "proved",
  "All inputs, positions, methods and sequences of calls. vec![0; n] is assumed not to abort on out-of-memory."
 ],
 "C34": [
  "partial",
  "Proved for every method but decode_array, decode_map and decode_error of a lone byte; for these the claim is false and the resulting positions are proved (C34_false_*)."
 ],
 "C52": [
  "proved",
  "Both directions, with the three exceptions shown real (C52_exceptions)."
 ],
 "C53": [
  "partial",
  "False for decode_array, decode_u16, decode_u64 (C53_false_*), proved for all others."
 ],
 "C54": [
  "proved",
  ""
 ],
 "C35": [
  "proved",
  "Encodings equal the wire specification and the Go v2 bytes, for encoders whose array covers its buffer (which is what the constructor makes by default); for a subarray window the bytes getter returns wrong bytes (C35_false_for_subarrays)."
 ],
 "C36": [
  "partial",
  "Proved for calls for which the reserve is large enough and doubling once suffices; false in general: varint methods reserve too little and resize doubles only once (C36_false_*)."
 ],
 "C37": [
  "partial",
  "False for most uint16 values from 16384 (C37_false_uint16, exact set C37_uint16_exact) and for strings that begin with a byte order mark (C37_false_bom); proved for everything else."
 ],
 "C38": [
  "partial",
  "Proved for empty input and for uint8/float32/float64 on whole arrays; false for the other methods (C38_false_*)."
 ],
 "C55": [
  "proved",
  ""
 ],
 "C56": [
  "proved",
  ""
 ],
 "C46": [
  "proved",
  "Names that start with an underscore are outside the claim; for them the doc comment is wrong (C46_leading_underscore)."
 ],
 "C47": [
  "partial",
  "False in general (C47_false_in_general); proved: collisions only between names that agree up to case, underscores and dots, and injective on style-guide names."
 ],
 "C48": [
  "proved",
  "Strings are taken as sequences of runes."
 ],
 "C51": [
  "proved",
  "errors.Is of the standard library is modelled; foreign error types without their own Is method."
 ],
 "C57": [
  "proved",
  "unicode.ToLower modelled on ASCII only, which is all a proto identifier can start with."
 ],
 "C39": [
  "partial",
  "Proved for every function but polyglot_decode_none (which dereferences the null decoder: C39_false_decode_none) and for encoder/decoder/buffer arguments; null strings are dereferenced (C39_false_null_string), and strings without a zero byte are read past their end (C39_false_unterminated_string). Null status aborts, freeing null is a no-op."
 ],
 "C40": [
  "partial",
  "Encode and decode calls proved equal to the Rust calls, and the full cycle proved, for strings without zero bytes and messages below 4 GiB. Refuted beyond: interior NUL (C40_false_interior_nul), 4 GiB (C40_false_four_gib); polyglot_decode_none and polyglot_encoder_size do not set the status (C40_decode_none_status, C40_encoder_size_status)."
 ],
 "C58": [
  "proved",
  "Valid arguments as in polyglot.h: right type or null (decode_none: not null; strings: not null). For polyglot_free_decode_bytes validity excludes the cases of C59."
 ],
 "C59": [
  "partial",
  "Strings and errors: proved for every allocator. Byte slices: only non-empty ones and only with a size-agnostic allocator; refuted otherwise (C59_false_free_empty, C59_false_free_strict)."
 ],
 "C41": [
  "partial",
  "Proved for all supported schemas and all values whose messages do not write a nil first and whose repeated fields and maps hold no nil messages (C41_roundtrip_partial), and for all values without nil messages whatever their types (C41_no_nil_partial); refuted otherwise (C41_false, C41_nil_element_false, C41_empty_message_false)."
 ],
 "C42": [
  "partial",
  "C42_exact says exactly what the struct holds afterwards for every old value; equality with a fresh struct holds for values without nil messages and is refuted by C42_false (a nil message keeps the stale one)."
 ],
 "C60": [
  "partial",
  "Proved for types whose New terminates (exactly those without an endless chain of singular fields, C60_new_iff) and values without nil messages, of any shape; C60_nil_false and C60_new_overflows refute the rest."
 ],
 "C62": [
  "proved",
  "C62_same_bytes for every message value; decoding exactly as by the own decoder for messages anchored as in C41. Lengths: byte slices below 2^28 where v2 encodes. C62_programs_partial states it about the programs that the two generators print, for messages without nil."
 ],
 "C43": [
  "partial",
  "C43_go_layout, C43_rust_layout, C43_bytes: generated Go and Rust encoders write exactly the layout given by an independent specification; the decoders read in that order (C41, C60, C63, C64). TypeScript: encode follows the same order (C43_ts_encode_order) but decode does not (C43_ts_decode_order), so the claim is false for every message type with a scalar and a non-scalar field (C43_ts_false), and constructor arguments are permuted (C43_ts_constructor_false)."
 ],
 "C63": [
  "proved",
  "Full property for all schemas whose Rust code compiles (RustSupported) and all values of Rust structs."
 ],
 "C64": [
  "partial",
  "Rust to Go in full (C64_rust_to_go, v1 and v2). Go to Rust for every Go value that has a Rust counterpart; refuted for nil messages (C64_nil_false) and undeclared enum numbers (C64_enum_false), which Go encodes and Rust rejects."
 ],
 "C44": [
  "partial",
  "Go and Rust: C44_go_tables, C44_rust_tables (for every value of every kind the tables name the encoder, the announced kind and the decoder of the item it stands for), C44_go_rust_agree, C44_go_kind_checked, C44_rust_kind_checked (decoders reject any other first byte). TypeScript: the encode/decode function tables match (C44_ts_functions_match) but imported names and Kind members are wrong (C44_ts_imports_false, C44_ts_kind_names_false, C44_ts_kind_names_undefined), hence partial."
 ],
 "C45": [
  "proved",
  "Generated constants are declaration indices in Go, Rust and TypeScript, for top-level enums; numbers declared in the .proto are ignored (C45_declared_numbers_false) and enums declared inside messages are not generated at all (C45_inner_enums_missing_false)."
 ],
 "C61": [
  "partial",
  "Proved for FiniteSize schemas (C61_bounded_partial); C61_list_false refutes it for a message with a singular field of its own type: the stack overflows on every input not starting with Nil, for every stack depth."
 ],
 "C66": [
  "partial",
  "C66_well_formed and C66_reencode in full; C66_no_panic_partial needs the last input byte < 128; C66_panic_false shows the panic is real (truncated varint)."
 ],
 "C67": [
  "proved",
  "Go v2 (C67_amplification) and Rust (C67_rust_amplification), for every n below 2^32."
 ],
 "C65": [
  "proved",
  "C65_safe, C65_stack, C65_reencode, C65_remote_error. Allocation failure (Vec::with_capacity of an announced size) is outside the model; see C67."
 ],
 "C68": [
  "proved",
  "Stated for a message with a bool and a map field (Go: a message with maps only does not compile) or a map field (Rust) and scalar map values; keys and values of every supported kind."
 ],
 "C49": [
  "proved",
  "over a memory model in which slices are references; C49_no_writes: all methods but Bytes; C49_bytes: Bytes with a scratch slice disjoint from the input, and all later contents of the input; C49_session: whole sessions; C49_reused_scratch and C49_scratch_in_input show that the conditions on the scratch slices are needed"
 ],
 "C50": [
  "proved",
  "C50_program_any: any program of calls on any buffers and writes into its own slices, values of any size (contents: what the encoders append, wireV2); C50_program: the same against the wire format for values below 2^28 bytes; C50_NewBufferFromBytes for slices whose length is their capacity (see C21 for others)"
 ],
 "C69": [
  "proved",
  "C69_stable, and C69_until_reset for the limit"
 ],
 "C70": [
  "proved",
  "values below 2^28 bytes for Encoder.Bytes; C70_free_part for the limit"
 ],
 "C71": [
  "proved",
  "values of any size"
 ],
 "C72": [
  "proved",
  "bench.polyglot.go is transcribed by hand (Bench/Code.lean); C72_generator_* is a translation validation of Gen/GoGen.lean against it."
 ],
 "C73": [
  "partial",
  "The code violates the property: two files in one package both declare ErrDecodeNil (C73_go_two_files_false), so references across files never compile (C73_go_cross_file_false); files without messages do not use an import (C73_go_enum_only_false); the type of a repeated enum field is mis-capitalised (C73_go_repeated_enum_false); nested messages, constructors and deep enums clash or are missing (C73_go_nested_collision_false, C73_go_constructor_collision_false, C73_go_deep_enum_false). C73_go_resolved_partial, C73_go_unique_partial and C73_go_package_partial prove it for one file per package whose names differ in more than case, underscores and dots."
 ],
 "C74": [
  "partial",
  "Violated by fields called error, encode or decode (C74_error_field_false). C74_members_partial: for distinct style-guide names these are the only exceptions."
 ],
 "C75": [
  "partial",
  "Violated by every recursive message type reachable from a top-level message (C75_recursive_false). C75_returns_iff_partial characterises exactly the files for which it holds; C75_ordered_partial is the usual sufficient condition."
 ],
 "C76": [
  "partial",
  "Violated by keyword field names, references across files, map fields and enums that only occur inside messages, and messages named like an import (C76_keyword_field_false, C76_cross_file_false, C76_hidden_map_false, C76_inner_enum_false, C76_reserved_false). C76_dependencies_partial says exactly what is imported; C76_rust_module_partial proves the property outside these cases."
 ],
 "C77": [
  "partial",
  "Fails for repeated enums, repeated bytes, maps to bytes and message types with map fields only (C77_go_false). C77_go_compiles_iff_partial determines exactly the schemas for which it holds; they are those the round-trip theorems C41-C43 and C50-C68 assume (GoSupported)."
 ],
 "C78": [
  "partial",
  "Fails for repeated numbers and enums, map keys other than strings, maps to strings or bytes, and types containing themselves through singular fields (C78_rust_false). C78_rust_compiles_iff_partial determines exactly the schemas for which it holds; they are those the Rust round-trip theorems assume (RustSupported, FiniteSize)."
 ],
 "C79": [
  "proved",
  "values below 2^32 bytes; over a memory model in which slices are references; C79_independent: interleaved calls equal separate calls"
 ],
 "C80": [
  "proved",
  "values below 2^32 bytes for Encoder.Bytes; C80_until_reset and C80_free_part show the limits"
 ],
 "C81": [
  "proved",
  "C81_no_writes: all methods but Bytes; C81_bytes: Bytes with any scratch slice disjoint from the input, and all later contents of the input; C81_session: whole sessions; C81_fresh: with a nil scratch slice the value is a new array; C81_reused_scratch and C81_scratch_in_input show that the conditions are needed"
 ],
 "C82": [
  "proved",
  "v2: C82_v2; v1: C82_v1. One call is one atomic step: the theorems show no call writes what another call reads, which is why finer interleavings do not matter. C82_shared_scratch shows that the condition on scratch slices is needed."
 ],
 "C83": [
  "proved",
  "Over the memory model. Arguments are slices outside the arrays of the pooled buffers. C83_put_invalidates shows the limit: a slice from Bytes() is overwritten by the next holder after Put."
 ],
 "C84": [
  "partial",
  "Go v2 and v1: proved (strings of a failing call are not built; payloads of strings are values in the model, so their allocation is the payload itself). Rust: proved for calls and programs that succeed; false for failing calls: vec![0u8; size] runs before read_exact, so a 7-byte input makes decode_bytes ask for up to 2^32-1 bytes (C84_rust_refuted); C84_rust_limit is the bound that holds. C84_rust_counts ties the instrumented functions to the model."
 ],
 "C85": [
  "partial",
  "Proved for both generators (the library is a parameter): template files (byte for byte, parsed by a model of text/template) print, for every well-formed file, one text, if version and path have no newline; it is read by the model's Go lexer and parser as the program `program f` and nothing else (C85_reads, with C85_tokens, C85_package, C85_declares, C85_declares_v1). Refuted for the shipped version text, which ends with a newline: the text starts with `, DO NOT EDIT.` and is read as no program (C85_shipped). Excluded by hypothesis: packages and repeated enum types named like keywords, names with a leading underscore."
 ],
 "C86": [
  "proved",
  "For both generators. The printed program (C85) is executed by an interpreter for the Go subset it is written in (Text/GoRun.lean); the result is compared with the independent layout specification. Hypothesis Plain: names are proto identifiers, referenced types are declared in the file, no Go name is declared twice, fields supported (see Field.GoSupported). C86_text states it about the text: the one text printed is read by the lexer and parser as the program that is run."
 ],
 "C87": [
  "partial",
  "For both generators, except C87_new and C87_roundtrip_partial (v2; for v1 see C92). C87_decode: the printed Decode returns what the model GoGen.Decode returns, for every receiver and input; C87_roundtrip_partial composes it with C86 and C41, C87_any_input_partial with C61 and C66 (same restrictions as there: anchored messages without nil elements, no singular recursion; inputs ending in a continuation byte may panic). Missing from the full statement: files in which an enum has the Go name of a local variable of a decoder (C87_hidden_enum_false: such code has no meaning, Unhidden excludes it). C87_text states it about the text."
 ],
 "C88": [
  "partial",
  "exact (iff) for all well-formed files but two kinds of homonyms (type of another file with the Go name of an own declaration; repeated enum named uint32): includes that fields refer to own types only and that no decoder variable hides a needed name. C88_own_types_partial, C88_unhidden, C88_defects: necessary conditions without any restriction."
 ],
 "C89": [
  "partial",
  "For both generators. Proved for version texts without newline (C89_answer, C89_names, C89_independent). Refuted for the version text that ships: it ends with a newline, the printed text does not start with `package`, and protogen turns that into an error answer for every request (C89_shipped_false). Go's parser/printer is a parameter with two conditions, which the model's own parser is shown to meet; protogen's option `module` and I/O are not modelled."
 ],
 "C90": [
  "partial",
  "False: names recorded for earlier files stay in the import line of later files (C90_ts_independent_false). C90_ts_exact says exactly which names each file of a request imports; C90_ts_first_partial: the claim holds for the first file."
 ],
 "C91": [
  "partial",
  "For both generators. C91_reuse_partial, C91_text_partial for all files as in C87 without singular self-recursion. Missing from the full claim because false of the code: messages with nil message fields keep the old field (C42_false); inputs whose last byte is 128 or more may panic (C66_panic_false). Not modelled: the struct after a recovered panic."
 ],
 "C92": [
  "partial",
  "C92_new for types without an endless chain of singular fields, refuted for all others (C92_new_endless_false: NewT() exceeds every call stack). C92_roundtrip_partial: for messages without nil messages, files without endless chains; with nil messages false (C60_nil_false). Hypotheses Plain and Unhidden as in C86 and C87."
 ],
 "C93": [
  "proved",
  "C93_works (both versions), C93_text (about the printed text), C93_both (v1 compiles iff v2 compiles), C93_roundtrip_v2_partial (restrictions of C41 on nil values); refutations for homonyms (C93_homonym_false) and for the error variables (C93_both_false). Uses the exact characterisation C88."
 ],
 "C94": [
  "proved",
  "C94_tokens (text = tokens of the program), C94_reads (a parser written from the Rust grammar reads the text as exactly this program iff no struct, field, enum or enum value name is printed as a Rust keyword, and as no program otherwise), C94_shipped (what the shipped version text does: no program), C94_declares (names). rustfmt is not modelled; the text is what it is given."
 ],
 "C95": [
  "proved",
  "RustRun.lean is an interpreter for the Rust syntax that is printed (statements, `?`, ok_or, nested functions, struct literals, Vec, HashMap in insertion order, try_from of TryFromPrimitive, trait methods); the cursor methods are those of the model of the Rust library. C95_encode and C95_decode: the printed program does what the schema-level model (C63, C65) does, on every input and stack depth; C95_roundtrip, C95_untrusted, C95_languages (Go v1, Go v2 and Rust programs) follow; C95_from_text ties it to the printed text: the generator prints one text, and it is read as one program, this one. Ownership, lifetimes and types are not checked by the interpreter: a step that rustc would reject is `bad`, and is shown not to happen. Allocation failure is not modelled."
 ],
 "C96": [
  "proved",
  "Text of the templates as printed; running the TypeScript program is not modelled. C96_links and C96_constructor are equivalences, which show that most files are not linked and when arguments are swapped."
 ],
 "C97": [
  "proved",
  "Scoping rules (block scopes, temporal order of let/const, parameters, members, types) written for the syntax trees of C96. Sufficient condition C97_scoped and necessary condition C97_needs; they differ only in variables of decode that have the name of a loop variable or package function. Types of expressions are not checked."
 ],
 "C98": [
  "proved",
  "C98_encode and C98_enum characterise the files for which the first two parts hold; C98_maps shows for every map field that the map which the constructor gets is always empty: the variable that holds it is set to an object with a new Map and mentioned in the constructor call only. Readings of the syntax tree of C96, whose text is the text of the generator; running TypeScript is not modelled."
 ],
 "C99": [
  "partial",
  "Rust: C99_rust_answer says exactly which requests are answered and with what (rustfmt is a parameter with three conditions, which the model's own reader is shown to meet), C99_rust_independent; TypeScript: C99_ts_answer for all well-formed files. False for the version text that ships, which ends with a newline: C99_rust_shipped_false (no answer at all), C99_ts_shipped_false (files that begin with a comma). protogen's own checks of the request are not modelled."
 ]
}