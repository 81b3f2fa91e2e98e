#!/usr/bin/env python3
"""Source of properties.jsonl (kept as a script so that statements stay easy to edit)."""
import json
P=[]
def p(id,title,statement,quantifier,why,anchors):
    P.append(dict(id=id,title=title,statement=statement,quantifier=quantifier,why_tests_cant=why,anchors=anchors))

# ---------------- Go v2 ----------------
p("C01","v2: every scalar round-trips",
 "Writing a nil, bool, uint8, uint16, uint32, uint64, int32, int64, float32 or float64 with the v2 Encoder onto a fresh buffer and reading the buffer's Bytes() followed by any further bytes with the matching v2 Decoder method returns exactly the value written (floats: the same bit pattern), no error, no panic, and leaves exactly the further bytes unread.",
 "every value of each of the ten scalar types, every suffix, every allocator behaviour",
 "2^64 values per 64-bit type and unboundedly many suffixes; unit tests check a handful of values",
 ["v2/encode.go:encodeNil..encodeFloat64","v2/decode.go:decodeNil..decodeFloat64","v2/encoder.go","v2/decoder.go"])
p("C02","v2: map and slice headers round-trip and are kind-checked",
 "Decoder.Map/Slice applied to what Encoder.Map/Slice wrote returns the written size and consumes exactly the header when the requested kinds equal the written kinds; when any requested kind differs it returns InvalidMap/InvalidSlice with size 0 and consumes nothing.",
 "every uint32 size, every pair of kind bytes written and requested, every suffix",
 "2^32 sizes times 2^32 kind combinations",
 ["v2/encode.go:encodeMap","v2/encode.go:encodeSlice","v2/decode.go:decodeMap","v2/decode.go:decodeSlice"])
p("C03","v2: strings and errors round-trip",
 "Any string (arbitrary bytes, length below 2^32) written with String, and any non-nil error whose message has length below 2^32 written with Error, is returned unchanged by the matching Decoder method, which consumes exactly its encoding.",
 "every byte string of every length below 2^32, every suffix",
 "unbounded lengths, including every boundary of the five-level length varint",
 ["v2/encode.go:encodeString","v2/encode.go:encodeError","v2/decode.go:decodeString","v2/decode.go:decodeError"])
p("C04","v2: byte slices round-trip",
 "Any []byte of length below 2^32 written with Encoder.Bytes is returned unchanged by Decoder.Bytes, whatever scratch slice is passed, consuming exactly its encoding.",
 "every byte slice of every length below 2^32, every scratch slice, every suffix",
 "the failing lengths (2^28 and above) need 256 MiB payloads that no unit test uses",
 ["v2/encode.go:encodeBytes","v2/decode.go:decodeBytes"])
p("C05","v2: any message (sequence of items) round-trips in order",
 "Encoding any sequence of items one after the other into one buffer and decoding its Bytes() with the same sequence of typed reads yields the same items in the same order, with no error or panic and no byte left over.",
 "every finite sequence of items of all 16 encoder methods (byte slices below 2^28), every initial usable buffer",
 "unbounded sequences; interaction of variable-length neighbours",
 ["v2/encoder.go","v2/decoder.go","v2/encode.go","v2/decode.go"])
p("C06","v2: the encoder emits exactly the documented wire format",
 "Each Encoder method appends exactly: the kind byte, then for unsigned integers the minimal little-endian base-128 varint, for signed integers the varint of the zig-zag value, for floats the big-endian IEEE bits, for strings/bytes a uint32-tagged length and the payload, for errors the error kind followed by an encoded string, for map/slice headers the element kinds and a tagged uint32 size - independently of the buffer's capacity, old contents and growth history.",
 "every item, every usable buffer state, every allocator behaviour",
 "depends on all buffer capacities/growth paths and all values",
 ["v2/encode.go"])
p("C07","v2: encoding is append-only",
 "An Encoder call or Buffer.Write never changes the bytes already returned by Bytes(): afterwards Bytes() is the old Bytes() followed by the new data and Len() grew by its length, also when the buffer is reallocated.",
 "every usable buffer, every item, every growth path",
 "all buffer fill levels/capacities",
 ["v2/buffer.go:Grow","v2/buffer.go:Write","v2/encode.go"])
p("C08","v2: a Buffer is a resettable byte log",
 "Any history of Write, Reset, Grow, Len, Bytes, Cap, rewinding MoveOffset and encoder calls on a buffer from NewBuffer or NewBufferSize behaves like a plain byte list: no call panics, Write returns len(b), Bytes() is what was written since the last Reset, Len() is its length and never exceeds Cap().",
 "every finite operation history, every size argument, every allocator behaviour",
 "unbounded histories",
 ["v2/buffer.go"])
p("C09","v2: Grow reserves what it promises",
 "After Grow(n) at least n more bytes fit without another reallocation, the contents and Len() are unchanged, the capacity never shrinks, is unchanged when there was already room, and otherwise becomes at least double the old capacity or old capacity + n.",
 "every usable buffer and every n >= 0",
 "arithmetic over all (cap, offset, n)",
 ["v2/buffer.go:Grow"])
p("C10","v2: encoding never panics",
 "No Encoder method panics on a buffer obtained from NewBuffer, NewBufferSize, a pool or NewBufferFromBytes, except Error(nil).",
 "every buffer constructor argument (including slices with spare capacity) and every operation history",
 "needs the combination len(b) < cap(b) in NewBufferFromBytes that tests never build",
 ["v2/buffer.go:NewBufferFromBytes","v2/buffer.go:Grow","v2/encode.go"])
p("C11","v2: decoding untrusted bytes never panics",
 "No Decoder method panics, whatever bytes it is given.",
 "every byte string and every decoder method",
 "all malformed inputs; in particular varints truncated at the end of input",
 ["v2/decode.go"])
p("C12","v2: a failed read leaves the decoder where it was",
 "When a Decoder method reports failure the unread input is unchanged, so the caller can try another type.",
 "every input and every decoder method",
 "all malformed inputs",
 ["v2/decode.go","v2/decoder.go"])
p("C13","v2: a successful read makes progress",
 "A Decoder method that succeeds consumes at least one byte (so a decode loop over a finite input terminates).",
 "every input and every decoder method",
 "all inputs, including over-long varints",
 ["v2/decode.go:decodeBytes","v2/decode.go"])
p("C14","v2: decoding is local",
 "Reads only ever move forward inside the input (the unread part is always a suffix of the input), and a successful read depends only on the bytes it consumed: appending any bytes to the input changes neither the value nor the number of bytes consumed.",
 "every input, every appended suffix, every decoder method",
 "quantifies over pairs of inputs",
 ["v2/decode.go"])
p("C15","v2: reads are type-checked",
 "A Decoder method succeeds only if the first unread byte is the kind byte of the requested type; otherwise (including empty input) it returns that type's own Invalid error and the zero value and consumes nothing.",
 "every input and every decoder method",
 "all inputs",
 ["v2/decode.go"])
p("C16","v2: varint decoding is exact",
 "Integer decoding accepts exactly 1 to 3/5/10 base-128 groups (16/32/64-bit), the last one without the continuation bit; the value is the little-endian sum of the 7-bit groups modulo 2^16/2^32/2^64 (so over-long and overflowing encodings are silently accepted); longer encodings are rejected with the type's error; a varint cut off by the end of the input panics, except that a bare kind byte is rejected with an error.",
 "every byte string",
 "all malformed inputs",
 ["v2/decode.go:decodeUint16","v2/decode.go:decodeUint32","v2/decode.go:decodeUint64","v2/decode.go:decodeInt32","v2/decode.go:decodeInt64"])
p("C17","v2: encodings are unambiguous",
 "No item's encoding is a prefix of a different item's encoding, and two different item sequences never have the same encoding.",
 "every pair of items / item sequences (lengths below 2^32, byte slices below 2^28)",
 "quantifies over pairs of unbounded messages",
 ["v2/encode.go"])
p("C18","v2: integer encodings are minimal and bounded",
 "A 16/32/64-bit integer takes at most 3/5/10 bytes after the kind byte, at most what the encoder reserves, and no shorter byte string is decoded to the same value by the corresponding reader.",
 "every integer of each width, every shorter byte string",
 "pairs (value, alternative encoding)",
 ["v2/encode.go:uint16Size..uint64Size","v2/encode.go"])
p("C19","v2: pooled buffers are empty and exclusively owned",
 "In every interleaving of any number of goroutines that call Get, use their buffer, and Put back only buffers they own (each once), every Get returns a buffer with Len() 0 and empty Bytes(), which no other goroutine owns and which is not in the pool.",
 "every schedule of any number of clients, with a pool that may drop items at any time",
 "all interleavings",
 ["v2/pool.go"])
p("C20","v2: a bool is strictly 0 or 1, floats survive bit for bit",
 "Decoder.Bool accepts only payload bytes 0 and 1; Float32/Float64 accept any 4/8 payload bytes and Decoder then Encoder reproduces the same bytes, so decode and encode are mutually inverse bijections on float bit patterns (including NaN payloads and signed zero).",
 "every payload",
 "2^64 patterns",
 ["v2/decode.go:decodeBool","v2/decode.go:decodeFloat32","v2/decode.go:decodeFloat64"])
p("C21","v2: Reset and pooling never leak earlier contents",
 "After Reset (or Put/Get) followed by any writes, Bytes() contains only the bytes written since, even though the backing array still holds older data.",
 "every history before and after the Reset",
 "unbounded histories",
 ["v2/buffer.go:Reset","v2/buffer.go:Bytes","v2/pool.go:Put"])
p("C22","v2: claimed sizes are not checked against the input",
 "Decoder.Map and Decoder.Slice accept any claimed size whatever follows: for every uint32 there is an input of at most 9 bytes for which they succeed with that size (callers must bound allocations themselves); String and Bytes never return more payload than the input holds.",
 "every uint32 size, every input",
 "all inputs",
 ["v2/decode.go:decodeMap","v2/decode.go:decodeSlice","v2/decode.go:decodeString","v2/decode.go:decodeBytes"])
# ---------------- Go v1 ----------------
p("C23","v1: every item and every message round-trips",
 "Encoding any sequence of items with the v1 Encoder (kinds as one-byte Kind values, lengths below 2^32) and decoding with the v1 Decoder with nil scratch slices returns the same items in order with no bytes left over.",
 "every finite sequence of items, every initial v1 buffer",
 "unbounded sequences",
 ["encode.go","decode.go","encoder.go","decoder.go"])
p("C24","v1 and v2 are wire compatible in both directions",
 "For every item the v1 and v2 encoders emit the same bytes (byte slices below 2^28), so messages written by either version are read back identically by the other.",
 "every sequence of items",
 "pairs of implementations over all values",
 ["encode.go","v2/encode.go","decode.go","v2/decode.go"])
p("C25","v1: Buffer.Write and appends build a byte log",
 "Any history of v1 Write, Reset, Bytes, Len and encoder calls behaves like appending to a list that Reset empties; Write returns len(b); no call panics.",
 "every history and every allocator behaviour",
 "unbounded histories",
 ["buffer.go","encode.go"])
p("C26","v1: Decoder.Bytes returns the encoded payload",
 "Decoder.Bytes returns a slice equal to the encoded payload for every scratch slice.",
 "every payload and every scratch slice",
 "needs a scratch slice longer than the payload",
 ["decode.go:decodeBytes"])
p("C27","v1: decoding untrusted bytes never panics",
 "No v1 Decoder method panics on any input (kinds given as non-empty Kind values).",
 "every byte string and every method",
 "all malformed inputs",
 ["decode.go"])
p("C28","v1: integer overflow checks",
 "A v1 varint whose final group overflows the target width is rejected.",
 "every byte string",
 "all malformed inputs; the check in the source compares against an index the loop never reaches",
 ["decode.go:decodeUint16","decode.go:decodeUint32","decode.go:decodeUint64","decode.go:decodeInt32","decode.go:decodeInt64"])
p("C29","v1: pooled decoders are exclusively owned and hold no input",
 "In every interleaving of clients that GetDecoder and Return only decoders they own (once), GetDecoder yields a decoder that no one else owns and that reads exactly the bytes passed in; a returned decoder no longer references its input.",
 "every schedule",
 "all interleavings",
 ["decoder.go:GetDecoder","decoder.go:ReturnDecoder"])
p("C30","v1 and v2 decoders agree on well-typed input",
 "On every input on which neither panics, the v1 and v2 readers for nil, uint8, uint16, uint32, uint64, int32, int64, float32, float64, string, error, map and slice return the same value, success flag and unread rest (map, slice, string and error may differ only in error cases on very short input); bool differs exactly on payload bytes other than 0 and 1.",
 "every byte string",
 "pairs of implementations over all inputs",
 ["decode.go","v2/decode.go"])
# ---------------- Rust ----------------
p("C31","Rust: encoder output equals the Go wire format and appends",
 "On a Cursor<Vec<u8>> positioned at the end of its vector each Rust encode_* call succeeds, appends exactly the bytes the wire format (and hence Go v1/v2) prescribes and leaves the position at the end.",
 "every item, every vector",
 "pairs of implementations over all values",
 ["encoder.rs"])
p("C32","Rust: decoder reads what any encoder wrote",
 "Every sequence of items with valid UTF-8 strings written by the Go v1, Go v2 or Rust encoder is read back identically by the Rust decoder.",
 "every sequence of items",
 "unbounded sequences",
 ["decoder.rs","encoder.rs"])
p("C33","Rust: decoding untrusted bytes never panics",
 "No Rust decode_* call panics (arithmetic underflow of the position included), whatever the bytes and the position.",
 "every byte string, every position, every method",
 "all malformed inputs",
 ["decoder.rs"])
p("C34","Rust: a kind mismatch restores the position",
 "When the kind byte does not match, a Rust decode_* call returns an error and leaves the position unchanged.",
 "every input whose first byte is not the requested kind",
 "all inputs",
 ["decoder.rs"])
# ---------------- TypeScript ----------------
p("C35","TypeScript: encoder output equals the wire format",
 "While the buffer has room, each TypeScript Encoder method appends exactly the bytes the wire format prescribes.",
 "every item in range, every buffer state",
 "all buffer fill levels",
 ["encoder.ts"])
p("C36","TypeScript: encoder grows as needed",
 "A TypeScript Encoder never throws or loses bytes because its buffer is too small.",
 "every fill level and item size",
 "needs fill levels a few bytes below capacity, or payloads more than twice the buffer",
 ["encoder.ts:resize"])
p("C37","TypeScript: decoder reads what any encoder wrote",
 "Every item written by a conforming encoder is read back identically by the TypeScript Decoder.",
 "every item",
 "2^16..2^64 values; the uint16 reader is wrong from 16384 on",
 ["decoder.ts"])
p("C38","TypeScript: truncated input is reported",
 "A TypeScript Decoder method applied to a truncated encoding throws.",
 "every proper prefix of every encoding",
 "all truncations",
 ["decoder.ts"])
# ---------------- C bindings ----------------
p("C39","C bindings: null arguments are reported, never dereferenced",
 "Every polyglot_* function with a non-null status and a null encoder/decoder/buffer argument sets the status to NullPointer, touches no memory and returns its zero value.",
 "every function and every null/non-null argument combination",
 "all argument combinations",
 ["c_bindings/encoder.rs","c_bindings/decoder.rs","c_bindings/types.rs"])
p("C40","C bindings: status and data agree with the Rust codec",
 "With non-null arguments each polyglot_encode_*/decode_* has exactly the effect of the Rust call and sets status Pass exactly when it succeeded; a full encode / size / copy-out / decode cycle through the C API returns the original items.",
 "every item sequence",
 "unbounded sequences",
 ["c_bindings/encoder.rs","c_bindings/decoder.rs"])
# ---------------- generated code ----------------
p("C41","Generated Go v2 code: Decode inverts Encode",
 "For every proto schema and every value of a generated message type, Encode into a buffer followed by Decode into a fresh struct reproduces the message (maps as sets of entries, map iteration order arbitrary).",
 "every schema, every message value, every map iteration order",
 "quantifies over schemas and unbounded values",
 ["v2/generator/golang/templates/encode.templ","v2/generator/golang/templates/decode.templ","v2/generator/golang/templates/encodeMap.templ","v2/generator/golang/templates/decodeMap.templ","v2/generator/golang/structs.go"])
p("C42","Generated Go v2 code: Decode into a reused struct",
 "Decoding into a previously used struct gives the same result as decoding into a fresh one.",
 "every schema, every old and new value",
 "pairs of messages",
 ["v2/generator/golang/templates/decode.templ"])
p("C43","Generated code: encoders and decoders visit fields in the same order in every language",
 "For every schema the field order of generated encoders and decoders agrees within and across Go v1, Go v2, Rust and TypeScript.",
 "every schema",
 "all schemas",
 ["generator/golang/structs.go","generator/rust/structs.go","generator/typescript/structs.go","generator/typescript/templates/decode.templ"])
p("C44","Generated code: lookup tables are consistent",
 "For every proto field kind the generated encoder call, decoder call and element kind name the same wire kind, in Go, Rust and TypeScript.",
 "every protoreflect kind (finite table, all entries)",
 "cross-table consistency",
 ["generator/golang/structs.go","generator/rust/structs.go","generator/typescript/structs.go"])
p("C45","Generated enums: constants are declaration indices",
 "Every enum constant is its declaration index in all three generators, so enum values agree across languages, and the Rust decoder accepts exactly the indices below the number of constants.",
 "every enum declaration",
 "all enums",
 ["generator/golang/templates/enums.templ","generator/rust/templates/enums.templ","generator/typescript/templates/enums.templ"])
# ---------------- utils ----------------
p("C46","CamelCase produces exported identifiers",
 "For every name made of letters, digits, underscores and dots that starts with a letter, CamelCase returns a non-empty string that starts with an upper-case letter and contains no dot and no underscore followed by a lower-case letter.",
 "every such name",
 "unbounded strings",
 ["utils/utils.go:CamelCase"])
p("C47","CamelCase is injective on the names of one message",
 "Different field names map to different CamelCase names.",
 "every pair of names",
 "pairs of strings",
 ["utils/utils.go:CamelCase"])
p("C48","SnakeCase output has no upper-case ASCII and is idempotent",
 "For every string SnakeCase returns a string without upper-case ASCII letters, and applying it again changes nothing; underscores are inserted exactly in front of runs of capitals inside the name.",
 "every string",
 "unbounded strings",
 ["utils/utils.go:SnakeCase"])
# ---------------- aliasing ----------------
p("C49","v2: decoded data does not alias the input",
 "After Decoder.Bytes or String, writing to the input slice afterwards does not change the returned value, and reading into a scratch slice that does not share memory with the input does not change the input.",
 "every input, scratch slice and later write",
 "aliasing depends on memory layout; all layouts",
 ["v2/decode.go:decodeBytes","v2/decode.go:decodeString"])
p("C50","v2: the buffer keeps no reference to encoded data",
 "Writing to a []byte after it has been passed to Encoder.Bytes or Buffer.Write does not change the buffer; NewBufferFromBytes on the other hand writes through to the caller's slice until the first reallocation and never after it.",
 "every memory layout and every later write",
 "aliasing depends on memory layout",
 ["v2/buffer.go:NewBufferFromBytes","v2/buffer.go:Write","v2/encode.go:encodeBytes"])
p("C51","Decoded errors compare by message",
 "A decoded error Is any error with the same message and no other, in particular the error that was encoded (errors.Is semantics of polyglot.Error), for both versions.",
 "every pair of messages",
 "unbounded strings",
 ["v2/error.go:Is","encode.go:Is"])
p("C52","Rust and Go decoders agree",
 "The Rust and the Go v2 decoder accept the same inputs with the same values, consuming the same number of bytes, except for bool bytes above 1 (Rust reads false), strings that are not UTF-8 (Rust rejects) and byte slices whose length field has five continuation bytes (Go accepts).",
 "every input, every method",
 "pairs of implementations over all malformed inputs",
 ["decoder.rs","v2/decode.go"])
p("C53","Rust: errors name the method that failed",
 "When the kind byte does not match, a Rust decode_* call returns the DecodingError named after the type that was asked for.",
 "every input whose first byte is not the requested kind",
 "all inputs",
 ["decoder.rs"])
p("C54","Rust: the cursor never moves backwards or past the end",
 "A Rust decode_* call never changes the input, never moves the position backwards or past the end, makes progress when it succeeds, and its result on success depends only on the bytes it consumed.",
 "every input and position",
 "all inputs",
 ["decoder.rs"])

p("C55","TypeScript: a kind mismatch throws and changes nothing",
 "When the first byte is not the kind the method asks for, a TypeScript Decoder method throws the exception named after the type asked for and leaves the decoder where it was; null() and any() return false instead.",
 "every input whose first byte is not the requested kind, every method",
 "all inputs",
 ["decoder.ts"])
p("C56","TypeScript: the decoder never moves backwards",
 "A TypeScript Decoder call never changes the input bytes and never moves backwards, whether it returns or throws, and a successful read consumes at least one byte.",
 "every input, every window, every method",
 "all inputs",
 ["decoder.ts"])

p("C57",
 "Lower-casing helpers change only the first letter",
 "LowercaseCamelCase and FirstLowerCase change at most the case of the first letter of an ASCII name, so TypeScript field names collide only when proto names differ just in that.",
 "every name",
 "all strings",
 ["v2/utils/utils.go:LowercaseCamelCase", "v2/utils/utils.go:FirstLowerCase"])

p("C58",
 "C bindings: valid calls are memory safe",
 "A C program all of whose calls have valid pointer arguments never triggers undefined behaviour or an abort, however many calls it makes and whatever bytes it decodes; a call writes only to the objects named by its arguments and frees only what it is asked to free.",
 "every sequence of calls, every memory, every input",
 "memory safety over all call histories cannot be tested exhaustively",
 ["c_bindings/encoder.rs: all functions", "c_bindings/decoder.rs: all functions", "polyglot.h"])

p("C59",
 "C bindings: everything the decoder returns can be freed",
 "What polyglot_decode_string, polyglot_decode_error and polyglot_decode_bytes return can be released with the matching polyglot_free_* function, without undefined behaviour and without changing other memory.",
 "every decoded value, every memory, every allocator that honours the GlobalAlloc contract",
 "invalid frees are silent with most allocators",
 ["c_bindings/decoder.rs: polyglot_free_decode_bytes, polyglot_free_decode_string, polyglot_free_decode_error, polyglot_decode_bytes"])

p("C60",
 "Generated Go v1 code: Decode inverts Encode",
 "For every proto schema and every value of a generated message type, the v1 Encode followed by the v1 Decode reproduces the message.",
 "every schema, every message value, every map iteration order, every struct decoded into",
 "the schema and the values are unbounded and recursive; tests use one schema and a few values",
 ["generator/golang/templates/encode.templ", "generator/golang/templates/decode.templ", "generator/golang/templates/structs.templ"])

p("C62",
 "Generated Go v1 and v2 code understand each other",
 "The code generated by v1 and by v2 for the same schema writes the same bytes for the same message, and each decodes the other's output as it decodes its own.",
 "every schema, every message value, every struct decoded into",
 "needs two generators, two libraries and all schemas at once",
 ["generator/golang/templates/encode.templ", "v2/generator/golang/templates/encode.templ", "generator/golang/templates/decode.templ", "v2/generator/golang/templates/decode.templ"])

p("C63",
 "Generated Rust code: decode inverts encode",
 "For every proto schema whose generated Rust code compiles and every value of a generated Rust struct, encode into a vector followed by decode returns exactly that value and leaves the cursor directly after it, at any place in the input.",
 "all schemas, all values (any nesting, any sizes below 2^32), all surrounding bytes",
 "Infinitely many schemas and values; the order of fields and the nil and error probes interact with neighbouring messages.",
 ["generator/rust/templates/encode.templ", "generator/rust/templates/decode.templ", "generator/rust/templates/decodeMap.templ", "generator/rust/generator.go: getEncodingFields, getDecodingFields"])

p("C64",
 "Generated Go and Rust code understand each other",
 "For every schema for which both generators produce code, Rust decodes every message Go (v1 or v2) encodes and Go decodes every message Rust encodes, as the same message.",
 "all schemas supported by both generators, all values, all previous contents of the Go struct",
 "Two code generators and two runtimes; the claim is about all pairs of generated programs.",
 ["v2/generator/golang/templates/encode.templ", "v2/generator/golang/templates/decode.templ", "generator/golang/templates/decode.templ", "generator/rust/templates/encode.templ", "generator/rust/templates/decode.templ"])

p("C61",
 "Recursion depth of generated Go Decode is bounded by the input",
 "The generated Go Decode of a message whose structs have finite size nests calls at most proportionally to the input length (so no input overflows the goroutine stack beyond a linear bound); a self-recursive singular message type violates this even on empty input.",
 "every schema, message type, receiver state and input byte string, for both runtimes",
 "needs a bound over all inputs and all schemas; a test sees one depth",
 ["v2/generator/golang/templates/decode.templ", "generator/golang/templates/decode.templ"])

p("C66",
 "Generated Go Decode is safe on arbitrary input",
 "For any bytes the generated Go Decode terminates with an error or with a message that has the declared types in every field (scalars in range, no nil elements in slices); whatever it accepts, re-encoding and decoding again gives the same message; it panics only if the input ends inside a varint.",
 "every supported schema, message type, receiver and input byte string, both runtimes",
 "untrusted inputs are unbounded; fuzzing only samples them",
 ["v2/generator/golang/templates/decode.templ", "generator/golang/templates/decode.templ", "v2/decode.go", "decode.go"])

p("C67",
 "Input size does not bound decoded size for empty element types",
 "For a repeated field of a message type without fields, an input of at most 8 bytes makes generated Go Decode build n elements for every n below 2^32 (the announced count is trusted).",
 "every n below 2^32 and every such schema",
 "the family of inputs is as large as the size type",
 ["v2/generator/golang/templates/decode.templ", "v2/decode.go"])

p("C65",
 "Generated Rust decode is safe on arbitrary input",
 "For every schema whose generated Rust code compiles, any bytes and any cursor position inside them, decode never panics, never changes the bytes, leaves the cursor inside the input and not before where it was, and returns an error, none, or a message whose fields all have the declared types with UTF-8 strings and declared enum constants; its call depth is at most a constant of the schema times the number of unread bytes; whatever it accepts re-encodes and decodes to the same message; an error item written instead of the message is returned as that error.",
 "every compilable schema, message type, input, cursor position, standard library behaviour",
 "untrusted inputs are unbounded; fuzzing only samples them",
 ["generator/rust/templates/decode.templ", "generator/rust/templates/decodeMap.templ", "decoder.rs: Decoder"])

p("C68",
 "Repeated map keys on the wire: the last one wins",
 "When the entries of a map field on the wire contain the same key several times (no generated encoder writes that, a peer may), the generated Go decoders (v1, v2) and the generated Rust decoder return a map with each key once, holding the value of the last entry with that key, and no other key.",
 "all supported key and value types, all lists of entries with fewer than 2^32 elements, any bytes after the message (Go), both library versions",
 "tests encode maps, whose keys are distinct; the number, order and repetition of entries is unbounded",
 ["generator/golang/templates/decodeMap.templ", "v2/generator/golang/templates/decodeMap.templ", "v2/generator/rust/templates/decodeMap.templ"])

p("C69",
 "v2: the slice returned by Bytes() stays valid until Reset",
 "The slice returned by Buffer.Bytes() keeps its contents while the buffer is only encoded to, written to or grown, even when the calls reallocate the buffer or take parts of that slice as arguments; after Reset the next Write that fits overwrites it.",
 "every memory layout, buffer and sequence of calls",
 "aliasing depends on memory layout and on when the buffer reallocates; all layouts and histories",
 ["v2/buffer.go:Bytes", "v2/buffer.go:Grow", "v2/buffer.go:Reset"])

p("C70",
 "v2: a buffer can encode its own output",
 "Encoder.Bytes and Buffer.Write of a slice that is part of the buffer's own Bytes() append a correct copy of it, whether or not the call reallocates. (A slice in the free part of the buffer's memory is overwritten by the header before it is copied.)",
 "every memory layout and every part of the output",
 "the copy overlaps the destination's memory; all layouts",
 ["v2/buffer.go:Write", "v2/encode.go:encodeBytes"])

p("C71",
 "v2: buffers do not interfere",
 "When calls on several buffers are interleaved in any order, each buffer ends up with the contents it would have if its own calls had been made alone.",
 "every interleaving of calls on any number of buffers",
 "all interleavings and layouts",
 ["v2/buffer.go", "v2/encode.go"])

p("C72",
 "The checked-in generated code is correct",
 "The generated Go code in v2/benchmarks (bench.polyglot.go): encoding a struct appends to whatever the buffer holds and decoding the appended bytes into any struct of that type, whatever follows them, gives the struct back; a nil struct is one byte whose decoding changes nothing; decoding into a nil pointer returns NilDecode; a failed decode returns the error of the field and leaves the field zero. The code is what the generator model produces for bench.proto, on every input.",
 "every struct value (bytes below 2^28), every previous content of buffer and target struct, every input",
 "values, buffer contents and inputs are unbounded; tests sample a few",
 ["v2/benchmarks/polyglot/benchmark/bench.polyglot.go:BytesData.Encode", "v2/benchmarks/polyglot/benchmark/bench.polyglot.go:BytesData.Decode", "v2/benchmarks/bench.proto", "v2/generator/golang/templates/decode.templ"])

p("C73",
 "Generated Go code resolves its names",
 "Every package-level identifier a generated Go file uses is declared in its package, no identifier is declared twice, and every import is used, for every set of proto files put into one Go package.",
 "all proto files: any packages, messages nested to any depth, enums, map fields, references within and across files, any number of files per package",
 "The set of files is unbounded; tests compile a few fixed files, one per package.",
 ["v2/generator/golang/templates/base.templ", "v2/generator/golang/templates/errors.templ", "v2/generator/golang/templates/structs.templ", "v2/generator/golang/templates/enums.templ", "v2/generator/golang/imports.go: RequiredImports", "v2/generator/golang/structs.go: FindValue", "v2/utils/utils.go: CamelCase"])

p("C74",
 "Members of generated Go structs are distinct",
 "In the struct generated for a message, no two fields have the same name and no field has the name of a generated method.",
 "all messages at any depth, all legal field names",
 "Which names clash depends on the conversion of every possible field name.",
 ["v2/generator/golang/templates/structs.templ", "v2/generator/golang/templates/encode.templ", "v2/generator/golang/templates/decode.templ", "v2/utils/utils.go: CamelCaseName"])

p("C75",
 "The Rust generator returns",
 "For every proto file the Rust generator's dependency analysis returns.",
 "all graphs of message types, including recursive ones",
 "Termination for all graphs is not a testable statement.",
 ["v2/generator/rust/imports.go: DependencyAnalysis", "v2/generator/rust/imports.go: traverseFields", "generator/rust/imports.go"])

p("C76",
 "Generated Rust code resolves its names",
 "Every type a generated Rust module uses is imported or declared in it, no name is introduced twice, and field names are distinct and no keywords.",
 "all proto files: any packages, nesting, enums, map fields, references and field names",
 "The set of files is unbounded and the imports depend on a traversal of the whole type graph.",
 ["v2/generator/rust/imports.go: DependencyAnalysis", "v2/generator/rust/templates/imports.templ", "v2/generator/rust/templates/structs.templ", "v2/generator/rust/templates/enums.templ", "v2/generator/rust/templates/messages.templ", "v2/generator/rust/structs.go: findValue", "v2/utils/utils.go: SnakeCase"])

p("C77",
 "Generated Go code is well typed",
 "For every proto file without groups the generated Go code type-checks: every encoder/decoder method it calls takes and returns the type of the struct field it is used for, map keys are comparable, and no variable is declared without being used.",
 "all message types with any fields (singular, repeated, maps, of any kinds)",
 "The set of proto files is unbounded; golden files cover one schema.",
 ["v2/generator/golang/structs.go: FindValue, encodeLUT, decodeLUT, kindLUT, GetEncodingFields, GetDecodingFields", "v2/generator/golang/templates/encode.templ", "v2/generator/golang/templates/decode.templ", "v2/generator/golang/templates/encodeMap.templ", "v2/generator/golang/templates/decodeMap.templ"])

p("C78",
 "Generated Rust code is well typed and its structs are finite",
 "For every proto file without groups the generated Rust code type-checks: every encoder/decoder method it calls takes and returns the type of the struct field it is used for, keys of maps are hashable, and every struct has a finite size.",
 "all schemas: any message types with any fields and any references between them, including recursive ones",
 "The set of proto files is unbounded; golden files cover one schema.",
 ["v2/generator/rust/structs.go: findValue, encodeLUT, decodeLUT, kindLUT, getEncodingFields, getDecodingFields", "v2/generator/rust/templates/encode.templ", "v2/generator/rust/templates/decode.templ", "v2/generator/rust/templates/structs.templ", "v2/generator/rust/templates/decodeMap.templ"])

p("C79",
 "v1: buffers keep no reference to what was encoded and do not interfere",
 "After any sequence of encoder calls, Write and Reset on any number of v1 buffers, interleaved with the program's writes into its own slices, each buffer contains what the byte slices and kinds passed to its calls contained when they were passed, independently of later writes and of the calls on other buffers, and no call writes into a slice of the program.",
 "every memory layout, every program of calls and writes, every reallocation behaviour of append",
 "aliasing depends on memory layout and on when the buffer reallocates; all interleavings and layouts",
 ["buffer.go:Write", "buffer.go:NewBuffer", "encode.go", "encoder.go"])

p("C80",
 "v1: the slice returned by Bytes() stays valid until Reset",
 "The slice returned by Buffer.Bytes() keeps its contents while the buffer is encoded or written to, even when the calls reallocate the buffer or take parts of that slice as arguments (encoding or writing a part of the buffer's own output appends a correct copy); after Reset the next Write that fits overwrites it.",
 "every memory layout, buffer and sequence of calls",
 "aliasing depends on memory layout and on when the buffer reallocates; all layouts and histories",
 ["buffer.go:Bytes", "buffer.go:Write", "buffer.go:Reset", "encode.go:encodeBytes"])

p("C81",
 "v1: decoded data does not alias the input",
 "No v1 decoder call writes into its input, and nothing a decoder call returns shares memory with the input: decoded strings, errors and byte slices keep their contents when the input is overwritten later, provided that the scratch slices given to Bytes share no memory with the input and with each other.",
 "every memory layout, input, and session of decoder calls",
 "aliasing depends on memory layout; all inputs, layouts and later writes",
 ["decode.go:decodeBytes", "decode.go:decodeString", "decoder.go"])

p("C82",
 "Go: decoders over shared input do not interfere",
 "Any number of decoders, over the same, overlapping or different input slices, may be used at the same time, their calls interleaved in any order: the input bytes are never changed, and every decoder returns exactly the values it would return if it were alone, both at the time of the call and after all calls of the other decoders, provided the scratch slices passed to Bytes overlap neither each other nor the inputs. If a call panics, the decoder that made it panics alone as well.",
 "every memory, every list of input slices (overlapping or equal), every interleaving of any number of calls by any number of goroutines",
 "the number of interleavings and of ways slices can overlap is unbounded",
 ["v2/decoder.go", "v2/decode.go", "decoder.go", "decode.go"])

p("C83",
 "v2: pooled buffers do not share memory",
 "In any history of Get, Write/encode calls, Reset and Put by any number of goroutines on the v2 pool, buffers held by different goroutines never share an array, each buffer contains exactly what its holder wrote since Get, no call of one goroutine changes another goroutine's buffer or slices, and calls do not panic.",
 "every history of pool and buffer operations by any number of goroutines, every memory layout",
 "schedules and memory layouts are unbounded",
 ["v2/pool.go", "v2/buffer.go"])

p("C84",
 "Decoding allocates no more memory than the input is long",
 "Whatever the input, the memory one decoder call allocates is bounded by the length of the input it was given (plus, in Go, the room the runtime's append adds), and a call that fails allocates nothing.",
 "every input, every decoder call, every memory layout and runtime growth policy",
 "it ranges over all inputs, including hostile ones whose announced sizes do not match what follows",
 ["v2/decode.go: decodeBytes, decodeString, decodeError", "decode.go", "decoder.rs: decode_bytes, decode_string, decode_error"])

p("C85",
 "The Go generator prints a Go program",
 "For a proto file with ordinary identifiers, the output of either Go generator (v1 and v2) is the text of a Go file: it starts with a package clause and splits into exactly the tokens of one program that is determined by the file's descriptors (imports, the error variable, enums, and for every message the struct, New, Error, Encode, Decode and decode).",
 "every proto file: any number of messages, enums, fields and maps, nested to any depth, any names; every version text",
 "tests compare the output for one or two sample files; which of the infinitely many combinations of field kinds, orders and nestings break the text is not visible from them",
 ["v2/generator/golang/templates/*.templ", "v2/generator/golang/structs.go", "v2/generator/golang/generator.go: ExecuteTemplate", "v2/version/current_version", "generator/golang/templates/*.templ", "version/current_version"])

p("C86",
 "Running the printed Encode method writes the specified layout",
 "For every proto file that the Go generators (v1 and v2) support, every message type in it at any depth of nesting, and every value of that type (nil or with any field values): the Go source the generator prints, executed by Go's rules, encodes the value without panic, leaves the value unchanged, and makes exactly the encoder calls of the documented layout (scalar fields, then repeated fields, then messages and maps, each in declaration order).",
 "all proto files with Go-supported fields and without Go name clashes, all message types, all values, all buffer contents",
 "The set of proto files and of values is infinite; unit tests compile and run one generated file. The claim is about the text of templates executed on arbitrary descriptors and then run.",
 ["v2/generator/golang/templates/encode.templ", "v2/generator/golang/templates/encodeMap.templ", "v2/generator/golang/templates/structs.templ", "v2/generator/golang/structs.go:GetEncodingFields", "v2/encoder.go", "generator/golang/templates/encode.templ", "encoder.go"])

p("C87",
 "Running the printed Decode method decodes what the documented layout says",
 "For every proto file that the Go generators (v1 and v2) support and every message type in it: the Go source the generator prints, executed by Go's rules, behaves on every input as specified for generated decoders. Decode into a nil pointer returns the error variable of the file (ErrDecodeNil, in v1 NilDecode); Decode of the bytes that the printed Encode and the encoder of the library produced, into what the printed constructor returns, yields the message again whatever follows it; on arbitrary bytes it returns an error of the library, or nil with a well-formed message, and it never reaches an undefined name, an ill-typed operation or an unbounded stack.",
 "all proto files with Go-supported fields and without Go name clashes, all message types, all receivers, all inputs",
 "Files, receivers and inputs are infinite sets; unit tests run one generated file on a few messages. The claim is about the text of templates executed on arbitrary descriptors and then run on arbitrary bytes.",
 ["v2/generator/golang/templates/decode.templ", "v2/generator/golang/templates/decodeMap.templ", "v2/generator/golang/templates/structs.templ", "v2/generator/golang/structs.go:GetDecodingFields", "v2/decoder.go", "generator/golang/templates/decode.templ", "generator/golang/templates/decodeMap.templ", "decoder.go"])

p("C88",
 "Which printed Go programs compile",
 "For a proto file whose fields refer to types declared in the same file (and whose enums are not hidden by a variable of a generated decoder), the Go source that the generator (v1 or v2) prints compiles as a package by Go's rules exactly if: the file has a message, its Go package is not main, no two declarations and no two fields of a message have the same Go name, no field is called Error, Encode or Decode, there are no repeated bytes or enum fields and no maps with bytes values, and no message consists of maps only. For any file each of these defects, and a reference to a type that is not declared in it, makes compilation fail.",
 "all proto files, with any number of messages, enums, fields and maps nested to any depth, any names",
 "The set of proto files is infinite, and a test compiles the output for one of them. The claim needs a typing derivation for every program the templates can print.",
 ["v2/generator/golang/templates/*.templ", "v2/generator/golang/structs.go", "v2/encoder.go", "v2/decoder.go", "generator/golang/templates/*.templ", "encoder.go", "decoder.go"])

p("C89",
 "The Go plugin answers every request with one program per requested file",
 "For every request of protoc whose files are ordinary proto files, the Go plugin (v1 and v2) answers with exactly one generated file for each file asked for and none for files that are only imported, in order, named <prefix>.polyglot.go (so different prefixes give different names), whose content is the Go program of that file; what it prints for a file does not depend on the other files of the request.",
 "all requests: any number of files, any descriptors, any prefixes; every version text; every Go parser and printer that accepts and keeps the programs in question",
 "The set of requests is infinite; there is no test of the plugins at all.",
 ["v2/generator/golang/generator.go: Generate, ExecuteTemplate", "v2/generator/golang/headers.go: FileName", "v2/protoc-gen-go-polyglot/main.go", "v2/version/current_version", "generator/golang/generator.go", "protoc-gen-go-polyglot/main.go"])

p("C90",
 "The TypeScript plugin's output for a file does not depend on other files",
 "What the TypeScript plugin generates for a file (in particular the names it imports) is determined by that file; it does not depend on which other files are in the same request, or on their order.",
 "all requests: any number of files with any message types",
 "It ranges over all requests; a test generates one file at a time and cannot see state that is carried from one file to the next.",
 ["generator/typescript/generator.go: New, Generate, ExecuteTemplate, trackDependency", "generator/typescript/templates/imports.templ"])

p("C91",
 "A struct stays usable after failed Decodes",
 "Whatever inputs were decoded into a struct of a generated (v1 or v2) message type before, and whether those calls of Decode succeeded or returned an error halfway, the struct can be encoded, can be decoded into again without a panic other than the known one on a last byte of 128 or more, and after decoding the encoding of a message without nil messages inside it holds exactly that message: nothing of earlier inputs shows.",
 "every supported descriptor file, message type, starting struct, history of Decode and Encode calls of any length with any inputs, and every next input or message",
 "The history is unbounded and each failed call may stop at any byte; tests decode into fresh structs and do not look at what a failed call leaves behind.",
 ["v2/generator/golang/templates/templates.go", "v2/generator/golang/templates/decode.templ, decodeMap.templ, encode.templ", "generator/golang/templates/decode.templ, decodeMap.templ, encode.templ"])

p("C92",
 "The printed v1 program: constructors allocate, and Decode inverts Encode",
 "For every proto file that the v1 Go generator supports and every message type in it: the printed NewT() returns a message in which scalars are zero, repeated and map fields empty and every singular message field is allocated in the same way, whatever the call stack, as long as it is large enough for the type; and the printed Encode, the v1 library and the printed Decode together give back every message, into the struct NewT() returned or any other.",
 "every supported proto file, every message type, every value, every struct decoded into, every call stack, every input after the message",
 "Files, values and stacks are infinite sets; whether NewT() returns at all depends on the graph of all types of the file.",
 ["generator/golang/templates/structs.templ", "generator/golang/templates/encode.templ", "generator/golang/templates/decode.templ", "decoder.go", "encoder.go"])

p("C93",
 "Generated Go code that compiles works",
 "For every proto file (v1 and v2): if the Go package that the generator prints compiles, then for every message type of the file Encode makes exactly the encoder calls of the wire layout and Decode returns, for every input and receiver, what the model of generated decoders says, so messages survive a round trip (with the limits of C41/C87); no list of forbidden names, types or shapes is needed, the compiler is the judge. If the program of one generator version compiles, so does that of the other, unless the file declares a name NilDecode or ErrDecodeNil. Excluded are files with homonyms: a field whose type is in another file and has the Go name of a declaration of this file (such a program compiles and uses the wrong type), and a repeated field of an enum that is named uint32.",
 "all descriptors, message types, values, inputs, receivers; both generator versions",
 "a test compiles and runs some files; that acceptance by the compiler implies correct behaviour is a statement about all files, and the ways in which names can clash or hide each other are unbounded",
 ["generator/golang/templates/decode.templ", "generator/golang/templates/decodeMap.templ", "generator/golang/templates/structs.templ", "v2/generator/golang/templates/decode.templ", "v2/generator/golang/generator.go: Generate"])

p("C94",
 "Generated Rust text is the intended program",
 "For every proto file accepted by protoc (no groups), whatever value the privacy flag has, the Rust generator hands exactly one text to rustfmt when its dependency analysis returns and none when it does not; that text splits into the tokens of one Rust program determined by the descriptors: the imports, one enum per enum of the file and of its top-level messages, the traits Encode and Decode, and for every message at any depth a struct with one field per proto field in order and the implementations of both traits. A Rust parser reads the text as exactly that program if no name of a struct, field, enum or enum value comes out as a Rust keyword, and rejects it otherwise. With the version texts that ship (which end with a newline) the text starts with `, DO NOT EDIT.` and is no Rust file.",
 "all descriptors (any nesting, fields, maps, enums), all values of the privacy flag, all version texts",
 "Tests look at the output for one example file; the claim is about the text of every file.",
 ["generator/rust/generator.go: New, ExecuteTemplate", "generator/rust/templates/*.templ", "generator/rust/structs.go", "generator/rust/imports.go", "version/current_version"])

p("C95",
 "Generated Rust programs, when run, encode and decode messages as the schema and the wire format say, and agree with the generated Go programs",
 "For every proto file whose generated Rust names rustc accepts (no keyword fields, no collisions, imports present), that refers only to its own types, with field kinds for which the generated code compiles and no type called Vec, HashMap or TryFromPrimitive: running the text that the Rust generator prints, `x.encode(&mut cursor)` appends the bytes of the wire format and returns Ok; `T::decode(&mut cursor)` of these bytes returns the same struct and stops behind them; on arbitrary bytes `decode` returns Ok or Err, without panic, never leaves the input, needs a stack at most proportional to the input, and what it accepts can be encoded and decoded again. The programs that the two Go generators and the Rust generator print for the same file write the same bytes for the same message and read each other's.",
 "all such files, all message types at any depth, all messages, all inputs, all stack depths",
 "tests run the generated code of one proto file on a few messages; this ranges over all schemas and all inputs, and needs the meaning of the printed program",
 ["generator/rust/generator.go", "generator/rust/templates/encode.templ", "generator/rust/templates/decode.templ", "generator/rust/templates/decodeMap.templ", "generator/rust/templates/enums.templ", "v2/generator/rust/templates/decode.templ"])

p("C96",
 "Generated TypeScript text is the intended program",
 "For every request whose files are accepted by protoc (no groups), the TypeScript generator prints exactly one text per file; that text splits into the tokens of one TypeScript program determined by the descriptors and the names recorded so far: the import of the names that the code for the fields of this file and the files before it uses, one enum per enum of the file and of its top-level messages numbered in declaration order, and for every message at any depth a class whose constructor takes the fields in order, with an accessor for every field, encode and decode. The names all exist in the package exactly if every field concerned is a singular message; decode calls the constructor with its arguments in the order of the parameters exactly if scalars are declared before repeated fields and these before messages and maps. With the version texts that ship (which end with a newline) the text starts with `, DO NOT EDIT.` and is no TypeScript file.",
 "all descriptors (any nesting, fields, maps, enums), all files before it in the request, all version texts",
 "Tests look at the output for one example file; the claim is about the text of every file.",
 ["generator/typescript/generator.go: New, Generate, ExecuteTemplate", "generator/typescript/templates/*.templ", "generator/typescript/structs.go", "version/current_version"])

p("C97",
 "Names in generated TypeScript programs resolve",
 "For every file the TypeScript generator accepts whose fields refer to its own messages and enums and whose names keep clear of each other (imports, enums, classes; values of an enum; properties of a class and `encode`; the variables of `decode`, which are also no `buf`, no loop variable and no function of the package), the program that its text is declares every name once per scope and uses every name in a scope where it has been declared; conversely a program whose names resolve has distinct names of those kinds and refers only to types of its own file or of the language.",
 "every file (any number and nesting of messages, enums, fields of all kinds), and every list of files before it in the request",
 "Any number of fields and messages with any names; the tests compile one schema with chosen names.",
 ["generator/typescript/templates/structs.templ", "generator/typescript/templates/encode.templ", "generator/typescript/templates/decode.templ", "generator/typescript/templates/imports.templ", "generator/typescript/generator.go: Generate"])

p("C98",
 "Generated TypeScript code hands on what it encodes and decodes",
 "In generated TypeScript code every function and method that `encode` calls is given the bytes encoded so far, every property that `decode` reads from an object made in the same block is a property of that object, and what `decode` decodes of a map reaches the constructor of the class. The first holds exactly if all repeated fields are of messages, the second exactly if there is no repeated field of an enum, the third for no map field.",
 "all descriptors of a file: messages, fields, kinds and names",
 "The generator's tests compare with one golden file, which no test runs; and the claims depend on the kinds and shapes of all fields of all files",
 ["generator/typescript/templates/encode.templ: encodeSlices, encodeMessages", "generator/typescript/templates/decode.templ: decode", "generator/typescript/templates/decodeMap.templ: decodeMap", "generator/typescript/templates/structs.templ: structs"])

p("C99",
 "The Rust and TypeScript plugins answer with one file per file asked for",
 "To every request the Rust plugin and the TypeScript plugin answer with one generated file per file asked for, in the same order, named after it with `_polyglot.rs` or `.polyglot.ts`, whose content is the program of that file (TypeScript: with the imports that C90 says), and what the Rust plugin answers for a file does not depend on the other files. The Rust plugin does so exactly if no file asked for has a keyword as a name or a message type whose search for imports does not end; one such file leaves the whole request without answer. With the version text that ships the Rust plugin never answers, and all files of the TypeScript plugin begin with a comma.",
 "all requests: any number of files, any descriptors, any version text without newline, any behaviour of rustfmt that keeps programs and rejects texts that are no programs",
 "The generator's tests print one file and compare it with a golden file; a request has any number of files with any names",
 ["generator/rust/generator.go: Generate, ExecuteTemplate", "generator/rust/headers.go: FileName", "generator/typescript/generator.go: Generate, ExecuteTemplate", "generator/typescript/headers.go: FileName", "protoc-gen-rs-polyglot/main.go: main", "protoc-gen-ts-polyglot/main.go: main"])

import sys
with open('/verif/properties.jsonl','w') as f:
    for x in P: f.write(json.dumps(x)+'\n')
print(len(P))
