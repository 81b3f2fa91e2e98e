# Formal model of loopholelabs/polyglot in Lean 4 - design

## 1. Layout

* `properties.jsonl` - the properties in English; `MANIFEST.json` - which theorems settle which property.
* `lean/Verif/Base.lean`, `BitFacts.lean` - bytes, Go results (`ok`/`panic`), slice primitives, bit-vector lemmas.
* `lean/Verif/Spec/` - the small independent specification, which uses no definition of a model: the wire format
  (`Spec.wire`, `Spec.leb128`, `Spec.zigzag`, ...), the grammar of accepted input (`Grammar`), the abstract byte log
  (`Log`), UTF-8 (`Utf8`).
* `lean/Verif/GoV2/` - v2 buffer, encoders, decoders, errors, pool; `Heap*.lean` - the same over a memory in which slices
  are references.  `GoV1/` - the v1 package.
* `lean/Verif/Rust/` - the Rust crate over `Cursor`; `lean/Verif/TS/` - the TypeScript package; `lean/Verif/CApi/` - the C
  bindings over a C memory.
* `lean/Verif/Gen/` - schemas (`Schema`), message values (`Values`), the field layout specified independently (`Layout`),
  what the code generated from a schema does (`GoGen` for v1 and v2, `RustGen`, `TsGen`, `Enums`), and the naming helpers
  (`Utils`).
* `lean/Verif/Props/` - one file per group of properties: property theorems, refutations of false expectations and
  non-vacuity examples, nothing else.
* `*Facts.lean`, `*Round.lean`, `*Main.lean`, `*Safe.lean`, ... - proofs.
* `seeded/` - wrong programs the theorems were tested against (`LOG.jsonl`), and the runner.
* `tools/` - regenerate `lean/Verif.lean`, `MANIFEST.json`, `properties.jsonl`, `AXIOMS.md`.

Every model definition has a comment with the file and the lines it transcribes.  Function bodies are transcribed statement
by statement; where the text of the code is not followed, the comment says so.

## 2. Trusted base

**Lean.** The kernel of Lean 4.33.0; the axioms `propext`, `Classical.choice` and `Quot.sound` and no others (`AXIOMS.md`
lists them for every theorem in the manifest).  No axiom is added, nothing is admitted, no compiled evaluation is used.

**The reader** must believe that the definitions below `GoV2`, `GoV1`, `Rust`, `TS`, `CApi`, `Gen` say what the source says,
and that the theorem statements in `Props` (with `Spec`) say what `properties.jsonl` says.

**Semantics of languages and libraries that the models assume:**

* *Go.* A byte is `BitVec 8`; `uintN`/`intN` are `BitVec N` (wrapping); `int` has 64 bits and does not overflow (it would
  need buffers of 2^63 bytes).  Indexing and slicing panic exactly when Go's bounds checks fail.  `append` reallocates with an
  arbitrary amount of slack (`Runtime`), theorems hold for every choice.  `make` never fails for lack of memory.  Strings are
  byte lists.  Floats are their bit patterns (`math.Float32bits` and inverse are bit casts; the CPU's conversions are outside).
  Maps iterate in an arbitrary order; float map keys are compared by bits (so `NaN` and signed zero keys are outside).
  Panics are the only abnormal exit; stack overflow is modelled explicitly where it matters (C60, C61) by a depth bound.
* *Go, `sync.Pool`* is a multiset: `Get` takes any element or makes a new one, elements may disappear at any time, the
  operations are atomic.  Interleavings are sequences of atomic API calls (v1's `GetDecoder`/`ReturnDecoder` are two steps
  each); weak-memory effects are excluded by ownership, which is part of what is proved.
* *Go, `errors.Is`* as in the standard library: `==`, then the `Is` method, then unwrapping.
* *Rust.* `std::io::Cursor<Vec<u8>>` and `Cursor<&mut Vec<u8>>`, `byteorder`'s big-endian reads, `String::from_utf8` with the
  UTF-8 grammar of `Spec/Utf8.lean`, arithmetic that panics on overflow (debug profile), both historical behaviours of
  `Cursor::read_exact` on short input.  `vec![0; n]`, `Vec::with_capacity` never abort.  `num_enum::TryFromPrimitive` accepts
  the declared discriminants.  Where a generated program does not type-check the model has no run (`none`): the typing facts
  used are those stated in the comments of `RustGen.lean`.
* *JavaScript.* `Uint8Array` stores out of range are ignored, loads give `undefined` (which behaves as 0 in bit operators),
  `DataView` throws `RangeError`, `slice`/`subarray` clamp, `TextEncoder`/`TextDecoder` as an abstract platform whose decoder
  is assumed to strip a leading byte order mark; numbers are integers below 2^53, bit operators work on 32 bits, `BigInt` is
  unbounded.
* *C bindings.* A C memory of typed objects; dereferencing null or a freed or wrongly typed object is undefined behaviour;
  the allocator is a parameter (`strict` allocators check the size passed to `dealloc`).

**Generated code.** The generators are Go programs that print source text through `text/template`.  Modelled is what the
printed program does, as a function of the schema (`Gen/GoGen.lean`, `RustGen.lean`), read off the templates and the Go code
that feeds them.  For Go (v1 and v2) the text itself is modelled too (`Text/`), and C85 - C92 are about what that text does when it is
read and run; `GoGen.lean` is thereby derived, not trusted, on the files these properties speak of.  For Rust the
text is modelled as well (C94, C95), formatting by `rustfmt` is not; for TypeScript the text is modelled (C96), what it does when it runs
is not: it cannot be linked (C96), and the printed names and their order are the model of C43 and C44 (`TsGen.lean`).  In C41 - C68 message
and field names are indices, so that collisions after `CamelCase` (C47) and clashes with keywords are not part of them, and the contents of
a struct after a decode error are not modelled there (they are in C87 and C91).

The interpreter of Go (`Text/GoRun.lean`, C86, C87) is trusted to follow the Go specification on the subset that the templates print.  Its
values are trees: a pointer is the struct it points to, and a method's receiver is written back when it returns, which is what Go
does as long as no two pointers are equal.  It checks the types of the operands it executes, not those of code it does not
reach.

The type checker of Go (`Text/GoCheck.lean`, C88) is trusted in the same way: it is written after the Go specification (declarations,
scope, types, assignability, calls, terminating statements) and the rules of the compiler on unused variables and imports, for the syntax
the templates print.  Where it is stricter than Go its comments say so; the printed programs do not use these places.  It looks at one
file as one package.

## 3. What is modelled and what is not

| source | model |
|---|---|
| `v2/buffer.go`, `encode.go`, `decode.go`, `encoder.go`, `decoder.go`, `error.go`, `pool.go` | all functions (`GoV2/`), twice: by contents and over memory |
| `buffer.go`, `encode.go`, `decode.go`, `encoder.go`, `decoder.go`, `pool.go`, `kind.go` | all functions (`GoV1/`), twice: by contents and over memory (the pool by contents only) |
| `encoder.rs`, `decoder.rs`, `kind.rs` | all functions (`Rust/`) |
| `encoder.ts`, `decoder.ts`, `kind.ts` | all functions (`TS/`) |
| `c_bindings/*.rs`, `polyglot.h` | all exported functions (`CApi/`) |
| `generator/golang`, `v2/generator/golang` | templates encode, decode, encodeMap, decodeMap, structs, enums, messages, errors and the lookup tables of `structs.go` (meanings: `Gen/GoGen.lean`) |
| `v2/generator/golang/templates/*.templ`, `structs.go`, `imports.go`, `generator.go` 47-69 and 113-128, `v2/version/current_version`, and the same of v1 (`generator/golang`, `version`; `Text/Lib.lean` picks) | the text (`Text/`): all template files byte for byte, a parser and interpreter of `text/template` as far as they use it, the functions they call, a lexer, a parser, an interpreter (`GoRun.lean`) and a type checker (`GoCheck.lean`) of the part of Go they use |
| `generator/rust` (and the identical `v2/generator/rust` apart from module paths) | templates encode, decode, decodeMap, structs, enums, messages and lookup tables |
| `generator/typescript` | names, kinds and the order of fields in encode, decode, decodeMap, constructor, enums |
| `utils/utils.go` (identical in v2) | `CamelCase`, `CamelCaseName`, `LowercaseCamelCase`, `FirstLowerCase`, `SnakeCase`, `AppendString` (the `protoreflect` wrappers are their argument conversions) |
| `v2/generator/golang/generator.go` 87-128, `headers.go`, `v2/protoc-gen-go-polyglot/main.go`; `generator/typescript/generator.go` 113-172 | the loop over the files of a request and the answer (`Text/Plugin.lean`); `protogen` is modelled by what it does with the texts (Go's parser and printer are a parameter), option `module` is not |
| not modelled | the other `protoc-gen-*/main.go`, reading and writing of requests, options, `file.go` (protogen plumbing, text output; of `imports.go` the names are modelled in `Gen/Package.lean`, not the text), `version`, the build, tests and benchmarks |

## 4. Properties and how they are proved

`partial` in the manifest always means: the property as stated is false of the code.  The full statement is kept, what holds is
proved as `_partial` or as an exact characterisation, and the failure is proved as a refutation (`_false...`).

| id | modelled | proof |
|----|----------|-------|
| C01-C05 | v2 encoders/decoders | every encoder appends exactly `Spec.wire` (or, from 2^28 bytes, the exact deviation); every decoder is characterised exactly by a reader on `Spec.leb128` groups; composition by induction on sequences.  C04 is false for lengths in [2^28, 2^32) (missing `offset++`) |
| C06-C10, C21 | v2 buffer with length, capacity, offset | invariant `Usable` by induction over histories, refinement to the byte log; C10 is false for `NewBufferFromBytes` with spare capacity |
| C11-C16, C22 | v2 decoders on arbitrary bytes | exact characterisation; C11, C12, C13 false: exact conditions and refutations |
| C17, C18 | wire format and readers | prefix-freeness, injectivity, minimality of LEB128 |
| C19, C29 | pools, any number of goroutines | ownership invariant by induction over schedules |
| C20 | bool and float codecs | exact characterisation |
| C23-C28, C30 | v1 package | as for v2; C26, C27, C28 false |
| C31-C34, C52-C54 | Rust cursor codec | as for v2; C34, C53 false for some methods |
| C35-C38, C55, C56 | TypeScript codec | as for v2 over clamped typed arrays; C36, C37 (uint16, BOM), C38 false |
| C39, C40, C58, C59 | C wrappers over a C memory | each call is run symbolically against the Rust model; safety invariant over programs of calls; C39, C40, C59 false in part |
| C41, C42, C60, C61, C62 | generated Go, v1 and v2 | nested induction over message values with size bounds; layout specification; C41, C42, C60, C61 false in part |
| C43, C44, C45 | field order, tables, enums of all generators | induction over field lists, complete case analysis over kinds |
| C46-C48, C57 | naming helpers | induction over strings; C47 false in general |
| C72 | checked-in generated code (`Bench/Code.lean`) | literal transcription of `v2/benchmarks/polyglot/benchmark/bench.polyglot.go`, proved equal to what `GoGen.lean` says the generator emits for its schema (translation validation), then round trip and failure behaviour |
| C73-C76 | identifiers of generated Go and Rust files (`Gen/Package.lean`, spec `Spec/ProtoNames.lean`) | descriptors with full names; induction over nested messages; `camelCase` of suffixes and skeletons for uniqueness; the Rust dependency analysis with explicit call depth, well-founded induction both ways |
| C77, C78 | static typing of the generated lines (`Gen/Typing.lean`) | the checks are functions of the field; case analysis over the finitely many kinds, for all schemas; for Rust struct sizes, a least layout depth as rank and back. `GoSupported` / `RustSupported`+`FiniteSize`, the hypotheses of the round-trip properties of generated code, are thereby exactly 'the code compiles' |
| C49, C50, C69-C71 | v2 over memory (`Heap*.lean`) | every function over memory is proved to do what its transcription by contents does with the contents its arguments have at that moment, and to write only into the free part of its buffer, its scratch slice or new arrays; then induction over programs |
| C79-C81 | v1 over memory (`GoV1/Heap*.lean`) | as for v2: refinement of the transcription by contents, an effect relation for each call (only the free part of the buffer, the scratch slice, or new arrays change), induction over programs and sessions |
| C82 | several decoders over one memory (`GoV2/HeapMany.lean`, `GoV1/HeapMany.lean`), a schedule is a list of (decoder, call) | induction over the schedule with the effect relation of C79/C80's calls |
| C83 | the v2 pool with buffers as slices in memory (`GoV2/HeapPool.lean`), an inductive relation of reachable states | invariant (arrays pairwise different), refinement to the pool by contents of C19 |
| C84 | Go: the memory model; Rust: the three allocating functions with a record of `vec!` (`Rust/Alloc.lean`), proved equal to the plain ones | effect relations; Rust refuted |
| C85 | the template files themselves, executed by a model of `text/template`; a Go lexer and parser (fails on anything it does not know); the program as a syntax tree | texts with holes for identifiers are lexed once by the kernel, a lemma fills the holes; induction on nesting; parser inverse to printer by induction on syntax trees |
| C86 | the printed program as a syntax tree, run by an interpreter of the Go subset it uses (`Text/GoRun.lean`) | lookup lemmas for the declarations of the program; symbolic execution of each statement form; induction on the nesting depth of the value |
| C87 | the printed `Decode`, `decode`, `New…` and the map decoders, run by the same interpreter, against the model `GoGen.Decode` on which C41, C61, C66 are proved | a simulation relation per statement form (values, error flow through `err`, panics), loops by induction on the remaining elements, functions by induction on the call depth; then composition with C86, C41, C61 and C66.  False when an enum is named like a local variable of the decoder |
| C88 | a type checker for Go programs (`Text/GoCheck.lean`) on the printed program | sufficient: typing derivation for each statement form, in the scope that the statements before it leave; unused-variable analysis; necessary: from a successful check of the program to the check of the one statement or declaration with the defect |
| C89 | the loop of `Generate` of the Go plugin (v2) over the files of a request, `protogen`'s answer with Go's parser and printer as a parameter (`Text/Plugin.lean`) | induction over the request, C85 for each file; refuted for the shipped version text |
| C90 | the recorded import names of the TypeScript plugin as a state that is carried from file to file | induction over the files; refuted by two explicit requests |
| C91 | histories of calls of the printed `Decode`/`Encode` on one struct; the simulation of C87 extended to what a failing `Decode` leaves in the struct | induction over the history with the invariant "a struct value of its type", then C41, C86, C87, C61, C66 |
| C92 | the printed v1 program; endless chains of singular fields as functions from the naturals | the interpreter against `GoGen.New`, both when it returns and when it does not; chains by choice from a type whose constructor never returns; then C60, C86, C87 |
| C93 | the same checker, program and interpreter; no condition on the file but that the checker accepts the program | C88 gives back all conditions of C86/C87 from a successful check (hidden names: a statement that wants a name fails wherever a local variable has that name, and declarations are never undone), then C86, C87 |
| C94 | the template files of generator/rust byte for byte with what they parse to (`Text/RustTemplates`), the functions and data they use (`RustDescr`), Rust tokens (`RustLex`), syntax trees and their tokens (`RustAst`), a parser for them written from the grammar (`RustParse`), the program of a file (`RustProgram`); rustfmt is outside | template by template: executing a piece prints text with the tokens of the piece (`RustPrint*`), names are identifiers (`RustNames`), induction over nested messages; uniqueness from monotonicity of execution in the fuel ; the parser inverts the printer on trees without keywords as names (`RustParseFacts`), printed programs are such trees iff `NoKeywords`, and the first keyword makes it fail (`RustReads`) |
| C95 | an interpreter for the Rust syntax of C94 (`Text/RustRun`): statements, `?`, `Option`, `Result`, `Vec`, `HashMap` (entries in the order of insertion), nested functions, struct literals, trait methods with a bound on the stack; cursor methods are those of the model of the library; ownership, lifetimes, allocation failure outside | each printed piece does what the schema-level model (`Gen/RustGen`) does (`RustRunBase`, `RustRunDecode*`, `RustRunEncode*`), induction over the stack depth; what the names of the program refer to follows from distinctness of names (`RustRunLink`); composition with C63, C65, C62, C86, C94 |
| C96 | the template files of generator/typescript byte for byte with what they parse to (`Text/TsTemplates`), the functions and data they use (`TsDescr`), the recorded import names (C90), TypeScript tokens with line breaks where they end a statement (`TsLex`), syntax trees and their tokens (`TsAst`), the program of a file (`TsProgram`), a reading of the tree (`TsDeclared`); running it is not modelled | template by template, as in C94 (`TsPrint*`), names are identifiers (`TsNames`), induction over nested messages, uniqueness from monotonicity in the fuel; linking and the order of constructor arguments by case analysis over the field kinds, both as equivalences |
| C97 | scoping rules of TypeScript for the syntax trees of C96 (`Text/TsScope`: block scopes, `let` and `const` usable only after their declaration, parameters, members of a class, types); types of expressions are not checked | statement by statement for the pieces of `encode` and `decode` with the environment as a parameter (`TsScope`), names used by a field are names recorded for the import (`TsScopeFile`), permutation of declared names; converse by projection |
| C98 | calls with arguments, variables mentioned, variables with what they are set to and properties read, as recursive readings of the syntax trees of C96 (`Text/TsFlow`); running the programs is not modelled | piece by piece of `encode` and `decode`, by kinds and shapes; for maps by counting the mentions of a variable, with the names of the variables distinct (C96) |
| C99 | the loops of `Generate` of the Rust and the TypeScript plugin over the files of a request (`Text/PluginOthers`); `rustfmt` is a parameter that keeps programs and rejects texts that are none; protogen's checks of the request are not modelled | induction over the request, with C94 and C96 for each file; TypeScript with the files done before as a parameter; refuted for the shipped version text |
| C51 | `Error.Is` | case analysis over error chains |
| C63-C65 | generated Rust | nested induction; safety on arbitrary input by an invariant on the cursor; C64 false for nil messages and undeclared enum numbers |
| C66, C67, C68 | generated decoders on arbitrary input | invariant on decoded values, explicit inputs, induction over map entries; C66 false when input ends inside a varint |

Nothing in the list was found inexpressible.  Not expressible in these models, and therefore not listed as properties: running
time and allocation volume beyond C61/C67, `go vet`-style data races on misuse of one buffer by two goroutines, and whether
the generated Rust and TypeScript text compiles beyond the typing facts above.

## 5. Findings (each with a theorem)

* Go v2: byte slices of 2^28 bytes and more are encoded wrongly (C04); buffers made from slices with spare capacity panic or
  truncate (C10); truncated varints panic (C11); `Map`/`Slice`/`String`/`Error` advance on failure (C12); five continuation
  bytes make `Bytes` succeed without consuming anything (C13); over-long and overflowing varints are accepted (C16);
  `Encoder.Error(nil)` and `Error.Is(nil)` panic (C03, C51); arguments in the free part of the buffer are corrupted (C70).
* Go v1: a longer scratch slice leaks its tail (C26); panics (C27); the overflow check is dead code (C28).
* Generated Go: nil messages first in a message are lost (C41), stale fields survive (C42), recursive types overflow the
  stack (C60, C61), announced counts are trusted (C67).
* Generated Go, names: two generated files cannot share a package and references across files never compile; enum-only files, fields
  called `error`/`encode`/`decode`, repeated enums, `A.B` beside `AB` do not compile (C73, C74).
* Rust generator: overflows its stack on every recursive message type, so the round trips C63 and C65 about recursive schemas in
  Rust speak of code nobody can generate with this version (C75); missing imports and keyword field names (C76).
* Rust: position not restored by `decode_array`/`decode_map` (C34), wrong error values (C53).  Generated Rust rejects nil messages
  and undeclared enum numbers written by Go (C64); several field types produce code that does not compile.
* TypeScript: the encoder reserves too little and doubles only once (C36); uint16 from 16384 misread (C37); truncated input mostly
  unnoticed (C38); generated code imports names that do not exist and decodes in a different order (C43, C44).
* C bindings: `polyglot_decode_none` dereferences null and never sets the status (C39, C40), strings with NUL fail after
  advancing (C40), buffers over 4 GiB are truncated (C40), `polyglot_free_decode_bytes` passes a wrong size to the allocator (C59).
* Version text: `current_version` ends with a newline and is used untrimmed in the header comment of every generated file (all three
  languages, v1 and v2), so generated files start with `, DO NOT EDIT.` outside of any comment (C85).
* Generated Go: an enum whose Go name is `<Field>Temp` (for a field of its type) or `ValueTemp` (for a map) is hidden by a local variable of the
  generated decoder, which does not compile (C87); whether another field's type is hidden depends on the order of the fields (C88, C93).
* Generated Go: a field whose type is declared in another file, but has the Go name of a declaration of this file, compiles and silently uses
  the wrong type (C93).  A message `NilDecode` breaks v1 only, `ErrDecodeNil` v2 only (C93).
* Generated Go: what C73/C74 say about names and types is confirmed on the printed program by a type checker (C88); in addition a proto package
  whose last component is `main` gives a program without `func main`.
* Plugins: `protogen` parses every generated `.go` text, so with the version text that ships (it ends with a newline) the Go plugin answers
  every request with an error and generates nothing (C89).  With it the Rust plugin answers no request at all, and the TypeScript plugin with files that begin with a comma; one file with a keyword as a name keeps the Rust plugin from answering for the others too (C99).  The TypeScript plugin never clears its import names between the files of a
  request (C90).
* Generated TypeScript: a file links only if all its fields (and those of files before it in the request) are singular messages;
  the constructor gets its arguments in the right order only if scalars are declared before repeated fields and these before messages and
  maps; fields `b` and `bTemp` make `decode` declare a variable twice (C96), a field `encode` gives a class two members of one name, a repeated field `buf` declares the parameter of `decode` again, a type of another file is not declared, and a map field named like a decoding function is called before it is declared (C97). `encode` calls `encodeArray` without the bytes so far for every repeated field that is not of messages, `decode` goes on with the undefined `element.bufEnum` after an element of a repeated enum, and the map that `decode` hands to the constructor is always the new, empty one (C98).
* Enums: constants are declaration indices, declared numbers are ignored; nested enums are not generated (C45).
