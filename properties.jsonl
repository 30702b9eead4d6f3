{"id": "C01", "title": "Unsigned LEB128 reader is exact", "statement": "BinaryReader::read_var_u32 / read_var_u64 succeed on a byte buffer exactly when the buffer (from the current position) starts with a LEB128 encoding of an integer that fits in N bits using at most ceil(N/7) bytes; the returned value is the sum of the 7-bit groups, exactly the encoding's bytes are consumed, and every failure is either end-of-input (all remaining bytes are continuation bytes and fewer than ceil(N/7)) or a too-long/too-large error.", "quantifier": "for every byte buffer, every start position and both widths (32, 64)", "why_tests_cant": "The input space is all byte strings; the overflow check is a shift/width side condition that only matters on the last byte, so a finite table of encodings does not cover all residual bit patterns together with all prefixes.", "anchors": ["crates/wasmparser/src/binary_reader.rs: BinaryReader::read_var_u32, read_var_u32_big, read_var_u64, read_var_u64_big"]}
{"id": "C02", "title": "Signed LEB128 readers are exact", "statement": "read_var_i32 and read_var_i64 succeed exactly on signed LEB128 encodings of integers in [-2^(N-1), 2^(N-1)) with at most ceil(N/7) bytes, return the two's complement value of the groups sign-extended from the last group's bit 6, and consume exactly the encoding.", "quantifier": "for every byte buffer, start position and width 32/64", "why_tests_cant": "Sign extension and the unused-bits check interact on the final byte; all prefixes and final bytes must be covered.", "anchors": ["crates/wasmparser/src/binary_reader.rs: BinaryReader::read_var_i32, read_var_i32_big, read_var_i64"]}
{"id": "C03", "title": "33-bit signed LEB128 reader (block types, heap types)", "statement": "read_var_s33 returns the two's complement value of the (at most five byte) signed LEB128 encoding it consumes. (False of the code for five-byte negative encodings: the negation is proved with a witness; it is proved exactly when it holds and that block-type / heap-type decoding is not affected.)", "quantifier": "for every byte buffer and position", "why_tests_cant": "Only five-byte negative encodings are affected; ordinary encoders never emit them.", "anchors": ["crates/wasmparser/src/binary_reader.rs: BinaryReader::read_var_s33, read_block_type", "crates/wasmparser/src/readers/core/types.rs: HeapType::from_reader"]}
{"id": "C04", "title": "LEB128 writer/reader round trip and shortest form", "statement": "Encoding any u32/i32/u64/i64/s33 with wasm-encoder's Encode and reading it with the corresponding wasmparser reader yields the same value and leaves exactly the trailing bytes; the emitted encoding is the unique shortest one and is at most ceil(N/7) bytes long.", "quantifier": "for every integer of the width and every trailing byte string", "why_tests_cant": "2^64 values times arbitrary suffixes.", "anchors": ["crates/wasm-encoder/src/lib.rs: impl Encode for u32/i32/u64/i64", "crates/wasmparser/src/binary_reader.rs: read_var_*"]}
{"id": "C05", "title": "Reader primitives are bounds-safe and depend only on what they consume", "statement": "Every BinaryReader primitive keeps 0 <= position <= buffer length, never indexes outside the buffer, on success consumed only bytes that exist, and its result on a buffer is unchanged by appending more bytes (prefix determinism); an end-of-input error reports a positive needed_hint and truly cannot succeed with fewer than that many further bytes.", "quantifier": "for every buffer, position, and appended suffix", "why_tests_cant": "The claim is about all pairs (buffer, extension).", "anchors": ["crates/wasmparser/src/binary_reader.rs: read_u8, read_bytes, read_u32, read_u64, read_var_*, read_string, read_reader, skip, eof_err", "crates/wasmparser/src/error.rs: needed_hint"]}
{"id": "C06", "title": "Streaming parse of modules is independent of chunking", "statement": "Driving wasmparser::Parser::parse over a core module in the documented way (grow the buffer when told NeedMoreData, otherwise drop the consumed bytes) yields the same sequence of payloads, offsets and final success/failure for every way of splitting the input into chunks as parsing the whole input at once with eof=true.", "quantifier": "for every byte string (valid or not) whose preamble is a module, and every split into chunks", "why_tests_cant": "Number of chunkings is exponential in the input length; state mutated before a NeedMoreData return is only visible on particular split points.", "anchors": ["crates/wasmparser/src/parser.rs: Parser::parse, parse_reader, update_order, parse_all, section, delimited"]}
{"id": "C07", "title": "Streaming parse of components and the component start section", "statement": "The same chunking-independence for components. (False of the code: a component start section split across two chunks makes the retry fail with 'component cannot have more than one start function'; the negation is proved with a witness.)", "quantifier": "for every component binary and every split into chunks", "why_tests_cant": "Depends on a particular split point inside a particular section.", "anchors": ["crates/wasmparser/src/parser.rs: Parser::parse_reader (ComponentStart arm), single_item"]}
{"id": "C08", "title": "Streaming parser makes progress and tiles the input", "statement": "NeedMoreData hints are positive and a driver that obtains at least one more byte per hint terminates; each Parsed chunk consumes a number of bytes no larger than the buffer, the reported payload ranges are contiguous, in order, inside the input, and on success the consumed bytes add up to the whole input.", "quantifier": "for every input and every chunking", "why_tests_cant": "Termination and tiling are statements about whole executions.", "anchors": ["crates/wasmparser/src/parser.rs: Chunk, Parser::parse, Parser::parse_all"]}
{"id": "C09", "title": "Module section order is enforced exactly", "statement": "Parsing/validating a core module accepts a sequence of non-custom sections iff section kinds appear in the order prescribed by the specification, each at most once; custom sections are allowed anywhere and change nothing.", "quantifier": "for every sequence of section ids", "why_tests_cant": "All sequences of sections of all lengths.", "anchors": ["crates/wasmparser/src/parser.rs: Order, update_order", "crates/wasmparser/src/validator.rs"]}
{"id": "C10", "title": "Section framing round trip", "statement": "A module assembled with wasm-encoder from any list of sections (id, payload bytes, custom sections with names) parses back to exactly those sections with the same payload bytes, in order, with correct byte ranges, followed by End at the end of input.", "quantifier": "for every list of section payloads below the 4 GiB size limit", "why_tests_cant": "Arbitrary payload bytes and lengths (length prefix has variable width).", "anchors": ["crates/wasm-encoder/src/core.rs: Module::section, finish", "crates/wasm-encoder/src/raw.rs", "crates/wasm-encoder/src/core/custom.rs", "crates/wasmparser/src/parser.rs: Parser::parse_all"]}
{"id": "C11", "title": "Value/reference/heap type encoding round trip", "statement": "Every value type that wasm-encoder can represent is encoded to bytes that wasmparser decodes to the corresponding type consuming exactly those bytes; the encoding is injective.", "quantifier": "for every value type, including all concrete type indices below the implementation limit, and every trailing byte string", "why_tests_cant": "Type indices make the type set effectively unbounded.", "anchors": ["crates/wasm-encoder/src/core/types.rs: ValType, RefType, HeapType, AbstractHeapType encode", "crates/wasmparser/src/readers/core/types.rs: ValType/RefType/HeapType from_reader"]}
{"id": "C12", "title": "Packed RefType representation is lossless", "statement": "RefType::new(nullable, heap_type) either reports that the index does not fit or yields a packed value from which is_nullable and heap_type return exactly what was put in; distinct reference types have distinct packed values.", "quantifier": "for every nullability, every abstract/shared/exact/concrete heap type and index", "why_tests_cant": "2^20 indices per kind times flags; the property is algebraic.", "anchors": ["crates/wasmparser/src/readers/core/types.rs: RefType, PackedIndex, UnpackedIndex"]}
{"id": "C13", "title": "Heap/reference/value subtyping is a partial order consistent with the specification", "statement": "The subtype test used by the validator is reflexive and transitive, antisymmetric on types, coincides on abstract heap types with the hierarchy of the GC specification, respects declared supertype chains for concrete types, and never relates shared with unshared or types of different hierarchies.", "quantifier": "for every triple of types over every well-formed list of type declarations", "why_tests_cant": "Transitivity needs all triples over all declaration graphs.", "anchors": ["crates/wasmparser/src/validator/types.rs: TypeList::valtype_is_subtype, reftype_is_subtype_impl, id_is_subtype", "crates/wasmparser/src/readers/core/types.rs: AbstractHeapType::is_subtype_of"]}
{"id": "C14", "title": "Instruction encoding round trip", "statement": "For every instruction that wasm-encoder can emit and that is within wasmparser's implementation limits and enabled features (lists of at most 10000 catches or handlers, 7654321 branch targets and 10 select types, type indices in types below 2^20, alignments that leave bit 6 of the flags free, a control frame that allows else/catch/delegate), decoding the emitted bytes with wasmparser's operator reader yields the operator of the same name with the same immediates under the names of its fields and consumes exactly the emitted bytes. For the two instructions excluded without need of a limit (typed_select_multi with one type, alignment 64 and more) this fails.", "quantifier": "for every instruction of the 600 opcodes, every value of its immediates, every set of features, every reader position and any trailing bytes", "why_tests_cant": "Immediates range over full 32/64/128-bit domains; several hundred opcodes in several prefix tables.", "anchors": ["crates/wasm-encoder/src/core/instructions.rs: InstructionSink", "crates/wasm-encoder/src/core/code.rs: impl Encode for Instruction, MemArg, BlockType, Catch, Handle, Ordering", "crates/wasmparser/src/binary_reader.rs: visit_operator, visit_0xfb_operator, visit_0xfc_operator, visit_0xfd_operator, visit_0xfe_operator, read_memarg, read_br_table"]}
{"id": "C15", "title": "Instruction encoding is prefix-free", "statement": "No instruction encoding is a proper prefix of another one's, and distinct instructions have distinct encodings (except typed_select and typed_select_multi of one type, and memory accesses whose alignment has bit 6 set), so an instruction sequence is uniquely recoverable from its concatenated bytes; wasmparser's OperatorsReader recovers every well-nested sequence of instructions within its limits and accepts up to finish() nothing that is not well nested.", "quantifier": "for every pair of instructions / every pair of instruction sequences / all bytes", "why_tests_cant": "Quadratic in an infinite set.", "anchors": ["crates/wasm-encoder/src/core/instructions.rs", "crates/wasmparser/src/readers/core/operators.rs: OperatorsReader"]}
{"id": "C16", "title": "Function body validation is sound", "statement": "If the operator validator accepts a function body then the body is well typed under the declarative typing rules of the WebAssembly specification (stack-polymorphic unreachable code included), for the modelled instruction set.", "quantifier": "for every instruction sequence, local declaration, block nesting and module context", "why_tests_cant": "All programs of all sizes; unreachable code handled via a 'bottom' type is the classic source of missed cases.", "anchors": ["crates/wasmparser/src/validator/operators.rs: OperatorValidator, push_operand, pop_operand, _pop_operand, push_ctrl, pop_ctrl, jump, visit_*", "crates/wasmparser/src/validator/func.rs"]}
{"id": "C17", "title": "Function body validation is complete", "statement": "Every function body that is well typed under the declarative rules is accepted by the operator validator, for the modelled instruction set (no spurious rejections).", "quantifier": "for every well-typed body and module context", "why_tests_cant": "All programs of all sizes.", "anchors": ["crates/wasmparser/src/validator/operators.rs"]}
{"id": "C18", "title": "Failed try_op leaves the validator untouched", "statement": "FuncValidator::try_op on an operator that fails to validate restores the operand stack, control stack, local initialisation state and reachability to exactly what they were before the call.", "quantifier": "for every validator state and every operator (every failure point inside it)", "why_tests_cant": "The failure point can be anywhere within the sequence of pops/pushes of an operator, in any state.", "anchors": ["crates/wasmparser/src/validator/operators/transaction.rs", "crates/wasmparser/src/validator/operators.rs: rollback, push_operand, _pop_operand, push_ctrl, pop_ctrl, unreachable", "crates/wasmparser/src/validator/func.rs: try_op"]}
{"id": "C19", "title": "Locals lookup equals the declared list", "statement": "After declaring any sequence of (count, type) groups, looking up local i returns the type of the i-th local of the expanded declaration list (or absent if i is past the end), and the limit on the number of locals is enforced without overflow.", "quantifier": "for every sequence of declarations and every index", "why_tests_cant": "Run-length compressed storage with a small cache and binary search; indexes near group borders for all group layouts.", "anchors": ["crates/wasmparser/src/validator/operators.rs: Locals::define, Locals::get, get_bsearch"]}
{"id": "C20", "title": "Non-defaultable locals are never read uninitialised", "statement": "A local.get of a non-defaultable local is accepted iff an earlier local.set/tee of it dominates the read according to the block structure (initialisation inside a block is forgotten at its end).", "quantifier": "for every instruction sequence with arbitrary block nesting", "why_tests_cant": "Depends on nesting history.", "anchors": ["crates/wasmparser/src/validator/operators.rs: LocalInits, visit_local_get, visit_local_set, push_ctrl, pop_ctrl"]}
{"id": "C21", "title": "IndexMap behaves as an insertion-ordered map", "statement": "wasmparser's b-tree backed IndexMap is observationally an insertion-ordered association list: insert/get/contains/get_index/swap_remove/iter agree with the abstract list and len counts the keys, after any history of operations.", "quantifier": "for every sequence of operations", "why_tests_cant": "Invariant (slots and key index agree) must survive arbitrary histories, in particular swap_remove of a non-last element.", "anchors": ["crates/wasmparser/src/collections/index_map/detail.rs: IndexMap"]}
{"id": "C22", "title": "Type list snapshots are append-only", "statement": "For any history of push/commit/truncate on SnapshotList, get(i) returns the i-th element pushed (as if it were one vector), commit does not change any observable element, and the list returned by commit keeps returning the same elements whatever is done to the original afterwards.", "quantifier": "for every history of operations and every index", "why_tests_cant": "Histories and bucket layouts (binary search over variable-size buckets).", "anchors": ["crates/wasmparser/src/validator/types.rs: SnapshotList"]}
{"id": "C23", "title": "Recursion group interning identifies exactly equal groups", "statement": "Interning canonicalised recursion groups returns an existing id exactly when a structurally equal group was interned before, and the id maps back to the same types.", "quantifier": "for every sequence of interned groups", "why_tests_cant": "Histories of interning operations.", "anchors": ["crates/wasmparser/src/validator/types.rs: TypeList::intern_canonical_rec_group", "crates/wasmparser/src/validator/core/canonical.rs"]}
{"id": "C24", "title": "Printed strings read back to the same bytes", "statement": "Any byte string printed by wasmprinter as a string literal, and any name printed as a (possibly quoted) identifier, is lexed by wast to one token whose decoded contents are the original bytes, whatever text follows the closing quote.", "quantifier": "for every byte string / every unicode string and every following text that starts a new token", "why_tests_cant": "All byte strings, including control characters, quotes, backslashes, invalid UTF-8.", "anchors": ["crates/wasmprinter/src/lib.rs: print_str, print_str_contents, print_bytes, hex_byte", "crates/wast/src/lexer.rs: Lexer::parse_str, hexnum"]}
{"id": "C25", "title": "Printed identifiers are unique per name section subsection", "statement": "The identifiers wasmprinter assigns to the items of one name map are pairwise distinct as wast identifiers (so the text re-parses with references resolved to the right items), whatever names the binary's name section contains.", "quantifier": "for every list of (index, name) pairs with distinct indices", "why_tests_cant": "Names are arbitrary strings: duplicates, empty names, names that look like synthetic names.", "anchors": ["crates/wasmprinter/src/lib.rs: Naming::new, write_identifier, name_map"]}
{"id": "C26", "title": "Lexer tokens tile the input", "statement": "For every input text the wast lexer either reports an error or splits it into non-empty contiguous tokens covering all of it; it never loops and never panics on a char boundary.", "quantifier": "for every text", "why_tests_cant": "All strings.", "anchors": ["crates/wast/src/lexer.rs: Lexer::parse, parse_kind, parse_reserved, skip_ws"]}
{"id": "C27", "title": "Text integers denote the right bits", "statement": "Parsing an integer literal as iN accepts exactly the literals whose mathematical value is in [-2^(N-1), 2^N) (with sign rules) and yields the two's complement bits; every integer printed by wasmprinter parses back to itself.", "quantifier": "for every literal and N in {8,16,32,64}", "why_tests_cant": "Underscores, signs, hex/dec and range ends for all lengths of literals.", "anchors": ["crates/wast/src/token.rs: integers macro", "crates/wast/src/lexer.rs: classify_number, Token::integer"]}
{"id": "C28", "title": "Printed floats read back to the same bits", "statement": "Any f32/f64 bit pattern (NaN payloads, infinities, subnormals, zeros of both signs) printed by wasmprinter is parsed by wast back to the same bit pattern.", "quantifier": "for every 32-bit and every 64-bit pattern", "why_tests_cant": "2^64 patterns; the subnormal branch and the rounding branch of the hex parser differ by exponent.", "anchors": ["crates/wasmprinter/src/lib.rs: print_float!", "crates/wast/src/token.rs: float! (hex strtof)"]}
{"id": "C29", "title": "WIT size and alignment agree with the canonical ABI on both pointer widths", "statement": "For every WIT type, SizeAlign's size and alignment specialised to 32-bit and to 64-bit pointers equal the canonical ABI's elem_size and alignment computed with that pointer width; field offsets likewise.", "quantifier": "for every well-formed type graph", "why_tests_cant": "Symbolic (bytes, pointers) arithmetic must agree with concrete arithmetic for both widths for all nestings.", "anchors": ["crates/wit-parser/src/sizealign.rs: SizeAlign, ArchitectureSize, align_to_arch, Alignment::cmp"]}
{"id": "C30", "title": "WIT flattening agrees with the canonical ABI", "statement": "Resolve::push_flat / wasm_signature produce the core parameter and result types given by the canonical ABI's flatten_type/flatten_functype, with pointers and lengths lowered to i32 or i64, including the switch to indirect parameters and return pointers at the flat limits.", "quantifier": "for every function type", "why_tests_cant": "All type nestings; the overflow limit interacts with the partially filled buffers in variants.", "anchors": ["crates/wit-parser/src/abi.rs: join, push_flat, push_flat_variants, wasm_signature, FlatTypes"]}
{"id": "C31", "title": "WAVE string and char literals round trip", "statement": "Writing any string or char with the WAVE writer and unescaping the literal with the WAVE string reader returns the original value.", "quantifier": "for every unicode string / scalar value", "why_tests_cant": "All strings over 1.1 million scalar values.", "anchors": ["crates/wasm-wave/src/writer.rs: write_char", "crates/wasm-wave/src/strings.rs: StringParts, unescape"]}
{"id": "C32", "title": "WIT topological sort is a correct, cycle-detecting, source-order-stable sort", "statement": "toposort returns Ok(order) iff all dependencies exist and the graph is acyclic; the order is a permutation of the keys in which every item follows its dependencies and in which the earliest-declared ready item is always chosen first; otherwise it returns the corresponding error, never panics.", "quantifier": "for every dependency graph", "why_tests_cant": "All graphs.", "anchors": ["crates/wit-parser/src/ast/toposort.rs: toposort"]}
{"id": "C33", "title": "Semantics-preserving peephole rules preserve semantics", "statement": "When the peephole mutator must preserve semantics, any sequence of its rewrites, applied anywhere in an expression, followed by writing the expression back as instructions, yields instructions that have the same effect as those of the original expression: same values, same stack below, same state of the world, same traps, whatever random numbers are drawn and globals are added. (False for i32.eq-associates, f32/f64 `x + 0.0 => x` at -0.0, `x * 1.0 => x` at signalling NaNs, for rules that drop operands that trap and for rules that copy or move operands with side effects: negations proved with witnesses.)", "quantifier": "for every engine, every valid expression, every chain of rewrites, all random choices and all states", "why_tests_cant": "2^64 to 2^128 operand combinations per rule.", "anchors": ["crates/wasm-mutate/src/mutators/peephole/rules.rs: get_rules", "crates/wasm-mutate/src/mutators/peephole/eggsy/encoder/expr2wasm.rs: expr2wasm"]}
{"id": "C34", "title": "Generated non-trapping code does not trap", "statement": "With disallow_traps, the instruction sequences that wasm-smith emits around division/remainder, loads, stores and float truncation never trap and leave the stack typed as the plain instruction would.", "quantifier": "for every operand value, memory size and permitted memory offset", "why_tests_cant": "All operands times all memory sizes; wrap-around of 32/64-bit address arithmetic.", "anchors": ["crates/wasm-smith/src/core/code_builder/no_traps.rs: load, store, unsigned_div_rem, signed_div_rem, trunc", "crates/wasm-smith/src/core/code_builder.rs: memory_offset"]}
{"id": "C35", "title": "ensure_termination makes every execution finite", "statement": "After Module::ensure_termination(n), every execution of the module's functions performs at most n loop-iterations/calls before trapping, so it terminates.", "quantifier": "for every generated module body and every execution", "why_tests_cant": "Quantifies over all programs and all runs.", "anchors": ["crates/wasm-smith/src/core/terminate.rs: Module::ensure_termination"]}
{"id": "C36", "title": "Producers metadata merge", "statement": "Producers::merge is the per-(field,name) override map: after merging, get(field).get(name) is other's version when present and self's otherwise; insertion order is preserved; encoding a section whose fields are those of the tool convention (language, processed-by, sdk) and reading it back yields the same fields, names and versions in the same order.", "quantifier": "for every pair of producers sections", "why_tests_cant": "Nested ordered maps with arbitrary keys.", "anchors": ["crates/wasm-metadata/src/producers.rs: add, merge, section, from_bytes", "crates/wasm-encoder/src/core/producers.rs", "crates/wasmparser/src/readers/core/producers.rs"]}
{"id": "C37", "title": "Shrinking keeps the property of interest", "statement": "wasm-shrink's result satisfies the predicate, is never larger than the input, and on_new_smallest is called with strictly decreasing sizes, for any predicate, mutation stream and random choices.", "quantifier": "for every predicate behaviour, mutation stream and random number sequence", "why_tests_cant": "All runs of a randomised loop with a user callback.", "anchors": ["crates/wasm-shrink/src/lib.rs: ShrinkRun::run, on_new_interesting, on_new_best"]}
{"id": "C38", "title": "Function, code and data counts agree in every accepted module", "statement": "Whenever the parser finishes a core module without error, the number of functions announced by the function section equals the number of bodies announced by the code section, exactly that many code entries have been reported, and a data count section, if present, announces the number of data segments of the data section; absent sections count as empty.", "quantifier": "for every byte string, every chunking and every start offset with 64-bit offsets", "why_tests_cant": "The check is spread over three places (code section header, data section, end of module) and over state carried between parse calls; a lost update is only visible for particular combinations of present and absent sections.", "anchors": ["crates/wasmparser/src/parser.rs: check_function_code_counts, check_data_count, ParserCounts"]}
{"id": "C39", "title": "Type section entries round trip", "statement": "Every subtype (final or not, with or without a supertype, shared, with descriptor/describes clauses, function/struct/array/continuation) and every explicit recursion group within the parser's limits is encodable by wasm-encoder, and wasmparser reads the bytes back as exactly that type or group, consuming exactly those bytes.", "quantifier": "for every subtype and every list of subtypes within the limits, all indices, any trailing bytes", "why_tests_cant": "Unbounded field/parameter/group lengths and 2^20 indices in every position.", "anchors": ["crates/wasm-encoder/src/core/types.rs: encode_subtype, encode_function, encode_struct, encode_field, CoreTypeEncoder::rec", "crates/wasmparser/src/readers/core/types.rs: RecGroup::from_reader, SubType::from_reader, read_composite_type, FuncType/StructType/FieldType/ContType from_reader"]}
{"id": "C40", "title": "Re-encoding parsed types preserves them", "statement": "Whatever recursion group the parser reads, from whatever bytes, the default reencoder converts and encodes without error, and the new bytes are read as a group equal to the first; a reencoder that renames type indices changes those indices and nothing else.", "quantifier": "for every byte string the type reader accepts, every index renaming", "why_tests_cant": "Ranges over all parseable inputs, including non-canonical LEB encodings.", "anchors": ["crates/wasm-encoder/src/reencode.rs: parse_recursive_type_group, sub_type, composite_type, func_type, val_type, ref_type, heap_type, type_index_unpacked"]}
{"id": "C41", "title": "Declared subtypes accepted by the validator are structural subtypes", "statement": "After any sequence of recursion groups accepted by the validator, in any number of modules, every declared supertype is defined earlier, is not final, has the same sharedness and is structurally a supertype (functions contravariant in parameters, mutable fields invariant, structures extended at the end); the same holds along chains of supertypes, and no chain is longer than 63.", "quantifier": "all feature sets, all histories of modules and recursion groups with any types", "why_tests_cant": "The relation between a new type and the types it refers to depends on all earlier groups, canonicalization and group-relative indices; tests cover a few shapes of groups.", "anchors": ["crates/wasmparser/src/validator/core/canonical.rs: check_subtype", "crates/wasmparser/src/readers/core/types/matches.rs", "crates/wasmparser/src/validator/types.rs: TypeList::matches, get_subtyping_depth"]}
{"id": "C42", "title": "Adding types never panics", "statement": "Adding a parsed recursion group to a module of a validator returns either success or an error: none of the unwraps, assertions, indexing operations and integer conversions in canonicalization, interning, subtype and descriptor checks panics, and the supertype walk terminates.", "quantifier": "all feature sets, all histories of modules and recursion groups, all parsed groups", "why_tests_cant": "Panics depend on rare combinations of indices, group boundaries, limits and earlier types. The counterexample needs more than a million types in one component.", "anchors": ["crates/wasmparser/src/validator/core/canonical.rs: canonicalize_and_intern_rec_group", "crates/wasmparser/src/validator/types.rs: intern_canonical_rec_group"]}
{"id": "C43", "title": "Shared types, continuations and descriptors are consistent", "statement": "After any accepted sequence of recursion groups, shared types contain only shared types, continuation types are of function types, descriptor and describes clauses occur only on structures, are inverse to each other and are respected by declared supertypes.", "quantifier": "all feature sets, all histories of modules and recursion groups with any types", "why_tests_cant": "The conditions relate each type with types anywhere in the same or in earlier groups, also of other modules.", "anchors": ["crates/wasmparser/src/validator/core/canonical.rs: check_composite_type, check_descriptors"]}
{"id": "C44", "title": "WAVE values round trip through text at their type", "statement": "Reading, at its type, the text that the WAVE writer writes for a value returns that value (for values nested at most 100 deep); whatever text the reader accepts at a type gives a value of that type, so the text written for it is read as the same value.", "quantifier": "for all types (records, variants, enums, flags, options, results, tuples, lists, strings, chars, integers of any width, floats), all values of the type, all texts", "why_tests_cant": "Types and values are unbounded trees; keyword-like names, omitted options, escapes and empty records interact.", "anchors": ["crates/wasm-wave/src/writer.rs: write_value", "crates/wasm-wave/src/parser.rs", "crates/wasm-wave/src/ast.rs: to_wasm_value", "crates/wasm-wave/src/lex.rs"]}
{"id": "C45", "title": "Lexer tokens are those of the text format's grammar", "statement": "At every position of every text the wast lexer produces a token of some kind and extent exactly when the lexical grammar of the text format (with annotations) has a token of that kind and extent there: numbers with their sign, base and underscores, strings, identifiers, annotations, keywords, comments, reserved tokens. The only relaxation is repeated underscores inside \\u{...} escapes.", "quantifier": "for every text below 2^32 bytes, every position at a character boundary, with confusing characters allowed or not", "why_tests_cant": "All texts; maximal munch, nesting of comments, classification of number-like words and reserved tokens interact.", "anchors": ["crates/wast/src/lexer.rs: Lexer::parse, parse_kind, parse_reserved, classify_number, skip_underscores, parse_str, hexnum"]}
{"id": "C46", "title": "Hexadecimal float literals are rounded to nearest, ties to even", "statement": "A hexadecimal float literal of the text format is read as the representable number nearest to the number it stands for, ties to the one with an even significand, with its sign; a literal that rounds beyond the largest finite number is rejected.", "quantifier": "for all literals (any number of digits on both sides of the point, underscores, either case, any exponent) and both widths", "why_tests_cant": "Infinitely many literals; rounding depends on digits far to the right, subnormals and the boundary to infinity.", "anchors": ["crates/wast/src/token.rs: float! (strtof hex branch)", "crates/wast/src/lexer.rs: Float"]}
{"id": "C47", "title": "NaN canonicalization of generated code", "statement": "The instructions that wasm-smith emits after a float instruction with canonicalize_nans replace every NaN (in vectors: in every lane) by the canonical NaN and leave every other value, including signed zeros, bit for bit as it is; nothing else of the state that earlier code can see changes.", "quantifier": "for every scalar float and every vector, and every state", "why_tests_cant": "2^32 to 2^128 bit patterns; lanes interact through bitwise selection.", "anchors": ["crates/wasm-smith/src/core/code_builder.rs: canonicalize_nan"]}
{"id": "C48", "title": "Section item round trip", "statement": "For every section that wasm-encoder's section builders (types, imports incl. compact groups, functions, tables, memories, tags, globals, exports, elements, data) make from items within wasmparser's limits, the section reader of wasmparser yields, in order, exactly one item per item added, each equal to it field by field (constant expressions: the same operators), and ends without a size mismatch; for a whole module of such sections the parser delivers these readers in order.", "quantifier": "for every list of items of every section kind, every constant expression, every module made of such sections and others, every feature set under which the items fit", "why_tests_cant": "The items nest (element segments of expressions, tables with initializers, compact imports) with flag bytes that depend on each other; a wrong flag combination is only visible for particular contents.", "anchors": ["crates/wasm-encoder/src/core/{imports,tables,memories,globals,tags,exports,elements,data}.rs", "crates/wasmparser/src/readers/core/{imports,tables,memories,globals,tags,exports,elements,data,init}.rs", "crates/wasmparser/src/readers.rs: SectionLimitedIntoIter::next"]}
{"id": "C49", "title": "Re-encoding function bodies and constant expressions", "statement": "With `Reencode` (default methods, index methods given by any eight renamings of index spaces), every operator, constant expression and function body that wasmparser can read is re-encoded successfully, and only those; reading the output gives the same locals and the same operators in the same order, with every index of a module entity (type, function, table, memory, global, tag, data, element) renamed in its own space and labels, local indices, field indices, counts and constants unchanged; open control frames at the end are the same. With identity renamings the operators are equal; re-encoding twice equals re-encoding once with the composed renaming, and an identity re-encoding of already re-encoded bytes gives the same bytes.", "quantifier": "for every byte sequence of a body, every feature set of the operator reader, every renaming of each of the eight index spaces that keeps the limits of the format (type indices below 2^20, memory/table 0 where the features admit no other)", "why_tests_cant": "There are over 600 operators with 26 kinds of index fields and non-canonical LEB128 input forms; a field mapped through the wrong index space is invisible to round-trip tests, where all maps are the identity.", "anchors": ["crates/wasm-encoder/src/reencode.rs: instruction, const_expr, parse_function_body, new_function_with_parsed_locals, block_type, mem_arg, catch, handle", "crates/wasmparser/src/readers/core/{operators,code,init}.rs", "crates/wasm-encoder/src/core/code.rs: Function::new, Function::instruction"]}
{"id": "C50", "title": "Name sections: round trip and re-encoding", "statement": "What is put into a name section with wasm-encoder's NameSection, NameMap and IndirectNameMap is what wasmparser's NameSectionReader yields. The re-encoder succeeds exactly on the sections in which wasmparser can read every name (below 2^32/5 bytes), and its output names, in the same order, the item to which each named item was mapped, with the same name; names of locals, labels and fields stay with their function or type and keep their own index; the module name and unknown subsections are unchanged. With identity maps the output says the same and re-encoding it again changes no byte; re-encoding twice is re-encoding once with composed maps.", "quantifier": "for every list of subsections of every kind with any names and indices, every byte sequence of a section, every renaming of the eight index spaces", "why_tests_cant": "Fourteen kinds of subsections with two formats and eight maps; a kind mapped through the wrong index space shows only when maps differ from the identity, sizes of headers only with long maps.", "anchors": ["crates/wasmparser/src/readers/core/names.rs", "crates/wasmparser/src/readers.rs: Subsections", "crates/wasm-encoder/src/core/names.rs", "crates/wasm-encoder/src/reencode.rs: custom_name_section, parse_custom_name_subsection, name_map, indirect_name_map"]}
{"id": "C51", "title": "Re-encoding the items of sections", "statement": "Every core section (types with rec groups and sub types, imports, functions, tables, memories, globals, exports, elements, data, tags) that wasmparser reads item by item is re-encoded by `Reencode` to a section of the same kind with the same count, exactly if also the names in its compact imports are readable; reading the output gives one by one, in order, the same items with every index renamed in its own index space, reference types and constant expressions inside included.", "quantifier": "for every byte sequence of a section, every section kind, every feature set of the reader, every renaming of the eight index spaces that keeps the limits of the format", "why_tests_cant": "Twelve item formats with flags, optional fields and three forms of imports and elements, non-canonical input encodings; maps mixed up between index spaces show only with different renamings.", "anchors": ["crates/wasm-encoder/src/reencode.rs: parse_type_section, parse_import_section, parse_table_section, parse_element_section, parse_data_section, func_type, sub_type, ref_type, heap_type, entity_type", "crates/wasmparser/src/readers/core/*.rs", "crates/wasm-encoder/src/core/*.rs"]}
{"id": "C52", "title": "Re-encoding whole core modules", "statement": "Whatever bytes `parse_core_module` re-encodes, the result is accepted by the parser (section order, counts, sizes) at any offset, and its payloads are one by one and in order those of the input with indices renamed: items of sections, locals and operators of function bodies, the start function, the names in the name section; counts, unknown sections and other custom sections are unchanged. A module that the parser accepts is re-encoded exactly if all its parts can be read.", "quantifier": "for every input, every offset, every feature set, every renaming of the eight index spaces that keeps the limits of the format (totality: inputs below 2^32/5 bytes)", "why_tests_cant": "The code section is read a second time from the original bytes by offset arithmetic, apart from the bodies the parser reports; sections occur in any combination with custom and unknown sections between them, with overlong sizes and counts.", "anchors": ["crates/wasm-encoder/src/reencode.rs: utils::parse_core_module, get_original_section, parse_custom_section, parse_code_section", "crates/wasmparser/src/parser.rs", "crates/wasm-encoder/src/core.rs: Module::section, Module::finish"]}
{"id": "C53", "title": "Constant expressions", "statement": "The validator accepts an expression as initial value of a global or table, as element or as offset of a segment only if its operators form a constant expression of the required type in the sense of the specification, functions in ref.func counting as declared; it changes nothing in the module but the set of declared functions, which grows by exactly these functions. With all features every constant expression is accepted. The assertion that ref.func never occurs after the module has been shared holds.", "quantifier": "for every byte sequence that is read as an expression, every feature set (without custom descriptors for soundness; the assertion with all features), every state of the module and every list of types built by the validator", "why_tests_cant": "Expressions have any length, the result depends on all types, globals and functions, and the assertion is a global argument about types: no expression of an integer type contains ref.func.", "anchors": ["crates/wasmparser/src/validator/core.rs: check_const_expr, VisitConstOperator, validate_global, insert_ref_func", "crates/wasmparser/src/readers/core/init.rs: ConstExpr"]}
{"id": "C54", "title": "Accepted modules are valid", "statement": "If Validator::validate_all accepts a byte sequence, then the bytes say a core module (the items that the section readers give, with all expressions and bodies as operators) and this module is valid in the sense of the specification: its types are well formed and their subtype declarations match, every index of a function, table, memory, global, tag, type, element or data segment is in range, limits are in range, initial values are constant expressions of the right type that use only earlier globals, export names are distinct, the start function takes and returns nothing, segments match their tables and memories, the data count is the number of data segments, functions used by ref.func in bodies are declared, there is one body per function and every body is well typed.", "quantifier": "for every byte sequence, every feature set without custom descriptors and shared-everything-threads, new validators and validators that have validated other modules before", "why_tests_cant": "Validity is a statement about all parts of a module together; unsound acceptance of one of infinitely many invalid modules is not found by checking modules one at a time.", "anchors": ["crates/wasmparser/src/validator.rs: validate_all, payload, type_section ... data_section, code_section_start, code_section_entry, end", "crates/wasmparser/src/validator/core.rs: Module, ModuleState", "crates/wasmparser/src/validator/func.rs: FuncToValidate::into_validator, FuncValidator::validate"]}
{"id": "C55", "title": "Validation does not panic", "statement": "Whatever bytes are parsed and validated, Validator::validate_all returns the types or an error: no unwrap, index, assertion or unreachable! in validator.rs, validator/core.rs and validator/operators.rs fails. In particular the module is never changed after it was shared with the function bodies, there is a function and a type for each body that the parser reports, types are never looked up outside of the list of types, and the stacks of the operator validator never underflow. A validator that is reused needs room for another million types; without it the claim is false (F6).", "quantifier": "for every byte sequence, well formed or not, every feature set (custom descriptors and shared-everything-threads included), new validators and reset validators with at most 2^20 - 10^6 types", "why_tests_cant": "Panics hide in combinations of sections, features and operators in unreachable code; the argument needs the parser (order and counts of sections), the reader of operators and the list of types together.", "anchors": ["crates/wasmparser/src/validator.rs: validate_all, payload and the methods per section", "crates/wasmparser/src/validator/core.rs: ModuleState, Module, MaybeOwned::assert_mut, next_code_index_and_type", "crates/wasmparser/src/validator/operators.rs", "crates/wasmparser/src/validator/func.rs"]}
{"id": "C56", "title": "Garbage collection of adapters keeps exactly what the exports need", "statement": "Module::liveness of an adapter module ends with exactly those types, tables, globals, memories and functions marked as live that can be reached from the exports through indices in definitions (types of functions, locals, operators, initial values, element types, types in types). It never runs out of work early or loops, and it succeeds whenever all that is reachable exists and can be read. The upper half holds for all modules; the lower half fails where a local, a global or the result of a block has a type with an index (F32), in which case run panics.", "quantifier": "for every adapter module, every list of exports, every operator sequence in bodies and initial values", "why_tests_cant": "A reference that is missed needs a module with just this kind of reference as the only path to an item; tests have a handful of adapters.", "anchors": ["crates/wit-component/src/gc.rs: Module::liveness, func, global, table, memory, ty, valty, heapty, operators, define_visit!, bitvec::BitVec", "crates/wit-component/src/gc.rs: run"]}
{"id": "C57", "title": "The collected adapter is a part of the adapter", "statement": "If gc::run returns a module, then it exports exactly the required names, and there is a renaming of indices, injective on the items that are kept, such that each kept type, function, global and memory of the adapter has at its new index a copy in which every index (in types, locals, operators, initial values, exports) is renamed; everything exported or referred to from a kept item is kept too, everything kept is needed by an export; and besides there are only helper functions, with the right types: the realloc import of the main module, realloc_via_memory_grow and allocate_stack. cabi_realloc imports of the main module are renamed to its realloc or replaced by realloc_via_memory_grow. Bodies of exported functions are preceded by nothing or by a call of allocate_stack.", "quantifier": "for every adapter module whose imports come first in their index spaces, every set of required exports, with or without a realloc of the main module", "why_tests_cant": "An index that is not renamed only matters if something with a lower index was removed; the helper functions shift the indices of all that is defined after them. Tests compare a few adapters with golden files.", "anchors": ["crates/wit-component/src/gc.rs: run, Module::encode, Encoder, Remap", "crates/wasm-encoder/src/reencode.rs"]}
{"id": "C58", "title": "Collected adapters allocate their stack", "statement": "If the adapter keeps a mutable i32 global named __stack_pointer, the collected module allocates a stack for it: with a realloc of the main module and a kept global named allocation_state every exported function first calls a function that does so lazily, otherwise a start function does so (if there is a memory); the function calls the realloc of the main module or realloc_via_memory_grow, and uses the two globals at their new indices. An adapter without stack pointer gets no start function and no calls.", "quantifier": "for every adapter module whose imports come first in their index spaces, every set of live items, with or without a realloc of the main module, that encode accepts", "why_tests_cant": "The old and the new index of a global agree unless an earlier global was removed, which the adapters of the test suite do not do; the claim is false in the code.", "anchors": ["crates/wit-component/src/gc.rs: Module::encode, find_mut_i32_global, add_realloc", "crates/wit-component/src/gc.rs: allocate_stack_via_realloc, realloc_via_memory_grow"]}
{"id": "C59", "title": "The helper functions of collected adapters do what they should", "statement": "Read back from the emitted bytes, allocate_stack calls realloc(0, 0, 8, 65536) and sets the stack pointer to the end of the result; with a state global it does so exactly if the state is 0, the state is 1 during the call and 2 afterwards, so that it allocates once even if realloc calls back. realloc_via_memory_grow returns the address of one new page if both old arguments are 0 and the new size is 65536, and traps otherwise or if the memory cannot grow.", "quantifier": "for all indices of the realloc function, the stack pointer and the state, all values of all globals, all behaviours of the called function, all arguments and memory sizes below 65536 pages", "why_tests_cant": "Tests compare the emitted text with golden files and run nothing; sizes, overflow and the reentrant call depend on the environment.", "anchors": ["crates/wit-component/src/gc.rs: realloc_via_memory_grow, allocate_stack_via_realloc"]}
{"id": "C60", "title": "Recursion groups that satisfy the rules are accepted", "statement": "Whatever a validator with garbage collected types has seen before, in this or other modules: a recursion group whose indices are in range, whose supertypes and described types come first, whose types match their non-final supertypes, are shared if they have to be, have well formed descriptor clauses and continuations, use enabled proposals only and have at most 63 supertypes above them, is added to a module with room for it, and the module gets one identifier per type; other modules keep theirs.", "quantifier": "for all feature sets with gc, all histories of modules and groups, all recursion groups, as long as the total stays within 2^20 types and the module within a million", "why_tests_cant": "A check that rejects too much shows only on the programs that need the rule; rules interact with all earlier modules through interning.", "anchors": ["crates/wasmparser/src/validator/core/canonical.rs: canonicalize_and_intern_rec_group, check_subtype, check_composite_type, check_descriptors", "crates/wasmparser/src/validator/types.rs: intern_canonical_rec_group"]}
{"id": "C61", "title": "Valid core modules are accepted", "statement": "If the bytes of a core module parse, contain no sections with unknown ids, and say a module that is valid by a declarative specification (types, imports, functions, tables, memories, tags, globals, exports, start function, element segments, data segments and function bodies), then Validator::validate_all with all features but custom descriptors accepts it, provided that the module keeps to the limits of limits.rs.", "quantifier": "for all byte strings, all modules, all contexts in which the module is valid and whose type identifiers are numbered in order of appearance, all outcomes of binary searches", "why_tests_cant": "A validator that rejects a rare combination of valid constructs passes every test that does not have this combination; the converse of soundness over all modules is not testable.", "anchors": ["crates/wasmparser/src/validator.rs: validate_all, payload", "crates/wasmparser/src/validator/core.rs: Module::add_types, add_import, add_export, add_element_segment, check_const_expr", "crates/wasmparser/src/validator/operators.rs", "crates/wasmparser/src/limits.rs"]}
{"id": "C62", "title": "The arity of an operator is what the validator does", "statement": "Whenever the function validator accepts an operator in an open block, Operator::operator_arity of that operator, computed on the state before it, returns Some((params, results)) and does not panic. In code that can be reached there are at least params operands in the innermost block. The operator takes params operands (as many as there are, in code that cannot be reached) and puts results operands in their place, and what is below stays; after br, br_table, return, throw, unreachable and the tail calls, results is 0 and the block is left with no operands. Counting the recorded pops and pushes as FuncValidator::validate does in debug builds gives the same two numbers.", "quantifier": "for all module resources and features, all states of the validator that come about while a function or constant is accepted (with op or try_op), all operators with all immediates", "why_tests_cant": "The table of arities in lib.rs, the custom rules in arity.rs and the visit methods in operators.rs are three descriptions of some 700 operators, parameterised by block types, labels, signatures, tags and continuations; a disagreement shows only for the operator, the immediate and the stack on which it happens, and only in debug builds as a panic.", "anchors": ["crates/wasmparser/src/arity.rs: operator_arity, sub_type_arity, block_type_arity, visit_*", "crates/wasmparser/src/lib.rs: for_each_operator (arity)", "crates/wasmparser/src/validator/func.rs: FuncValidator::validate (139-180)", "crates/wasmparser/src/validator/operators.rs: ModuleArity for WasmModuleResources, visit_*"]}
{"id": "C63", "title": "Kebab-case strings", "statement": "KebabStr::new (and KebabString::new) accepts a string exactly if it is a label of the component model: pieces of letters and digits separated by single dashes, the letters of a piece in one case, the first piece beginning with a letter. On labels == holds exactly if the strings agree up to the case of ASCII letters; labels write the same to a hasher exactly if they are ==; cmp is antisymmetric, transitive and equal exactly where == holds.", "quantifier": "for all strings (all characters)", "why_tests_cant": "The check is a state machine with four flags over unbounded strings, whose arms overlap and are taken in order; the smoke test has fourteen strings. Equality, hash and order are three hand-written implementations which IndexMap and IndexSet require to agree on all pairs and triples.", "anchors": ["crates/wasmparser/src/validator/names.rs: KebabStr::new, is_kebab_case, PartialEq, Ord, Hash", "crates/wasmparser/src/validator/names.rs: KebabString"]}
{"id": "C64", "title": "ComponentName::new accepts exactly the grammar of component names", "statement": "ComponentName::new_with_features accepts a string exactly if it is a label, [constructor]label, [method]label.label, [static]label.label, an interface path with optional version text, an unlocked or locked dependency, a URL with optional integrity, or an integrity hash, each as in the component model's grammar; the kind of the result is the one whose rule the string meets, and no string meets two of them.", "quantifier": "all strings, both settings of nested names, all notions of semantic version", "why_tests_cant": "The set of strings is infinite and the parser's branches interact (prefixes, delimiters that are searched for, repeated projections, white space in integrity lists).", "anchors": ["crates/wasmparser/src/validator/names.rs:294-308", "crates/wasmparser/src/validator/names.rs:545-940"]}
{"id": "C65", "title": "The accessors of component names return the parts of the name", "statement": "For every accepted name, ResourceFunc::resource/method and InterfaceName::namespace/package/interface/projection/version do not panic and return the parts from which the name is made up.", "quantifier": "all accepted method, static and interface names, all version suffixes", "why_tests_cant": "The accessors search for separators in the raw string and rely on where the parser admits those characters; one character class too many in any part breaks them.", "anchors": ["crates/wasmparser/src/validator/names.rs:477-541"]}
{"id": "C66", "title": "Equality of component names is strong uniqueness", "statement": "Two accepted names are equal exactly if they are not strongly unique (they clash); equality is an equivalence that agrees with the hash and with the order, which is total; hence the imports and the exports of a component are accepted exactly if each name may be used there and no two names clash.", "quantifier": "all pairs and triples of accepted names, all sequences of names", "why_tests_cant": "It is a statement about all pairs, triples and sequences; a hash set silently misses duplicates if any pair of equal names has different hashes.", "anchors": ["crates/wasmparser/src/validator/names.rs:338-462", "crates/wasmparser/src/validator/component.rs:4644-4747"]}
{"id": "C67", "title": "Core dump sections: readers accept exactly the tool-conventions grammar, builders are read back", "statement": "CoreDumpSection, CoreDumpModulesSection, CoreDumpInstancesSection and CoreDumpStackSection::new succeed with a value exactly if the whole section is an encoding of that value in the grammar of the core dump convention (no trailing bytes, any LEB padding); a custom section is known as one of them exactly if it has the name and meets the grammar; whatever the builders of wasm-encoder are given with sizes below 2^32 they write without panic so that it is read back unchanged; and everything that can be read can be built again.", "quantifier": "all byte strings and offsets, all process names, modules, instances, stacks and values", "why_tests_cant": "Padded numbers, nested vectors and the bit patterns of values give infinitely many encodings; tests cover four sections.", "anchors": ["crates/wasmparser/src/readers/core/coredumps.rs:24-290", "crates/wasmparser/src/readers/core/custom.rs:57-105", "crates/wasm-encoder/src/core/dump.rs:54-335"]}
{"id": "C68", "title": "Branch hints, linking and relocation sections are read exactly as in their grammars", "statement": "Reading all items of metadata.code.branch_hint, linking (version 2, with all items of all its subsections) and reloc.* gives a value exactly if the section is an encoding of it in the grammar; the relocated range of an entry is the offset and the width of its type's operand; what BranchHints and LinkingSection/SymbolTable of wasm-encoder write for hints 0 or 1 and symbols whose name and definition agree with their flags is read back unchanged.", "quantifier": "all byte strings, offsets, functions, hints, symbols and relocation entries", "why_tests_cant": "Presence of fields depends on combinations of 32 bit flags, subsections are nested twice, and every relocation type has its own shape.", "anchors": ["crates/wasmparser/src/readers/core/branch_hinting.rs:17-70", "crates/wasmparser/src/readers/core/linking.rs:52-460", "crates/wasmparser/src/readers/core/reloc.rs:16-310", "crates/wasm-encoder/src/core/branch_hints.rs:74-125", "crates/wasm-encoder/src/core/linking.rs:48-255"]}
{"id": "C69", "title": "dylink.0 sections are read exactly as in their grammar", "statement": "Iterating over Dylink0SectionReader gives a list of subsections exactly if the section is an encoding of it in the grammar of dynamic linking; what wast writes for (@dylink.0 ..) is read back as the same list of subsections.", "quantifier": "all byte strings and offsets, all lists of subsections", "why_tests_cant": "It is about rejecting everything else: the inputs that should be rejected are infinitely many.", "anchors": ["crates/wasmparser/src/readers/core/dylink0.rs:55-132", "crates/wasmparser/src/readers/core/custom.rs:57-105", "crates/wast/src/core/custom.rs:247-420"]}
{"id": "C70", "title": "Folded text is parsed back as the same instructions with the same branch hints", "statement": "Whatever wasmprinter prints for the operators of a function or constant expression, folded or not, is parsed by wast's expression parser into the same sequence of instructions, with each branch hint at the position of its instruction, up to the closing parenthesis after it. Folded printing succeeds exactly for well-nested operators without legacy exceptions and without hints on instructions other than plain ones and `if`. Instructions are put into another one as its operands exactly if they leave exactly the operands it takes.", "quantifier": "all sequences of operators, all arities (any function of module and control stack), all hints, whatever follows", "why_tests_cant": "Order is kept by the interplay of two stack machines (printer and parser) over arbitrarily nested blocks; a wrong arity or multi-value instruction changes the grouping, and it must not change the meaning.", "anchors": ["crates/wasmprinter/src/operator.rs:1495-1590", "crates/wasmprinter/src/operator.rs:1668-1953", "crates/wasmprinter/src/lib.rs:1594-1644", "crates/wast/src/core/expr.rs:103-481"]}
{"id": "C71", "title": "Every type use of a text module ends up with the first type of its signature", "statement": "Expansion of the type uses of a text module leaves each use that names a type alone and makes each other one (functions, imports, tags, indirect calls, block types that are not short) name the first `type` field of the result whose parameters and results are those written inline. The fields appended for this are exactly the signatures that are needed and not defined, each once, in the order of first use, as final function types without attributes. Definitions of the source keep their indices, identifiers of types stay unique, each identifier given to a use belongs to exactly one type index and the definition there has the signature of the use, and nothing else in the module changes.", "quantifier": "all lists of module fields, all values of the counter of generated identifiers", "why_tests_cant": "Indices of types depend on all uses before; a wrong order, a clash of generated identifiers or a use that is missed in one syntactic place silently changes the type of a function.", "anchors": ["crates/wast/src/core/resolve/types.rs:6-278", "crates/wast/src/gensym.rs:4-20"]}
{"id": "C72", "title": "An inline function type stands for a final function type without attributes", "statement": "A type use without an index is given a type that is a final, unshared function type without supertype, descriptor and described type, as the abbreviation of the text format says.", "quantifier": "all lists of module fields", "why_tests_cant": "It depends on all types of the module; the wrong choice shows only in subtype checks at run time.", "anchors": ["crates/wast/src/core/resolve/types.rs:50-64", "crates/wast/src/core/resolve/types.rs:206-229"]}
{"id": "C73", "title": "Names of text modules are resolved to the position of their declaration", "statement": "Resolution of a text module (after de-inlining) succeeds exactly if no import comes after a function, table, memory or global, no identifier is declared twice in an index space, structure or function, every reference stands for something declared, each inline type is that of the type named beside it, and labels after else and end are those of their block. The result is the module with its type uses expanded in which each identifier is replaced by the position of its declaration in its index space (locals: parameters first; fields: within the structure of the type named; labels: the number of blocks out to the innermost block with that label), and nothing else changes.", "quantifier": "all lists of module fields with arbitrarily nested blocks, all values of the counter of generated identifiers", "why_tests_cant": "There are many syntactic places for references and scopes of unbounded depth; one that is skipped, looked up in the wrong space or counted from the wrong end gives a valid module that does something else.", "anchors": ["crates/wast/src/core/resolve/names.rs:8-907", "crates/wast/src/names.rs:5-65", "crates/wast/src/core/resolve/mod.rs:22-60"]}
{"id": "C74", "title": "The number a name is resolved to is the index of the item in the binary", "statement": "In a module that text resolution accepts, the position of a declaration among those of its index space is the index it has in the binary that is written, where all imports come before all definitions.", "quantifier": "all lists of module fields, all index spaces", "why_tests_cant": "Fields can be mixed in any order; a kind of definition that is forgotten when the order of imports is checked makes names refer to other items only in modules that mix the two.", "anchors": ["crates/wast/src/core/resolve/mod.rs:34-49", "crates/wast/src/core/resolve/names.rs:86-129", "crates/wast/src/core/binary.rs:114-165"]}
{"id": "C75", "title": "Resolution of text modules does not panic", "statement": "On a module in which every generated identifier that is referred to is declared (as is the case after de-inlining), resolution returns a result or an error: after expansion each function, import, tag and indirect call has the type index that resolution unwraps, lookups of generated identifiers, whose failure is a panic, find them, and so does the comparison of inline types, which ignores errors.", "quantifier": "all lists of module fields, all values of the counter of generated identifiers", "why_tests_cant": "The panics depend on two passes agreeing on every syntactic place with a type use; a place that one pass misses is only hit by modules that use just that place.", "anchors": ["crates/wast/src/names.rs:43-65", "crates/wast/src/core/resolve/names.rs:269-293", "crates/wast/src/core/resolve/types.rs:6-278"]}
{"id": "C76", "title": "Inline imports, exports, data and elements mean the item they are written with", "statement": "De-inlining turns each function, memory, table, global and tag into its exports, the active segment with its inline contents at offset zero, and the item itself (an import if it has an inline import), in this order and all by the identifier of the item; memories with inline data have the least number of pages that holds it as minimum and maximum, tables with inline elements their number. An identifier is generated for exactly the items that are referred to this way and have none; generated identifiers clash neither with each other nor with those of the source, and no index changes. After resolution of the whole module each inline export has the index of the item it is written with.", "quantifier": "all lists of source fields with any number of exports", "why_tests_cant": "Generated names are shared by all passes and counted over the whole module; a clash or a forgotten kind of item makes an export refer to another item only in certain combinations.", "anchors": ["crates/wast/src/core/resolve/deinline_import_export.rs:6-239", "crates/wast/src/gensym.rs:4-20", "crates/wast/src/core/resolve/mod.rs:22-60"]}
{"id": "C77", "title": "The component-name section is read exactly by its grammar and written names are read back", "statement": "Reading all subsections of a component-name section with wasmparser and all name maps in them succeeds with a given result exactly if the bytes are derived by the grammar of the component model's binary format (subsection 0: one UTF-8 name and nothing else; subsection 1: a sort and a vector of index and name that fills the subsection; other ids and other sorts: any bytes). Whatever is written with ComponentNameSection and NameMap is read back as the same names of the same sorts.", "quantifier": "all byte strings and offsets; all lists of subsections with names of any length that the encoder does not reject", "why_tests_cant": "There are thirteen sorts with one or two bytes each and every size field is computed separately from what is written; a wrong size or sort shows only for that sort and for sizes at LEB128 boundaries.", "anchors": ["crates/wasmparser/src/readers/component/names.rs:1-100", "crates/wasm-encoder/src/component/names.rs:1-162", "crates/wasmparser/src/readers.rs:290-329"]}
{"id": "C78", "title": "Re-encoding a component-name section keeps what it says", "statement": "If a component-name section is re-encoded, then the result can be read and says the same with each index replaced by what the re-encoder maps it to in the index space of its sort; unknown subsections and names of unknown sorts are kept.", "quantifier": "all sections that can be re-encoded and all index maps", "why_tests_cant": "Names of sorts that the reader does not know do not occur in files made by the same version; thirteen index spaces need thirteen different maps to be told apart.", "anchors": ["crates/wasm-encoder/src/reencode/component.rs:1447-1513", "crates/wasmparser/src/readers/component/names.rs:60-99"]}
{"id": "C79", "title": "Versions are on one track exactly if they are compatible", "statement": "PackageName::version_compat_track gives two versions the same track, and version_compat_track_string the same string, exactly if the versions are semver compatible: they differ in build metadata only, or neither is a pre-release and their first nonzero number is the same. The track is compatible with the version.", "quantifier": "all pairs of versions, any numbers, pre-release and build strings", "why_tests_cant": "Compatibility is decided by the leftmost nonzero number and pre-releases; that two different tracks never print as the same string is a statement on all pairs of versions.", "anchors": ["crates/wit-parser/src/lib.rs:264-311", "crates/wit-parser/src/resolve/mod.rs:1286-1301"]}
{"id": "C80", "title": "Merging imports by semver replaces each outdated interface by its newest compatible version and nothing else goes", "statement": "Resolve::merge_world_imports_based_on_semver does not panic in its own loops. If it succeeds, an interface is replaced exactly if a compatible greater version of the same interface is imported, and then by the greatest; the imports that are gone are exactly those keyed by replaced interfaces; the others stay in order.", "quantifier": "all worlds with any number of imports and versions, any total order of versions", "why_tests_cant": "The maps are updated in the order of the imports, so an error can depend on the order of three or more versions of one interface or on imports under other names.", "anchors": ["crates/wit-parser/src/resolve/mod.rs:2398-2530", "crates/wit-parser/src/resolve/mod.rs:2570-2588"]}
{"id": "C81", "title": "Composition graphs stay consistent and calls do not panic", "statement": "Starting from an empty CompositionGraph, no sequence of add_component, remove_component, instantiate, remove_instance, connect and disconnect panics, and after each sequence: names and components correspond; the instances listed by components are the instances of the graph; connections join two different existing instances; there is no edge without a connection; the set of connected imports of an instance is the set of imports with a connection; each import has at most one argument.", "quantifier": "for all sequences of calls with all arguments, all outcomes of the type checks and all orders in which hash sets are visited", "why_tests_cant": "Tests call a few methods in sensible orders; the state space of interleaved additions, removals and connections is unbounded.", "anchors": ["crates/wasm-compose/src/graph.rs:705-733", "crates/wasm-compose/src/graph.rs:751-848", "crates/wasm-compose/src/graph.rs:856-938"]}
{"id": "C82", "title": "Calls change the connections of a composition graph as documented", "statement": "After any sequence of calls, connect adds exactly the given connection and is refused exactly if source and target are the same, one of them does not exist, the import is already connected or the types do not fit; disconnect removes exactly the given connection; remove_instance and remove_component remove exactly the connections of the instance or of the instances of the component; add_component and instantiate change none.", "quantifier": "for all sequences of calls, and all further calls with all arguments", "why_tests_cant": "Tests look at a few graphs; that no other connection is touched is a statement about all of them.", "anchors": ["crates/wasm-compose/src/graph.rs:751-848", "crates/wasm-compose/src/graph.rs:856-938", "crates/wasm-compose/src/graph.rs:945-1022"]}
{"id": "C83", "title": "Import module names are matched with the right interface", "statement": "module_to_interface returns, for the module name of a core import and the items of a world, the item of exactly this name if it is an interface; else the interface named at exactly this version if it is an item; else the first item that is a nominal clone of it; else the first item with the same namespace, package and interface name whose version is semver-compatible. It returns an error exactly if there is none of these, and does not panic.", "quantifier": "for all module names, all outcomes of parsing them, all resolves and all lists of items with distinct keys whose interfaces have packages and names", "why_tests_cant": "Tests have a few worlds with one or two versions each; order of preference matters when several candidates of different kinds are present in any order.", "anchors": ["crates/wit-component/src/validation.rs:2437-2540", "crates/wit-parser/src/lib.rs:277-292"]}
{"id": "C84", "title": "Linked libraries are instantiated in the order of their dependencies", "statement": "For libraries with distinct names, find_dependencies terminates without panic and maps each library to exactly those it depends on directly (needed libraries, exporters of imported functions) or by others; it returns an error exactly if an imported function has no exporter. topo_sort of this map terminates and lists every library exactly once, each after all libraries it depends on, except those that depend on it in turn. find_reachable returns exactly the libraries that are roots or that a root depends on.", "quantifier": "for all lists of libraries with any (also cyclic) dependencies, and all maps of exporters", "why_tests_cant": "Termination and order in the presence of arbitrary cycles are statements about all graphs; tests have a few libraries.", "anchors": ["crates/wit-component/src/linking.rs:1266-1301", "crates/wit-component/src/linking.rs:1305-1366", "crates/wit-component/src/linking.rs:1532-1559"]}
{"id": "C85", "title": "The lookup table of dlopen and dlsym is what they read", "statement": "The bytes DlOpenables::new builds, placed at memory_base, are at libraries_address a struct Libraries as declared by the dl library: a sorted array with exactly the libraries that can be opened, each with its name and a sorted array of exactly its exported functions and globals, each with its name; a function has as address table_base plus its position among the functions put in the table, and the address field of a global is in the list of addresses to be initialised.", "quantifier": "for all lists of libraries with all exports, all total orders of names and all base addresses such that addresses fit in 32 bits", "why_tests_cant": "Tests open a few libraries; offsets depend on the lengths of all names and the numbers of all exports before.", "anchors": ["crates/wit-component/src/linking.rs:70-180", "crates/wit-component/src/linking.rs:282-293", "crates/wit-component/src/linking.rs:961-976", "crates/wit-component/dl/src/lib.rs"]}
{"id": "C86", "title": "Linked libraries, stack, thread-local storage and heap do not overlap", "statement": "In the env module that wit-component makes for linked libraries, the stack, the lookup table of dlopen, the structures for thread-local storage, the memory of each library and the heap do not overlap and are inside the memory; the functions for dlsym, the table of each library and the exports of env do not overlap in the function table, are inside of it, and leave place 0 free; bases have the alignment the library asks for; each library with thread-local storage has its own slot, and __wasm_program_tls_info holds the count and both arrays; the function for the i-th export calls the i-th place.", "quantifier": "for all stack sizes, all lists of libraries with all sizes, alignments and uses of thread-local storage, all lookup tables, all numbers of exports, with and without overflow checks", "why_tests_cant": "Tests link a few small libraries; the offsets depend on sizes and alignments of all libraries before, and the overflow needs gigabytes.", "anchors": ["crates/wit-component/src/linking.rs:197-274", "crates/wit-component/src/linking.rs:437-623", "crates/wit-component/src/linking.rs:762-786"]}
{"id": "C87", "title": "dlopen and dlsym find the symbols of linked libraries and nothing else", "statement": "On the table that wit-component writes, once the addresses of variables have been put in their fields, dlopen with supported flags returns a handle that is not null exactly if a library with that name can be opened; dlsym with this handle returns, for a function the library exports, its index in the function table, for a variable its address, and null for all other names; no read is outside of the table.", "quantifier": "for all lists of libraries with all exports, all base addresses such that addresses fit in 32 bits, all addresses of variables, all names and flags", "why_tests_cant": "Binary search goes wrong only for particular numbers and orders of names; tests have a few symbols.", "anchors": ["crates/wit-component/dl/src/lib.rs:57-157", "crates/wit-component/src/linking.rs:70-180"]}
