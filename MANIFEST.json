{
 "claims": [
  {
   "property": "C01",
   "status": "proved",
   "theorems": [
    "Verif.Leb.c01_u32_exact",
    "Verif.Leb.c01_u64_exact",
    "Verif.Leb.c01_u32_errors",
    "Verif.Leb.c01_u64_errors"
   ],
   "note": "exact acceptance, value, consumption and classification of failures, against the specification grammar uN"
  },
  {
   "property": "C02",
   "status": "proved",
   "theorems": [
    "Verif.Leb.c02_i32_exact",
    "Verif.Leb.c02_i64_exact",
    "Verif.Leb.c02_i32_errors",
    "Verif.Leb.c02_i64_errors"
   ],
   "note": "against the specification grammar sN"
  },
  {
   "property": "C03",
   "status": "partial",
   "theorems": [
    "Verif.Leb.c03_s33_full_false",
    "Verif.Leb.c03_s33_exact_partial",
    "Verif.Leb.c03_s33_as_u32"
   ],
   "note": "false of the code for five-byte negative encodings (witness ff ff ff ff 7f); exact behaviour proved, and that the u32 conversion done by all callers is right"
  },
  {
   "property": "C04",
   "status": "proved",
   "theorems": [
    "Verif.Leb.c04_u32_roundtrip",
    "Verif.Leb.c04_u64_roundtrip",
    "Verif.Leb.c04_i32_roundtrip",
    "Verif.Leb.c04_i64_roundtrip",
    "Verif.Leb.c04_s33_roundtrip",
    "Verif.Leb.c04_unsigned_shortest",
    "Verif.Leb.c04_signed_shortest",
    "Verif.Leb.c04_sizes"
   ],
   "note": "s33 for the values wasm-encoder writes (u32 indices and small negatives); the leb128fmt loops are modelled from the crate's documentation"
  },
  {
   "property": "C05",
   "status": "proved",
   "theorems": [
    "Verif.Reader.c05_fixed",
    "Verif.Reader.c05_leb",
    "Verif.Reader.c05_strings_lists",
    "Verif.Reader.c05_sequencing",
    "Verif.Reader.c05_peek_no_panic",
    "Verif.Reader.c05_peek_bytes"
   ],
   "note": ""
  },
  {
   "property": "C06",
   "status": "proved",
   "theorems": [
    "Verif.Parser.c06_module_chunking",
    "Verif.Parser.c06_module_chunking_any",
    "Verif.Parser.c06_run_exists_unique"
   ],
   "note": "exact equality of payloads, consumed bytes and final error for every byte string not starting with the component preamble and every chunking; offsets assumed to fit in 64 bits"
  },
  {
   "property": "C07",
   "status": "partial",
   "theorems": [
    "Verif.Parser.c07_component_chunking_false",
    "Verif.Parser.c07_component_chunking_partial"
   ],
   "note": "false of the code for split component start sections (witness); holds for inputs without start section and for all streaming runs that succeed"
  },
  {
   "property": "C08",
   "status": "proved",
   "theorems": [
    "Verif.Parser.c08_progress",
    "Verif.Parser.c08_terminates",
    "Verif.Parser.c08_tiles",
    "Verif.Parser.c08_module_consumes_all",
    "Verif.Parser.c08_component_past_end_false"
   ],
   "note": "consumption of the whole input on success is proved for modules and refuted for components (nested module truncated at a section boundary)"
  },
  {
   "property": "C09",
   "status": "proved",
   "theorems": [
    "Verif.Parser.c09_order_sound",
    "Verif.Parser.c09_order_complete"
   ],
   "note": "for the streaming parser, which is where the order is enforced"
  },
  {
   "property": "C10",
   "status": "proved",
   "theorems": [
    "Verif.Framing.c10_roundtrip",
    "Verif.Framing.c10_roundtrip_chunked",
    "Verif.Framing.c10_encodes"
   ],
   "note": "sections with items carry opaque item bytes here; the items are the subject of later properties"
  },
  {
   "property": "C11",
   "status": "proved",
   "theorems": [
    "Verif.Types.c11_roundtrip",
    "Verif.Types.c11_heap_roundtrip",
    "Verif.Types.c11_too_large",
    "Verif.Types.c11_prefix_free"
   ],
   "note": "All value types; indices below 2^20 round trip, larger ones are rejected."
  },
  {
   "property": "C12",
   "status": "proved",
   "theorems": [
    "Verif.Types.c12_new",
    "Verif.Types.c12_injective",
    "Verif.Types.c12_eq_iff",
    "Verif.Types.c12_operations",
    "Verif.Types.c12_predicates"
   ],
   "note": "Bit-level model of the packed u32."
  },
  {
   "property": "C13",
   "status": "proved",
   "theorems": [
    "Verif.TypeList.c13_ref",
    "Verif.TypeList.c13_val",
    "Verif.TypeList.c13_order",
    "Verif.TypeList.c13_top",
    "Verif.TypeList.c13_related"
   ],
   "note": "For the list of types after any accepted history; the subtype tests equal the closure of the specification's axioms, and never stop early."
  },
  {
   "property": "C14",
   "status": "proved",
   "theorems": [
    "Verif.Instr.Props.c14_instr_roundtrip",
    "Verif.Instr.Props.c14_limits_needed"
   ],
   "note": "Verif/Instr/Props.lean. All opcodes of both tables, all immediates, all features; limits explicit in Spec.Fits, control frame in Spec.FrameOk; c14_limits_needed shows where it fails without them."
  },
  {
   "property": "C15",
   "status": "proved",
   "theorems": [
    "Verif.Instr.Props.c15_prefix_free",
    "Verif.Instr.Props.c15_ambiguous",
    "Verif.Instr.Props.c15_sequences",
    "Verif.Instr.Props.c15_limits",
    "Verif.Instr.Props.c15_read_back",
    "Verif.Instr.Props.c15_read_grammar"
   ],
   "note": "Verif/Instr/Props.lean. Without wasmparser's limits; Spec.Unambiguous excludes the two collisions proved in c15_ambiguous. c15_read_back/c15_read_grammar: the control stack of OperatorsReader accepts exactly the grammar Spec.Expr."
  },
  {
   "property": "C16",
   "status": "partial",
   "theorems": [
    "Verif.Op.Props.c16_sound",
    "Verif.Op.Props.c16_sound_partial",
    "Verif.Op.Props.c16_shared_table"
   ],
   "note": "From the bytes of a body to the typing rules of the specification, all operators except custom descriptors, any features, any module state reachable by the type section code. c16_sound: without the feature shared-everything-threads, which is off by default, there is no further condition. With it the property as stated is false: with a branch table on an operand of unknown sharedness in unreachable code an invalid function is accepted (c16_shared_table proves the negation on a concrete function); c16_sound_partial therefore assumes no br_table, or no shared references in function and block types."
  },
  {
   "property": "C17",
   "status": "proved",
   "theorems": [
    "Verif.Op.Props.c17_complete"
   ],
   "note": "From the typing rules to acceptance of the bytes, all operators, with all features but custom descriptors on, at most 50000 locals (limit of the implementation), no exact reference types (they belong to custom descriptors), at most 2^20 types in the validator."
  },
  {
   "property": "C18",
   "status": "proved",
   "theorems": [
    "Verif.Op.Props.try_op_atomic",
    "Verif.Op.Props.rollback_restores"
   ],
   "note": "All 627 operators, every state reachable by new_func/new_const_expr, define_locals, op and try_op (including states after failed op calls)."
  },
  {
   "property": "C19",
   "status": "proved",
   "theorems": [
    "Verif.Op.Props.locals_lookup"
   ],
   "note": "Any sequence of define calls, any index; binary search is any search that meets the contract of slice::binary_search_by_key."
  },
  {
   "property": "C20",
   "status": "proved",
   "theorems": [
    "Verif.Op.Props.local_get_iff"
   ],
   "note": "Any operators in any nesting; functions of at most 50000 parameters (a valid module has at most 1000)."
  },
  {
   "property": "C21",
   "status": "proved",
   "theorems": [
    "Verif.IndexMap.c21_refines"
   ],
   "note": "All public operations of the b-tree backed IndexMap (insert, swap_remove*, get*, get_mut as modify, entry API, extend, clear, iter). The BTreeMap inside is taken as the partial function it represents."
  },
  {
   "property": "C22",
   "status": "proved",
   "theorems": [
    "Verif.Snapshot.c22_refines"
   ],
   "note": "Histories over any number of lists, with the clones returned by commit as further lists; for every binary search with the documented behaviour. Panics are part of the equality."
  },
  {
   "property": "C23",
   "status": "proved",
   "theorems": [
    "Verif.TypeList.c23_ids",
    "Verif.TypeList.c23_types",
    "Verif.TypeList.c23_stable"
   ],
   "note": "Identifiers are equal iff the rolled up defined types of the specification are equal, across all modules of a validator."
  },
  {
   "property": "C24",
   "status": "proved",
   "theorems": [
    "Verif.Wat.Props.c24_str",
    "Verif.Wat.Props.c24_bytes",
    "Verif.Wat.Props.c24_identifier"
   ],
   "note": "Token::string and Token::id are modelled on the token's text. Total text below 2^32 bytes (token length is a u32)."
  },
  {
   "property": "C25",
   "status": "proved",
   "theorems": [
    "Verif.Wat.Props.c25_unique",
    "Verif.Wat.Props.c25_two_subsections"
   ],
   "note": "Within one name map, also with repeated indices. Across two subsections of the same kind it fails (F13), proved by witness."
  },
  {
   "property": "C26",
   "status": "proved",
   "theorems": [
    "Verif.Wat.Props.c26_tiles",
    "Verif.Wat.Props.c26_sources"
   ],
   "note": "Byte level model with slicing panics as explicit outcomes; texts below 2^32 bytes."
  },
  {
   "property": "C27",
   "status": "proved",
   "theorems": [
    "Verif.Wat.Props.c27_value",
    "Verif.Wat.Props.c27_signed",
    "Verif.Wat.Props.c27_unsigned",
    "Verif.Wat.Props.c27_printed",
    "Verif.Wat.Props.c27_v128"
   ],
   "note": ""
  },
  {
   "property": "C28",
   "status": "proved",
   "theorems": [
    "Verif.Float.Props.c28_f32",
    "Verif.Float.Props.c28_f64"
   ],
   "note": "Also shows that the printed text is one token in any context that ends the word. Decimal literals (std parse) play no role: the printer writes hex."
  },
  {
   "property": "C29",
   "status": "proved",
   "theorems": [
    "Verif.Abi.Props.c29_fill",
    "Verif.Abi.Props.c29_size_align",
    "Verif.Abi.Props.c29_field_offsets",
    "Verif.Abi.Props.c29_payload_offset"
   ],
   "note": "sizes are unbounded naturals (overflow only in the checked multiplications); value types as the component model has them (1-32 flags, no empty records)"
  },
  {
   "property": "C30",
   "status": "proved",
   "theorems": [
    "Verif.Abi.Props.c30_push_flat",
    "Verif.Abi.Props.c30_signature",
    "Verif.Abi.Props.c30_signature_32"
   ],
   "note": "first parameter of exported methods is typed as a pointer by design; equal to the ABI for 32-bit pointers"
  },
  {
   "property": "C31",
   "status": "proved",
   "theorems": [
    "Verif.Wave.Props.c31_char",
    "Verif.Wave.Props.c31_string"
   ],
   "note": "For every choice of characters escaped by escape_debug; the literal is also lexed as exactly one token."
  },
  {
   "property": "C32",
   "status": "proved",
   "theorems": [
    "Verif.Topo.Props.c32_succeeds_iff",
    "Verif.Topo.Props.c32_order",
    "Verif.Topo.Props.c32_order_unique",
    "Verif.Topo.Props.c32_missing",
    "Verif.Topo.Props.c32_cycle",
    "Verif.Topo.Props.c32_no_panic"
   ],
   "note": "For every dependency map with distinct keys. BinaryHeap::pop is trusted to return the maximum."
  },
  {
   "property": "C33",
   "status": "partial",
   "theorems": [
    "Verif.Peephole.Props.c33_partial",
    "Verif.Peephole.Props.c33_encode",
    "Verif.Peephole.Props.c33_mul_one",
    "Verif.Peephole.Props.c33_add_zero",
    "Verif.Peephole.Props.c33_commutes",
    "Verif.Peephole.Props.c33_not_eq_associates",
    "Verif.Peephole.Props.c33_not_add_zero",
    "Verif.Peephole.Props.c33_not_mul_one",
    "Verif.Peephole.Props.c33_not_or",
    "Verif.Peephole.Props.c33_not_select",
    "Verif.Peephole.Props.c33_not_or_same"
   ],
   "note": "The statement is false for some rules (witnesses in c33_not_*). Proved for all others, with rules that drop operands only if operands do not trap, rules that copy or move operands only if they have no side effects, and commutativity of float operators only if all NaNs are the same."
  },
  {
   "property": "C34",
   "status": "proved",
   "theorems": [
    "Verif.Smith.Props.c34_unsigned",
    "Verif.Smith.Props.c34_signed",
    "Verif.Smith.Props.c34_load",
    "Verif.Smith.Props.c34_store",
    "Verif.Smith.Props.c34_trunc",
    "Verif.Smith.Props.c34_memory_offset",
    "Verif.Smith.Props.c34_constants"
   ],
   "note": "All operands, memory sizes, page sizes and offsets that memory_offset can choose. The emitted instruction lists are parsed and executed with a semantics of core WebAssembly; the result is characterised, not only its type."
  },
  {
   "property": "C35",
   "status": "proved",
   "theorems": [
    "Verif.Smith.Props.c35_succeeds",
    "Verif.Smith.Props.c35_terminates",
    "Verif.Smith.Props.c35_preserves"
   ],
   "note": "Every call in an instrumented module ends, for every world, state and remaining fuel, with the number of calls, iterations and processed elements bounded by the fuel; calls of the original that end within the fuel are unchanged. 64-bit bulk lengths count modulo 2^32 as in the code."
  },
  {
   "property": "C36",
   "status": "proved",
   "theorems": [
    "Verif.Meta.Props.c36_merge",
    "Verif.Meta.Props.c36_merge_fields",
    "Verif.Meta.Props.c36_merge_names",
    "Verif.Meta.Props.c36_add",
    "Verif.Meta.Props.c36_get",
    "Verif.Meta.Props.c36_reach_wf",
    "Verif.Meta.Props.c36_roundtrip",
    "Verif.Meta.Props.c36_encodes",
    "Verif.Meta.Props.c36_other_field_unreadable",
    "Verif.Meta.Props.c36_long_unreadable"
   ],
   "note": "Names and versions of at most 100000 bytes: the reader skips values with the limited skip_string (F14, c36_long_unreadable). Other field names are accepted by add but unreadable (c36_other_field_unreadable)."
  },
  {
   "property": "C37",
   "status": "proved",
   "theorems": [
    "Verif.Shrink.Props.c37_result",
    "Verif.Shrink.Props.c37_smallest",
    "Verif.Shrink.Props.c37_last_notified",
    "Verif.Shrink.Props.c37_no_repeat",
    "Verif.Shrink.Props.c37_terminates",
    "Verif.Shrink.Props.c37_attempt_bounded",
    "Verif.Shrink.Props.c37_no_panic",
    "Verif.Shrink.Props.c37_debug_assert_witness",
    "Verif.Shrink.Props.c37_one_attempt_tries_nothing"
   ],
   "note": "For every stateful predicate, callback, mutation stream, coin flips and hash function. Assumes that valid Wasm has at least 8 bytes. The exceptional case of an 8 byte input with allow_empty is stated in c37_smallest; a debug assertion fails there (witness)."
  },
  {
   "property": "C38",
   "status": "proved",
   "theorems": [
    "Verif.Parser.c38_counts"
   ],
   "note": "acceptance direction; that consistent modules are accepted is part of C10"
  },
  {
   "property": "C39",
   "status": "proved",
   "theorems": [
    "Verif.Types.c39_subtype",
    "Verif.Types.c39_rec_group"
   ],
   "note": ""
  },
  {
   "property": "C40",
   "status": "proved",
   "theorems": [
    "Verif.Types.c40_reencode",
    "Verif.Types.c40_rename"
   ],
   "note": "Reencoder represented by its (total) type_index method."
  },
  {
   "property": "C41",
   "status": "proved",
   "theorems": [
    "Verif.TypeList.c41_declared",
    "Verif.TypeList.c41_ancestors",
    "Verif.TypeList.c41_depth"
   ],
   "note": ""
  },
  {
   "property": "C42",
   "status": "partial",
   "theorems": [
    "Verif.TypeList.c42_no_panic_partial",
    "Verif.TypeList.c42_false"
   ],
   "note": "False in general: with 2^20 or more types a self-referential group panics (finding F6). Proved while there is room for 2^20 types."
  },
  {
   "property": "C43",
   "status": "proved",
   "theorems": [
    "Verif.TypeList.c43_shared",
    "Verif.TypeList.c43_descriptors"
   ],
   "note": ""
  },
  {
   "property": "C44",
   "status": "proved",
   "theorems": [
    "Verif.Wave.Props.c44_round_trip",
    "Verif.Wave.Props.c44_injective",
    "Verif.Wave.Props.c44_reader_sound",
    "Verif.Wave.Props.c44_reread",
    "Verif.Wave.Props.c44_depth_needed"
   ],
   "note": "Float text conversion of the standard library is assumed to round trip (FloatsOk). FixedLengthList is not readable (F10)."
  },
  {
   "property": "C45",
   "status": "proved",
   "theorems": [
    "Verif.Wat.Props.c45_grammar",
    "Verif.Wat.Props.c45_standard",
    "Verif.Wat.Props.c45_relaxed"
   ],
   "note": "Repeated underscores in \\u{...} are the one relaxation (F12)."
  },
  {
   "property": "C46",
   "status": "partial",
   "theorems": [
    "Verif.Float.Props.c46_partial",
    "Verif.Float.Props.c46_hex",
    "Verif.Float.Props.c46_unique",
    "Verif.Float.Props.c46_false",
    "Verif.Float.Props.c46_exponent_false"
   ],
   "note": "False as stated (F11): the digit straddling the end of the integer type is dropped, and exponents outside i32 are rejected. c46_hex says exactly what is read for all literals with exponent at least -2^30 and below 2^26 characters; c46_partial is the claim for literals of at most 8 (f32) or 16 (f64) significant digits."
  },
  {
   "property": "C47",
   "status": "proved",
   "theorems": [
    "Verif.Smith.Props.c47_scalar",
    "Verif.Smith.Props.c47_vector",
    "Verif.Smith.Props.c47_deterministic"
   ],
   "note": "canonicalize_nan for f32, f64, f32x4, f64x2."
  },
  {
   "property": "C48",
   "status": "proved",
   "theorems": [
    "Verif.Items.c48_section",
    "Verif.Items.c48_module"
   ],
   "note": "Limits (strings of at most 100000 bytes, memory64 for sizes from 2^32, no end inside constant expressions) are in SectionFits; c48_limits_needed shows that an end inside a constant expression is refused."
  },
  {
   "property": "C49",
   "status": "proved",
   "theorems": [
    "Verif.Reenc.c49_instruction",
    "Verif.Reenc.c49_const",
    "Verif.Reenc.c49_body_iff",
    "Verif.Reenc.c49_body",
    "Verif.Reenc.c49_finish",
    "Verif.Reenc.c49_identity",
    "Verif.Reenc.c49_then",
    "Verif.Reenc.c49_stable"
   ],
   "note": "Index methods are total pure maps (in Rust they may fail or keep state). c49_maps_needed shows why the renaming has to keep memory 0 without multi-memory."
  },
  {
   "property": "C50",
   "status": "proved",
   "theorems": [
    "Verif.Names.c50_roundtrip",
    "Verif.Names.c50_unique",
    "Verif.Names.c50_reencode",
    "Verif.Names.c50_total",
    "Verif.Names.c50_identity",
    "Verif.Names.c50_compose",
    "Verif.Names.c50_long_local_unreadable",
    "Verif.Names.c50_long_function_readable"
   ],
   "note": "Limits are in Sub.Fits: UTF-8 names, module names and names of locals, labels and fields of at most 100000 bytes; the last two theorems are finding F29."
  },
  {
   "property": "C51",
   "status": "proved",
   "theorems": [
    "Verif.Remod.c51_section",
    "Verif.Remod.c51_section_iff",
    "Verif.Remod.c51_skipped_names"
   ],
   "note": "Readers yield all items before any is re-encoded; which error comes first is not modelled. The last theorem is part of finding F30."
  },
  {
   "property": "C52",
   "status": "proved",
   "theorems": [
    "Verif.Remod.c52_module",
    "Verif.Remod.c52_iff",
    "Verif.Remod.c52_name_section"
   ],
   "note": "The panics of Module::section for sections of 2^32 bytes or more are hypotheses (encodeModule = some). The last theorem is finding F30."
  },
  {
   "property": "C53",
   "status": "proved",
   "theorems": [
    "Verif.Valid.Props.c53_sound",
    "Verif.Valid.Props.c53_complete",
    "Verif.Valid.Props.c53_assertion"
   ],
   "note": "Through the operator validator of C16/C17: constant expressions are straight line code, so the condition of C16 on branch tables does not arise. c53_assertion holds for all features. Completeness with the flags fullFeatures (all but custom descriptors) and without exact reference types."
  },
  {
   "property": "C54",
   "status": "proved",
   "theorems": [
    "Verif.Valid.Props.c54_sound",
    "Verif.Valid.Props.c54_reused",
    "Verif.Valid.Props.c54_shared_partial",
    "Verif.Valid.Props.c54_exact_import"
   ],
   "note": "Against a separate specification of valid modules. c54_shared_partial: with shared-everything-threads on, bodies with branch tables over shared types are excepted (they can be ill typed, c16_shared_table). c54_exact_import: exact function imports are accepted with custom descriptors off (F31)."
  },
  {
   "property": "C55",
   "status": "proved",
   "theorems": [
    "Verif.Valid.Props.c55_new",
    "Verif.Valid.Props.c55_reused",
    "Verif.Valid.Props.c55_questions",
    "Verif.Valid.Props.c55_false"
   ],
   "note": "All features. c55_questions: for function bodies, the answers to questions about types for which the code would panic are not used. c55_false: a reused validator with more than 2^20 types panics."
  },
  {
   "property": "C56",
   "status": "partial",
   "theorems": [
    "Verif.Gc.c56_sound",
    "Verif.Gc.c56_exact_partial",
    "Verif.Gc.c56_total",
    "Verif.Gc.c56_fuel",
    "Verif.Gc.c56_false",
    "Verif.Gc.c56_panics",
    "Verif.Gc.c56_try_table"
   ],
   "note": "Only needed items are live for all modules (c56_sound); exactly the needed ones if no local, global or block result has a type with an index (c56_exact_partial); false otherwise (c56_false), where run panics (c56_panics)."
  },
  {
   "property": "C57",
   "status": "proved",
   "theorems": [
    "Verif.Gc.c57_encode",
    "Verif.Gc.c57_run"
   ],
   "note": "For every successful run of the modelled encode/run (Module::parse not modelled; its guarantees are the hypothesis Parsed). That run succeeds is not claimed: see C56, C58 and F35."
  },
  {
   "property": "C58",
   "status": "partial",
   "theorems": [
    "Verif.Gc.c58_partial",
    "Verif.Gc.c58_kept_partial",
    "Verif.Gc.c58_false",
    "Verif.Gc.c58_no_memory",
    "Verif.Gc.c58_ref_func",
    "Verif.Gc.c58_names"
   ],
   "note": "The claim is false: the indices of the globals are not renamed (c58_false, F33). c58_partial says what encode does, c58_kept_partial proves the claim if no global before the stack pointer and the state is removed. Further defects with witnesses: F34, F35, F36."
  },
  {
   "property": "C59",
   "status": "proved",
   "theorems": [
    "Verif.Gc.c59_stack",
    "Verif.Gc.c59_lazy",
    "Verif.Gc.c59_once",
    "Verif.Gc.c59_realloc"
   ],
   "note": "Bodies are read back with the model of the reader and run with a small semantics of the operators that occur."
  },
  {
   "property": "C60",
   "status": "proved",
   "theorems": [
    "Verif.TypeList.Accept.c60_accepts"
   ],
   "note": "Converse of C41/C43 for one group; gc enabled (without gc a group of several types or with supertypes is rejected by design)."
  },
  {
   "property": "C61",
   "status": "proved",
   "theorems": [
    "Verif.Valid.Props.c61_complete"
   ],
   "note": "Converse of C54, for a new validator. Within the limits of limits.rs, without exact types (custom descriptors off). The context numbers types in the order in which they appear, as the validator does."
  },
  {
   "property": "C62",
   "status": "proved",
   "theorems": [
    "Verif.Op.AritySpec.operator_arity",
    "Verif.Op.AritySpec.arity_of_log",
    "Verif.Op.AritySpec.height_of_arity"
   ],
   "note": "All operators, all features. The numbers are natural numbers (u32 in the code). The counting of debug builds is stated on the rollback log, in code that can be reached, where both logs record the same pops and pushes except for the operands thrown away at the end of a block, which are named apart."
  },
  {
   "property": "C63",
   "status": "proved",
   "theorems": [
    "Verif.CompName.Spec.kebab_new",
    "Verif.CompName.Spec.kebab_eq",
    "Verif.CompName.Spec.kebab_hash",
    "Verif.CompName.Spec.kebab_cmp"
   ],
   "note": "A hash is represented by the sequence of values written to the hasher, so equal sequences give equal hashes for every hasher."
  },
  {
   "property": "C64",
   "status": "proved",
   "theorems": [
    "Verif.CompName.Spec.name_new",
    "Verif.CompName.Spec.name_kind"
   ],
   "note": "Full grammar of ComponentName::new_with_features, both directions; semver is a parameter."
  },
  {
   "property": "C65",
   "status": "partial",
   "theorems": [
    "Verif.CompName.Spec.func_parts",
    "Verif.CompName.Spec.interface_parts_partial",
    "Verif.CompName.Spec.interface_parts_fails"
   ],
   "note": "False as stated (F39): package() panics and namespace() is wrong on accepted interface names with a colon in the version, such as a:b/c@1:0. Proved for all other names and for the other accessors."
  },
  {
   "property": "C66",
   "status": "partial",
   "theorems": [
    "Verif.CompName.Spec.eq_clash",
    "Verif.CompName.Spec.eq_hash",
    "Verif.CompName.Spec.eq_cmp",
    "Verif.CompName.Spec.eq_iff_clash_partial",
    "Verif.CompName.Spec.eq_iff_hash_partial",
    "Verif.CompName.Spec.eq_transitive_partial",
    "Verif.CompName.Spec.externs_unique_partial",
    "Verif.CompName.Spec.eq_iff_clash_fails",
    "Verif.CompName.Spec.eq_transitive_fails",
    "Verif.CompName.Spec.cmp_transitive_fails",
    "Verif.CompName.Spec.partial_cmp_agrees_fails",
    "Verif.CompName.Spec.externs_unique_fails"
   ],
   "note": "False as stated (F37, F38): methods, static functions and interfaces compare case-sensitively, the order is not transitive. Proved: equal names clash and hash alike for all names; clash iff equal iff same hash, and the uniqueness of accepted sequences, for names of methods, static functions and interfaces without capitals."
  },
  {
   "property": "C67",
   "status": "proved",
   "theorems": [
    "Verif.Custom.core_read",
    "Verif.Custom.modules_read",
    "Verif.Custom.instances_read",
    "Verif.Custom.stack_read",
    "Verif.Custom.known_core",
    "Verif.Custom.known_modules",
    "Verif.Custom.known_instances",
    "Verif.Custom.known_stack",
    "Verif.Custom.core_written",
    "Verif.Custom.modules_written",
    "Verif.Custom.instances_written",
    "Verif.Custom.stack_written",
    "Verif.Custom.core_again",
    "Verif.Custom.modules_again",
    "Verif.Custom.instances_again",
    "Verif.Custom.stack_again"
   ],
   "note": "Readers and builders of the four core dump sections, with an inductive grammar as specification."
  },
  {
   "property": "C68",
   "status": "proved",
   "theorems": [
    "Verif.Custom.hints_read",
    "Verif.Custom.linking_read",
    "Verif.Custom.relocs_read",
    "Verif.Custom.reloc_extent",
    "Verif.Custom.hints_written",
    "Verif.Custom.linking_written"
   ],
   "note": "Both directions of reading, all items collected; wasm-encoder has no builder for relocations."
  },
  {
   "property": "C69",
   "status": "partial",
   "theorems": [
    "Verif.Custom.dylink_read_partial",
    "Verif.Custom.dylink_complete",
    "Verif.Custom.dylink_exact_fails",
    "Verif.Custom.dylink_written"
   ],
   "note": "False as stated: bytes after the contents of a subsection are ignored (F41). Proved: exactly the grammar with such bytes; everything in the grammar is read; what wast writes is read back."
  },
  {
   "property": "C70",
   "status": "proved",
   "theorems": [
    "Verif.Fold.folded_print",
    "Verif.Fold.folded_parse",
    "Verif.Fold.folded_roundtrip",
    "Verif.Fold.flat_roundtrip",
    "Verif.Fold.folded_ok_iff",
    "Verif.Fold.folded_operands",
    "Verif.Fold.folded_if_possible"
   ],
   "note": "At the level of tokens; an instruction with its immediates is one token."
  },
  {
   "property": "C71",
   "status": "proved",
   "theorems": [
    "Verif.Expand.expand_expanded",
    "Verif.Expand.expand_ids_nodup",
    "Verif.Expand.expand_keeps_numbering",
    "Verif.Expand.expand_use_position",
    "Verif.Expand.expand_appends_nothing",
    "Verif.Expand.expand_compares_unresolved"
   ],
   "note": "Signatures are compared before identifiers are resolved (expand_compares_unresolved), so equal types may be defined twice."
  },
  {
   "property": "C72",
   "status": "partial",
   "theorems": [
    "Verif.Expand.expand_simple_partial",
    "Verif.Expand.expand_simple_fails"
   ],
   "note": "False in general: (type (sub (func))) (func) gives the function the open type. Proved for modules whose function types are all final and without attributes."
  },
  {
   "property": "C73",
   "status": "proved",
   "theorems": [
    "Verif.Resolve.process_iff",
    "Verif.Resolve.resolveModule_iff",
    "Verif.Resolve.denotes_unique"
   ],
   "note": "Modules after de-inlining of imports and exports; instructions are cut down to their references."
  },
  {
   "property": "C74",
   "status": "partial",
   "theorems": [
    "Verif.Resolve.numbering_partial",
    "Verif.Resolve.numbering_fails"
   ],
   "note": "False for tags: imports are accepted after tags, which are numbered before them but come after them in the binary. Proved for all other index spaces."
  },
  {
   "property": "C75",
   "status": "proved",
   "theorems": [
    "Verif.Resolve.resolve_no_panic",
    "Verif.Resolve.resolve_no_panic_compare",
    "Verif.Deinline.resolve_source_no_panic"
   ],
   "note": "resolve_source_no_panic is for modules as parsed, with de-inlining."
  },
  {
   "property": "C76",
   "status": "proved",
   "theorems": [
    "Verif.Deinline.run_iff",
    "Verif.Deinline.run_uniq",
    "Verif.Deinline.run_numbering",
    "Verif.Deinline.inline_export_index"
   ],
   "note": "Names of imports and contents of data are left out."
  },
  {
   "property": "C77",
   "status": "proved",
   "theorems": [
    "Verif.CompNames.names_exact",
    "Verif.CompNames.names_written",
    "Verif.CompNames.says_det"
   ],
   "note": "the reader, the builder and NameMap are modelled function by function; strings are their bytes"
  },
  {
   "property": "C78",
   "status": "partial",
   "theorems": [
    "Verif.CompNames.reencode_keeps_partial",
    "Verif.CompNames.reencode_keeps_fails"
   ],
   "note": "false for names of unknown sorts, whose sort byte is dropped (finding F46, witness proved); proved for all others"
  },
  {
   "property": "C79",
   "status": "proved",
   "theorems": [
    "Verif.Semver.track_iff",
    "Verif.Semver.trackString_iff",
    "Verif.Semver.track_mem"
   ],
   "note": "numbers of versions are unbounded; Display of semver::Version as documented"
  },
  {
   "property": "C80",
   "status": "partial",
   "theorems": [
    "Verif.Semver.merge_no_panic",
    "Verif.Semver.merge_keeps_partial",
    "Verif.Semver.merge_refused_iff",
    "Verif.Semver.merge_keeps_fails"
   ],
   "note": "false for imports of an interface under another name, which are dropped (finding F47, witness proved); everything else proved for any total order of versions and interfaces with unique ids"
  },
  {
   "property": "C81",
   "status": "partial",
   "theorems": [
    "Verif.Compose.always_sound_partial",
    "Verif.Compose.always_sound_fails"
   ],
   "note": "False because disconnect of instances that are not connected forgets that the import is connected (F48). Proved for sequences in which no import is disconnected from an instance while connected to another."
  },
  {
   "property": "C82",
   "status": "partial",
   "theorems": [
    "Verif.Compose.call_effect_partial",
    "Verif.Compose.connect_refused_iff_partial",
    "Verif.Compose.two_arguments"
   ],
   "note": "False for connect after such a disconnect: an import gets two arguments (two_arguments, F48). Proved for all other sequences."
  },
  {
   "property": "C83",
   "status": "proved",
   "theorems": [
    "Verif.Lookup.lookup_iff",
    "Verif.Lookup.lookup_refused_iff"
   ],
   "note": "parsing of names is a parameter; interfaces that are keys of a world have a package and a name"
  },
  {
   "property": "C84",
   "status": "proved",
   "theorems": [
    "Verif.Linking.dependencies_ok",
    "Verif.Linking.sort_ok",
    "Verif.Linking.reachable_iff"
   ],
   "note": "resolve_symbols, which makes the map of exporters, is a parameter"
  },
  {
   "property": "C85",
   "status": "partial",
   "theorems": [
    "Verif.DlTable.faithful_partial",
    "Verif.DlTable.faithful_fails"
   ],
   "note": "False for libraries that export tags, which are counted but not written (F49). Proved for all others."
  },
  {
   "property": "C86",
   "status": "partial",
   "theorems": [
    "Verif.LinkLayout.laid_out_partial",
    "Verif.LinkLayout.laid_out_unchecked_partial",
    "Verif.LinkLayout.laid_out_fails"
   ],
   "note": "False without overflow checks, where sizes wrap around (F50). Proved with overflow checks, and that without them the result is the same unless a check would fail."
  },
  {
   "property": "C87",
   "status": "partial",
   "theorems": [
    "Verif.DlSym.found_partial",
    "Verif.DlSym.found_fails"
   ],
   "note": "False for libraries that export tags (F49). Proved for all others."
  }
 ]
}