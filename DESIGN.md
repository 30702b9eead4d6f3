# Design

Target: `bytecodealliance/wasm-tools` (source in `/repo`, read as text).
Technique: pure functional models of individual functions in Lean 4, independent
small specifications, and theorems connecting the two, all checked by the Lean
kernel.

## Conventions

* One directory per area under `lean/Verif/`. `Model.lean` transcribes code
  (each definition cites file and lines and lists simplifications),
  `Spec.lean` states the independent specification, `Lemmas.lean` holds helper
  lemmas, `Props.lean` holds only the property theorems and, beside each, an
  `example` that instantiates its hypotheses on a concrete non-trivial case.
* `&mut self` methods return the new state. `Result` becomes `Except`; panics,
  `unwrap`, `assert!`, out-of-range indexing become explicit error values, and
  theorems prove that they are not reached where the property says so.
* Machine integers: where wrap-around or width matters, `BitVec`/`UIntN` or an
  explicit `% 2^n` on `Nat`; where the code is guarded against overflow by an
  explicit limit, `Nat` with the limit as part of the model.
* A theorem whose name ends in `_partial` covers a stated part of its property.

## Trusted base

* The Lean 4 kernel and the axioms `propext`, `Classical.choice`, `Quot.sound`
  (no others; no `native_decide`, `bv_decide`, `sorry`, user axioms).
* The transcription from Rust to Lean (by reading). Parts of the code that are
  not modelled are listed per property below.
* Rust std / third party crates used by the code (`leb128fmt`, `BTreeMap`,
  `indexmap`, `str`/`char` methods, allocation) are modelled by their documented
  behaviour, named where used.

## Plan per property

| id | model | proof idea |
|----|-------|-----------|
| C01–C03 | byte lists and the loop of each `read_var_*` with shift/position state, including the end-of-input and overflow errors | induction over the loop; equality with a declarative relation `IsLeb n bytes v`; s33: negation by a witness, positive part as `_partial` |
| C04 | the `leb128fmt` encoder loops | induction on the value; encoder output satisfies the declarative relation; uniqueness of shortest form |
| C05 | `BinaryReader` struct {buffer, position, offset} | per-primitive lemma: monotone position, extension-stable (success is unchanged by appending bytes, eof errors carry a sound lower bound) |
| C06–C08 | `Parser` state machine, sections as opaque payloads + header readers | simulation between chunked driver and whole-buffer driver, using C05 and idempotence of retries; component start: concrete counterexample |
| C09 | `Order` ranks and `update_order` | induction on the section list |
| C10 | `Module::section`, custom sections, `parse_all` | round trip by induction, using C04 |
| C11, C12 | packed u32 layout; byte codes of types | bit lemmas; case analysis |
| C13, C23, C41–C43 | `TypeList` with all checks of type definitions | invariant over histories; subtyping as reflexive transitive closure of the axioms |
| C14, C15 | `InstructionSink` and `visit_operator` with all opcodes, `OperatorsReader` | decoder table entry for each encoder table row by `rfl`, codec lemmas for immediates; control stack against the grammar of blocks |
| C16, C17 | operator validator as a state machine over flat operators | invariant between algorithmic stack with bottom types and declarative typing; induction over structured code |
| C18 | state + rollback log, primitive actions | every primitive logged action is inverted; induction over the trace of an operator |
| C19 | compressed groups + cache + binary search | invariant: compressed list expands to declared list |
| C20 | init bitmap with per-frame heights | refinement to a set-per-block specification |
| C21 | slots + key index | refinement to ordered association list |
| C22 | bucketed list | invariant: concat of buckets is the pushed list |
| C24–C28 | printer and lexer functions on characters/bytes | round trip by induction over the string/digits |
| C29, C30 | symbolic size arithmetic, flattening | induction over type structure against a direct canonical-ABI transcription |
| C31 | writer escape and `unescape` | per-character lemma + induction |
| C32 | states with outbound counts, heap as max extraction | invariant over loop iterations |
| C33 | all rules of `get_rules`, `expr2wasm` | congruence closure preserves types and meaning; `c33_partial`, six negations |
| C34 | instruction sequences interpreted by a small stack machine | symbolic execution lemma per emitted sequence |
| C35 | transformation on structured code + fuel semantics | potential argument: fuel decreases |
| C36 | nested ordered maps | ordered-map lemmas; encode/decode via C04 |
| C37 | shrink loop with arbitrary oracle streams | loop invariant |

## What is modelled so far

* **Reader** (C01–C05): `BinaryReader` primitives, all LEB128 loops, sizes, strings.
* **Parser** (C06–C09, C38): `Parser::parse` with its state machine, section headers,
  section readers, order checks and counts. Section contents are not decoded by the
  parser; they stay opaque.
* **Framing** (C10): `Module`, `Section`, `RawSection`, `CustomSection`, `CodeSection`,
  `StartSection`, `DataCountSection`. Items of counted sections are given as bytes.
* **Types** (C11, C12, C39, C40): the packed `RefType`/`PackedIndex` bits, every type
  reader up to `RecGroup::from_reader`, the encoder's writers, and the type conversions of
  the reencoder. Not modelled: `Display` impls, component types.

* **IndexMap** (C21): every operation of `collections/index_map/detail.rs` that changes or
  observes the map, as a history from `new`; the inner `BTreeMap` is a partial function.
* **Snapshot** (C22): `SnapshotList`, with `binary_search_by_key` as a parameter that has the
  documented contract (`Verif/Std/BinarySearch.lean`).
* **TypeList** (C13, C23, C41–C43): canonicalization, interning, subtype tests, structural
  matching and all checks on type definitions, for histories of any number of modules sharing
  one list. `Map`s are partial functions, `SnapshotList`s lists. The invariant describes the
  list by its canonical groups (`CGroup`); rolled up defined types are a separate inductive
  type. Feature flags are arbitrary. Not modelled: `add_types` of component type sections, the
  dead mode `OnlyIds`, error offsets, committing the list in between.

* **Topo** (C32): `toposort` loop by loop; the heap is a list whose maximum is popped. Dependency
  maps have distinct keys (an `IndexMap`).
* **Shrink** (C37): the whole of `wasm-shrink`'s `run`, against arbitrary predicates (stateful),
  mutation results, coin flips and hash functions (collisions allowed). Assumed: a valid Wasm has at
  least the eight bytes of the header.

* **Wave** (C31, C44): the WAVE lexer, parser, typed reader and writer on lists of characters.
  Regular expressions of the lexer are hand-written matchers with longest match. Floating point
  text conversion (`Display`/`FromStr` of `f32`, `f64`) and the set of characters escaped by
  `escape_debug` are parameters; the round trip of floats is an assumption (`FloatsOk`). Not
  modelled: functions (`UntypedFuncCall`), `FixedLengthList`, comments in between are skipped by
  the lexer as in the code.

* **Wat** (C24–C27, C45): the `wast` lexer on bytes, as in the code: every slice of the input is a
  partial operation whose failure is a panic. `Chars.lean` has the same lexer on characters,
  `Refine*.lean` prove the two equal, and `Grammar.lean` relates the second one to the
  grammar in `Spec.lean`. `memchr` is a search, `char::from_u32`, UTF-8 and integer parsing of the
  standard library are defined in `Std`/`Model`. The printer's escapes, identifiers and integer
  constants are modelled as text without colours.

* **Float** (C28, C46): `print_float!` of wasmprinter and the hex branch of `strtof` in wast on bit
  patterns as natural numbers with an explicit width. The meaning of a literal is a rational number,
  rounding is a declarative relation (`Rounds`). Decimal literals go to the standard library and are a
  parameter (`dec`). Literals are below 2^26 characters, exponents at least -2^30.

* **Meta** (C36): the producers section: ordered maps as lists of entries, the encoder, and
  `from_bytes` with the section iterators.
* **Abi** (C29, C30): `SizeAlign` and flattening on an arena of definitions (list of kinds). The
  specification is the Canonical ABI on trees, for pointers of 4 and 8 bytes; `Spec.unfold` gives
  the tree of an arena type. Sizes are unbounded naturals, `x & !(a-1)` is `x - (x &&& (a-1))`. The
  mixed case of `ArchitectureSize::max` rounds up to the pointer size and so is not a maximum; the
  proof shows that the final alignment of a variant absorbs it. The fuel of `pushFlat` bounds the depth.

**Smith** (wasm-smith). `Wasm.lean` is a semantics of core WebAssembly, independent of the generator: flat
instructions, structured code, `parse` between them, and a fuelled evaluator `exec`/`invoke` with values, locals,
globals, blocks, loops, branches, exceptions, (tail) calls and bulk instructions; floating point comparisons and
truncations are defined over ℚ from the bits. Everything else (memory contents, other instructions, host functions,
indirect targets) is a parameter `World`, so theorems hold for every behaviour of it. `ticks` counts calls of defined
functions, loop iterations and the length of bulk instructions. C35: `Terminate.lean` models `ensure_termination` line by line;
`c35_succeeds` (no panic on generated code), `c35_terminates` (for every budget left, state, world and
function the call ends, and the ticks are bounded by the fuel, exactly accounted unless there is a trap) and
`c35_preserves` (a call of the original that ends within the fuel ends in the same way).

C34: `NoTraps.lean` models `no_traps.rs` and `memory_offset`; for each of the sequences the theorem says that it evaluates
to a normal end for all operands, what the result is (the same as that of the plain instruction where that does not trap,
within the clamping limits for truncation), and that no local of the program, global or other part of the store
changes. Which instructions are generated at all with `disallow_traps` is not modelled (see F18). C47: `canonicalize_nan` for
scalars and vectors (`c47_scalar`, `c47_vector`).

**Peephole** (C33). All rules that `get_rules` adds when semantics are preserved, with their conditions, both with and
without `reduce`, and `expr2wasm` (children first, unfolded constants, spilling to new globals, random constants). An
expression is a tree; what `egg` does is the smallest congruence that contains the instances of rules on valid
expressions (`Rewrites`), so that any e-graph, any number of iterations and any extraction is covered. Operators that rules
do not mention are arbitrary functions of their operands and the state of the world (`Engine`), so that loads, calls etc.
are covered; hypotheses on them (type safe, pure, total) are explicit in `Good`. Floats follow the relations of the WebAssembly
specification (`FMul`, `FAdd`: nondeterministic NaNs, rounding of the exact result, signed zeros). Not modelled: the data
flow graph that finds expressions in code (see F21) and which subtrees are eligible.

**Instr** (C14, C15). The two opcode tables were transcribed by a script from instructions.rs and binary_reader.rs (every row
carries the line of its source); names are grouped by the kind of immediates (`Names.lean`), all else is written by hand.
`Spec.Corr` relates instructions and operators by name and field, `Spec.accessBits` gives the width of each access
independently of the tables. C14 covers all features; C15 is proved on the encodings, without limits and without the decoder's
limits, except that probing the decoder's tables with zeros is used inside the proof to see that opcodes differ.
`c15_read_back` and `c15_read_grammar` say that the control stack of `OperatorsReader` accepts exactly `instr* end`.
Not modelled: other visitors than the one that builds `Operator`s.

**Op** (C18–C20; validator/operators.rs, validator/operators/simd.rs, validator/operators/transaction.rs,
validator/func.rs): the whole operator validator. `Op/Locals` is the compressed store of local types with its
cache and binary search (any algorithm that finds what is there, `BSearch`), `Op/Model` the state (operands,
frames, `LocalInits`, transaction log) and the helper methods, `Op/Visit` one function per `visit_*` method
(627 operators; the tables of simple operators are generated from the Rust text), `Op/Gate` the feature checks in
front of every operator, `op`, `try_op` with its rollback, `new_func`, `new_const_expr`, `define_locals`. The module
(`WasmModuleResources`) is a record of functions, `Resources`. Errors carry no message or offset; an index out of
bounds, `unwrap` etc. are `.panic`. A computation changes the state also when it fails, as the Rust code does.
C19 `locals_lookup`: the store against the plain list. C18 `try_op_atomic`, `rollback_restores`: for every
state reachable by any sequence of calls. C20 `local_get_iff`: acceptance of `local.get` against sets of
initialized locals per open block.

C16 and C17 (`Op/TypingProps`) relate `FuncValidator::validate` on bytes to the typing rules of the specification
(`Op/TypingSpec`: instruction types, composition, frame, subsumption; nothing computed). The chain is: `Op/Body` models
`read_locals` and the loop of `validate`; `validate_iff` splits it into reading (`Parsed`, which knows no types) and running
the operator validator on lists; `Op/Kinds` shows that the frames of the validator are those of `OperatorsReader`, so that code
is well nested (the validator itself does not check what kind of frame an `else` or `catch` is in); `Op/View*`,
`Op/VisitOk*` describe every `visit_*` method as a relation on the operands of the innermost frame; `Op/Conc`,
`Op/TypingSound`, `Op/SoundBlock`, `Op/SoundFn` go from runs to derivations, `Op/TypingComplete`, `Op/CompleteFn` back. An
operand of unknown type stands for all types below it (`VT.bot`, `VT.refBot`), so that soundness keeps the whole set of
possible types and chooses later. `Op/Mono` reduces fewer features to all. `Op/Module*` give the answers of
`WasmModuleResources` from a module and the list of types of C13/C23 (`faithful_of`). The type rules cover every
proposal except custom descriptors; hence the features leave it out and C17 excludes exact reference types. C17 is for all
other features on (what is enabled is C16's concern only), and the 50000 locals are the limit of the implementation.
C16 is false in one case, F8 (`c16_shared_table`), so `c16_sound_partial` has a hypothesis on branch tables. Without the
feature shared-everything-threads there is none (`c16_sound`): then no type in the list and no block type has a shared
reference. For this the invariant of the list of types records the features its types need (`RefFeats` to `SubFeats`).

**Items** (C48). `Items/Model` has wasmparser's readers for the items of all sections of a core module with items,
`Items/EncModel` wasm-encoder's section builders, `Items/Spec` the correspondence item by item. A constant expression is a reader
on one side and bytes on the other; they correspond if reading the operators gives those of the instructions the bytes were
made from. Lazily read lists (compact imports, elements of segments) are compared by what iterating yields. The only
change in a round trip is that an active segment for table `None` with an element type other than `funcref` comes back
with `Some(0)` (`TableIndexIs`), which the encoder documents.

**Re-encoding of code** (C49). `Reenc/Model` has `instruction`, `const_expr`, `parse_function_body` of
wasm-encoder/reencode.rs with the tables of field names from which the macro `translate!` picks the map; a reencoder is its
eight index methods. `Reenc/Spec` gives each immediate its index space by instruction, without field names. `Reenc/Twin` and
`Reenc/Ops`: what a reader consumed once it consumes anywhere, and the operators correspond to one instruction within the
limits. `Reenc/Steps`: sequences of operators in bytes apart from any reader, from and to which all loops are related.
`Reenc/End`: only 0x0B is read as `end`, hence the test `is_end_then_eof` of `const_expr` stops at the right byte.

**Name sections** (C50). `Names/Model` has wasmparser's `Name`, `Naming`, `IndirectNaming`, `Subsections`, wasm-encoder's
`NameSection`, `NameMap`, `IndirectNameMap` and the re-encoder's name functions. `Names/Spec`: what a section says, once every
nested map in it is read (`skip_string` does not check UTF-8, so that a map may be found and its names still be unreadable).
`Names/Size` bounds the output by five times the input, from which the panics of `usize::encode` are excluded.

**Re-encoding of sections and modules** (C51, C52). `Remod/Model` has the functions of reencode.rs for the items of all twelve
sections (types, imports, tables, elements, data, ...), `Remod/Module` has `parse_core_module`. `Remod/Spec`: which item is the
renaming of which, by index space; constant expressions by their operators. `Remod/Sections`: a section read from any bytes is
re-encoded and read back. `Remod/Run` splits the run of the parser on a module into sections, the code section together with its
bodies, and shows that the second reading of the code section by the re-encoder gives the bodies that the parser reports;
`Remod/ModuleLemmas` shows that the new sections are in order and their counts agree (C09, C38), so that C10 applies.

**Validation of modules** (C53, C54, C55). `Valid/Model` has validator.rs and validator/core.rs for core modules: the checks of types of
items, `add_import` ... `add_element_segment`, `check_const_expr`, the methods of `Validator` per payload, `validate_all`. It
connects the readers of `Items`, the list of types of `TypeList` and the operator validator of `Op`. `listOf` decodes the packed
types in the list (`Valid/ListOf`: it is the abstract list of C23). `Valid/ConstSpec`: constant expressions of the specification.
`Valid/Const`: the loop of `check_const_expr` against the typing rules, operator by operator, through the soundness lemma for
operators of C16; the module grows while the loop runs, so typing is shown monotone in the context (`Valid/Mono`).
`ConstTy.no_refFunc`: an expression of a numeric type has no `ref.func`, since every constant operator that takes a reference
makes one. `c53_assertion` is shown for all features, without the typing rules: `Valid/CalmFlag` follows the operand stack.

`Valid/ModSpec` says what a module in the binary format says (`Says`: the items of each section, expressions and bodies as lists
of operators) and when a module is valid (`ModuleOk`, after section 3.5 of the specification; function bodies by the typing rules
of C16). `Valid/Along` turns the run over the payloads into one step per section id, in order, present or not; `Valid/Sections`
and `Valid/Loops` treat the loops over items (imports in their three encodings, tables, globals, exports, elements, data);
`Valid/TypesSec` connects the type section with histories of the list of types (C23), so a module may share the list with
earlier modules; `Valid/Whole` and `Valid/Compose` put the sections together: facts established when a section was read must
still hold in the final module, which has more functions, globals and declared references. `Valid/Room`: a new validator ends
with at most 10^6 types, so the packed indices cannot overflow. `Valid/Final`: counts of functions, bodies and data segments
agree because the parser checks them (C38), and the bodies are validated against the module as it was when the code section
started, which is the final module up to nothing that bodies can see. Shared-everything-threads has to be off because of F8
(`c16_shared_table`); otherwise `c54_shared_partial`. Not modelled: components, and the `types` of exports and imports
other than their sizes.

**No panics** (C55). Panics of validator.rs, validator/core.rs and validator/operators.rs are explicit in `Op` and `Valid`
(`Fail.panic`: `unwrap`, `expect`, indexing, `assert!`, `unreachable!`). `Op/Calm*` defines the invariant of the operator validator
(`Wf`: frames nest, all type ids in operands, frames and locals are in the list, the function frame is no `try`) and shows for
every operator that it is kept and that no panic occurs, under facts about the module (`Fine`). Along with it each lemma says that the
result is the same for any other answers to questions on type ids outside the list (`alt`), since the model makes
`is_subtype` and so on total there: `c55_questions` says that these answers do not matter for bodies. Shown alongside for the
readers: operators that are read have only module indices (`visitOperator_modular`), and the reader stops at the `end` of the
function (`visitOperator_consumes`), without which `op` can panic (F23). `Valid/CalmFine` derives `Fine` from the history of
the list; `Valid/CalmItems`, `CalmConst`, `CalmAdd`, `CalmTypes`: one lemma per function of core.rs; `Valid/CalmRun`: the
invariant that relates the parser and the validator (what `assert_mut`, `next_code_index_and_type` and the `unwrap` of the snapshot
need: sections in order, as many bodies as functions, checked by the parser before the first body). Outside of the claim: arithmetic of
`usize` (all numbers are bounded by the limits), memory, and the slices in the readers (C01, C08). `resetInits` in the
model ignores an index out of bounds, which `Wf` excludes.

**Garbage collection of adapters** (C56). `Gc/Model` follows crates/wit-component/src/gc.rs from the parsed module on: the bit
vector, the worklist, the visitor of operators, the remapping of indices, `encode` with the functions that allocate a stack, and `run`.
Panics are explicit. `Gc/Spec` says what refers to what (`Refs`, from the operators that a reader of the body gets, with the index
spaces of `Reenc/Spec`) and what the exports need (`Reach`). `Gc/LiveLemmas`: bit vectors are sets, and each visitor
method marks the references of the operator and queues what it marks; `Gc/Loop`: invariant (what is live is reachable, what is live and
not queued has been visited) and the measure of the loop. Left out: `Module::parse`, the producers section, and that
`HashMap`s are more than lists of pairs.

What `encode` returns is related to the adapter by `Part` in `Gc/EncSpec` (C57): a renaming that is injective on live items,
a renamed copy of each live item at its new place (bodies and initial values are compared as operators that a reader gets),
exports live, references of live items live, nothing else but helper functions with their types. `Gc/Agree` and `Gc/Maps`: remapping
that cannot fail is the pure renaming of `Reenc`; `Gc/Folds`: the loops of `encode`; `Gc/Shape`: all steps composed; `Gc/Prologue`: the call
put before bodies; `Gc/Part`: from lists to `Part`; `Gc/RunLemmas`: `swap_remove` of the exports that are not required.
The hypotheses of `Parsed` are what `Module::parse` guarantees for imports and initial values, plus index spaces below 2^32.

**The stack of collected adapters** (C58, C59). `Gc/StackSpec` says who has to allocate the stack (`Stack`: exported functions or the
start function, with which `cabi_realloc`, for which globals). That is false (`c58_false`, F33); `c58_partial` says what happens
instead and `c58_kept_partial` proves it if no global before the two in question is removed. `Gc/ExecSpec` is the small part of
the semantics of WebAssembly that the helper functions need; C59 reads the emitted bytes back (`Does`) and runs them in any
environment. Values are `i32` only, called functions have the type of `cabi_realloc` and are arbitrary (`Host.call`).

**Groups that are accepted** (C60). C41 and C43 say that what the validator puts on its list is well formed; a validator that
rejects everything satisfies them. `TypeList/AcceptSpec` states the rules for one recursion group over the list with the group at its
end (`Addable`), and `TypeList/AcceptLemmas` walks `addTypes` forward: every `require`, `unwrap` and `assert` on the way holds.
The rules need not be changed if the group is on the list already, since the interned copy is then used without further checks.

**Modules that are accepted** (C61). The converse of C54. `Valid/AllSpec` collects what is asked for beyond validity: the limits of
limits.rs (`Fits`; the size of the type of a module is counted there as in `EntityType::info`), no exact types, and identifiers of
types in the order in which they appear (`Numbered`; any choice of identifiers describes the same module). `AllNarrow` shows that
subtyping between the first types does not depend on later ones, so that the rules, which are stated for the whole module, can be
used while the type section is half read (`AllTypes`, by C60). `AllItems`, `AllSecs` and `AllLoops` walk the items forward with one
relation (`At`: the state has the first items of the context), `AllRun` turns a sequence of sections into a run over the payloads,
and `AllDone` puts them together with C17 (bodies) and C53 (constant expressions).

**Arity** (C62). `Op/Arity` is arity.rs with the arities of the table in lib.rs. `Op/AritySpec` says what it means to take and to
leave operands, in terms of the operands before and after. `ArityLemmas` counts what the helpers of the validator do (`Eff`, found by
instance search for the some 140 methods with fixed numbers in `ArityHelp`), `ArityVisit` and `ArityOps` those whose numbers depend on
types and labels (`Agr`), and `ArityCtrl` the operators that open and close blocks, for which frames have to be known to be nested.
An `if` without `else` only balances because its parameters are as many as its results.

**CompName** (C63–C66). `validator/names.rs`: `KebabStr` with its state machine, equality, order and
hash, on strings of arbitrary characters; the whole parser of `ComponentName`, the accessors of
`ResourceFunc` and `InterfaceName`, equality, order and hash of names; of `validator/component.rs` what
`validate_extern` does to names. `Spec.lean` gives the grammar of labels by splitting at
dashes, equality up to case as a relation on characters, the grammar of names as inductive rules, and
clashing names (those that are not strongly unique) as a relation on strings. Semantic versions are a
parameter (any predicate). C64: `newName_iff`, each parsing function is proved sound and complete for
its part of the grammar. C65 and C66 are false as stated (F37–F39), the rest is proved: C65 for names
without a colon in the version, C66 for methods, static functions and interfaces without
capitals (plain labels and constructors may have them). Not modelled: the types of
imports and exports (parameter `fits`), `implements` and version suffixes in `validate_extern`.

**Custom** (C67–C69). The custom sections of core dumps, branch hints, object files (`linking`, `reloc.*`) and dynamic libraries
(`dylink.0`): the readers in `readers/core/*`, the builders of wasm-encoder and, for `dylink.0`, `to_section` of wast. `Exact f G` in
`Exact.lean` says that a reader succeeds exactly on the strings that begin with a string of the grammar `G`; it composes along
`do`, so each reader is compared with its grammar by one lemma. `Rel.lean` does this for lazy readers
(`SectionLimited`, subsections), where what is returned first is a reader and the items appear later: the specification is about all
items collected. Simplifications: names of known sections other than these are left out of `asKnown`, ranges of
unknown subsections are not compared. C69 is false as stated (F41).

**Fold** (C70). `PrintOperatorFolded` of wasmprinter with its control stack, and `ExpressionParser` of wast with its levels, both at the
level of tokens (the text of an instruction with its immediates is one token, as is the annotation of a branch hint). `Spec.lean` gives
the folded instructions of the text format and the sequences they stand for as a grammar (`Folded`), and well-nested sequences
(`Nested`). The printer is proved to print only `Folded` text for the operators it was given, for any arities, since these only
matter for the grouping (`folded_operands`, `folded_if_possible`); the parser is proved to accept all `Folded` text. Arities are compared
with the validator in C62. White space and comments are not modelled.

**Expand** (C71, C72). The pass of wast that gives type uses their index (`resolve/types.rs`), over all module fields and with instructions
cut down to what they refer to. `Spec.lean` relates the module before and after, field by field, without the expander (`Expanded`); the
hash map is a list whose first entry counts. The proof carries the invariant that looking up a signature finds the first definition with
it among those of the module and those appended so far. De-inlining of imports and exports happens before and is not part of it; the
identifiers it generates are below the counter the pass starts with, which is the hypothesis of `expand_ids_nodup`.

**Resolve** (C73–C75). Name resolution of wast (`resolve/names.rs`, `names.rs`, the order check of `resolve/mod.rs`), over the same fields
as Expand. `Spec.lean` says what a resolved module is without the resolver: lists of declared identifiers, positions in them, and one
inductive relation per syntactic class. The theorems are equivalences, so they also say which modules are rejected (but not with which
error). Hash maps are lists, the `u32` counters do not wrap, spans and `dst`/`src` defaults of the parser are not there. In C74 the
binary index space is the imports followed by the definitions, which is the order of the sections that `binary.rs` writes.
For C75 `Known.lean` says in which places which identifiers occur; panics are the `unwrap` of the index of a type use and `resolve_error`
on generated identifiers. A panic inside the comparison of inline types would be dropped by the model, hence the second theorem.

**Deinline** (C76, part of C75). The pass of wast that takes inline imports, exports, data and elements apart
(`deinline_import_export.rs`), in front of Expand and Resolve, so that `resolveSource` is the whole of `resolve`. `Spec.lean` lists what
each form is short for (`Core`, `Block`, `Deinlined`), and `run_iff` says that this has one solution, the output of the pass. The last
theorem goes through all three passes.

**CompNames** (C77, C78). The `component-name` section: `ComponentName::from_reader`, `ComponentNameSection` and
`custom_component_name_section` of the re-encoder; the iteration over subsections, name maps and `NameMap` are those of Custom and Names.
The grammar in `Spec.lean` is that of Binary.md, with `tag` among the core sorts. `names_exact` gives both soundness and completeness of
the reader; the functions of the re-encoder that map indices are pure and total. Re-encoding is partial: false for unknown sorts (F46).

**Semver** (C79, C80). `version_compat_track`, its string, `semver_track` and the loops of `merge_world_imports_based_on_semver` up to
the new imports. Arenas are functions; the order of versions of the crate `semver` is any total order, hash maps and sets are functions
and lists without duplicates. `merge_world_item` is a parameter (it decides whether merging is refused); rewriting of types, the exports
and `elaborate_world` are not modelled. `Distinct` (one id for each interface and version) is an invariant of `Resolve` for
interfaces that are no clones. C80 is partial: false for imports under other names (F47).

**Composition graphs (C81, C82; `Verif/Compose`).** The calls of wasm-compose that change a `CompositionGraph` (`add_component`, `remove_component`,
`instantiate`, `remove_instance`, `connect`, `disconnect`; `graph.rs:705-938`), with `validate_connection`, are modelled as steps on names, components,
instances and edges, all `assert!`, `unwrap` and index expressions being explicit panics. Whether indices exist and types agree is an arbitrary
Boolean of the call; the order in which the hash set of instances is visited is arbitrary. By induction over all sequences of calls: no panic, names
and components agree, edges join existing instances, none is empty, `connected` is what the edges say, and each import has at most one argument
(C81); each call changes the set of connections as documented and `connect` is refused for the documented reasons only (C82). Both are false in
general because of `disconnect` (F48), and proved for sequences in which no import is disconnected from one instance while connected to another.
The resource mapping, overflow of the counters for ids, and `instantiation_order` are left out.

**Interfaces of core modules (C83; `Verif/Lookup`).** `Legacy::module_to_interface` (`wit-component/src/validation.rs:2437-2540`), by which the import module
names of a core module are matched with the imports of its world, with its four searches (bare name, exact version, nominal clone, compatible version).
The specification `Found` is a relation that says which item is meant and in which order of preference, with compatibility of versions from C79's
specification and "first" as a decomposition of the list. Parsing of the name is an arbitrary function. Assumed: keys of the world are distinct
(an `IndexMap`), and interfaces that are keys have a package and a name; without the latter the `unwrap`s panic.

**Linked libraries (C84; `Verif/Linking`).** `find_dependencies`, `topo_add`, `topo_sort` and `find_reachable` of `wit-component/src/linking.rs`. The
fixpoint loop and the recursion, which nothing in the source bounds, have fuel with "not finished" as explicit result, and are proved to finish with
fuel that depends on the number of libraries only (n² + 1 rounds; recursion depth (n + 1)² + 1). The specification is the inductive relation `Depends`
over the libraries and a list in which each comes after what it depends on unless this is mutual. The proof of termination of `topo_add` uses that
the map is transitively closed: calls before the insertion go to libraries with strictly fewer dependencies, calls after it leave fewer libraries.
Assumed (`Complete`, checked by `Linker::encode` before): names are distinct, needed libraries exist, exporters are libraries.

**Lookup table of `dlopen` (C85; `Verif/DlTable`).** `DlOpenables::new` with `write_u32` and `write_bytes_padded` (`wit-component/src/linking.rs:70-293`) down to
the bytes of the table. The specification is what the reader, `wit-component/dl/src/lib.rs`, declares as `#[repr(C)]` structures: sorted arrays with count and
pointer, names with length and pointer, each symbol with its place among the functions that the init module puts in the table (`linking.rs:961-976`),
or with an entry in the list of addresses to be filled in. Assumed: addresses fit in 32 bits, the order of names is total. False because of tags (F49);
proved for all libraries that do not export tags.

**Where linked libraries are put (C86; `Verif/LinkLayout`).** `TlsLayout::new` and the offsets of `make_env_module` (`wit-component/src/linking.rs:225-274, 437-623`)
on `u32`, with overflow checks (debug builds) and without (release builds). The specification is a list of all regions of the memory and of the table, which
must not overlap and must be in bounds, with the alignments libraries ask for, one slot for each library with thread-local storage,
and one place in the table for each export of `env`. Proved with checks, and that without checks the result is the same unless a check would fail;
false without checks (F50). Left out: the names under which the addresses are exported, and the code that uses them.

**`dlopen` and `dlsym` (C87; `Verif/DlSym`).** The library that reads the table of C85 (`wit-component/dl/src/lib.rs`), including the loop of `slice::binary_search_by`
of the Rust standard library, on the bytes that `DlOpenables::new` writes; a read outside of them is an error. Names are compared bytewise.
Proved from C85: exactly the libraries that can be opened are found, and in them exactly the functions and variables, at their place in the table of functions or with the address
the init module has written. For the latter the memory is any that has these addresses in the fields of `global_addresses` and is the table elsewhere; it is proved
(`DlSym/Init.lean`) that this is the table `DlOpenables::new` would have written with the addresses in place of zeros, so fields overlap with nothing.
Assumed: the table does not begin at address 0 and addresses fit in 32 bits. Left out: the C strings and `ERROR`/`dlerror` (the message is the error value).
False with tags (F49).

Cannot be expressed at this level (and therefore not claimed): performance and
memory use, behaviour under allocation failure, thread schedules (the modelled
code is single threaded), and the semantics of `unsafe` blocks.

**Wrong programs.** `seeded/LOG.jsonl` has one line for each deliberate change of a definition, with what failed. `killed` also covers changes that are harmless for the property
and are noticed by an example or a lemma only; where known, `breaks` says so. Lines with `invalid` are changes after which the model itself did not compile, which says nothing about
the theorems; they were repeated with changes that do compile. A failing lemma shows that the proof depends on the definition, not by itself that the statement became false.

## Findings (model vs. expectation)

* **F1 `read_var_s33`**: a five byte encoding of a negative number is returned
  without sign extension (e.g. `ff ff ff ff 7f` gives `0x7_ffff_ffff`, not -1).
  Callers only convert the value with `u32::try_from`, which fails either way.
* **F2 component start section**: `parse_reader` records that the start section
  was seen before the section body has been fully read; if it needs more data
  the retry reports a duplicate start section. Streaming a valid component with
  an unlucky chunk boundary therefore fails.
* **F3 peephole `f32/f64.add x 0.0 => x`**: not semantics preserving for
  `x = -0.0` (`-0.0 + 0.0 = +0.0`).
* **F4 truncated nested module**: a module nested in a component whose section
  length reaches past the end of the input is accepted when the input ends at a
  section boundary of the nested module; the `End` payload of the component then
  carries an offset past the end of the input
  (`c08_component_past_end_false`). Documented in the source as
  `unchecked_range`, so recorded as an observation.
* Chunk boundaries can change the error message (not the failure) inside nested
  modules: the four byte peek for a second magic number only sees what is
  buffered. For top-level modules the messages are equal (C06).
* **F5 `Display for RefType`** (types.rs lines 1053-1055): a nullable exact reference
  prints as `(ref (exact i))`, without `null`. Display only; found by reading.
* **F6 `intern_canonical_rec_group`** (validator/types.rs 968-978): `UnpackedIndex::Id(..).pack()
  .unwrap()` panics when a group that refers to itself is added after 2^20 or more types. One
  module is limited to 1000000 types, but the modules of a component share the list: two
  modules with 1000000 and 100000 types (a few bytes each) followed by a module with
  `(rec (type (struct (field (ref null 0)))))` panic the validator. The corresponding
  overflow in `canonicalize_type_index` is reported as an error. Witnesses: `c42_false` and, for `validate_all` on a
  reused `Validator`, `c55_false`.
* **F7 `check_descriptor`** (validator/operators.rs 1467-1488) returns a global type id, which its
  callers then use as a *module* type index (`UnpackedIndex::Module`); affects
  `ref.cast_desc_eq*` and `br_on_cast_desc_eq*` when type ids and module indices differ (as in
  the second module of a component). Found by reading.
* **F8 `br_table` in unreachable code**: an operand `UnknownRef(Some any)` is accepted for the labels
  `(ref any)` and `(ref (shared any))` at the same time, though no type is below both: an invalid
  function is accepted (`c16_shared_table`).
* **F9 wasm-shrink**: the `debug_assert!` of `on_new_best` fails for an eight byte input other than
  the empty module (e.g. the empty component) when `allow_empty` is set and the predicate accepts
  everything (`c37_debug_assert_witness`). The last attempt never takes a mutation, so
  `attempts = 1` tries nothing (`c37_one_attempt_tries_nothing`).
* **F10 WAVE fixed length lists**: the writer writes values of kind `FixedLengthList` (writer.rs
  78-87) but `to_wasm_value` (ast.rs 214-243) has no case for the type, so they cannot be read
  back. Also by reading: fields of a record text that are not in the type are ignored (ast.rs
  290-310), and flags written with `%` (`{%a}`) are not found as `as_flags` does not strip it. The
  parser's nesting limit of 100 does not bind the writer (`c44_depth_needed`).
* **F11 hex float literals** (wast/src/token.rs 584-594): the shift and the mask for the digit that
  straddles the end of the integer type use `4 - significand_pos` instead of `-significand_pos`, so this
  digit is lost: the `f32` literal `0x1.00000101` is read as 1 though the next number is nearer
  (`c46_false`). Exponents outside `i32` such as `0x1p-9999999999` are rejected instead of being rounded
  to zero (`c46_exponent_false`).
* **F12 `hexnum`** (wast/src/lexer.rs 880-904) accepts repeated underscores in `\u{1__2}`; the grammar
  has at most one between two digits, and `skip_underscores` for numbers enforces it
  (`c45_relaxed`). Integer tokens with a leading `+` are accepted for `u32` and the like.
* **F13 names of two subsections** (wasmprinter/src/lib.rs 829-876): `name_map` starts with an empty
  set of used names for each subsection, so a name section with two subsections of function names
  (or two name sections) that give the same name to two functions prints the same identifier
  for both; the text then does not parse (`c25_two_subsections`).
* **F14 producers**: `Producers::add` takes any field name, but a section with a field other than
  `language`, `processed-by`, `sdk` is rejected by the reader (`c36_other_field_unreadable`). The values
  are read with `read_unlimited_string` but skipped before with `skip_string`, so that names and versions
  above 100000 bytes are rejected nevertheless (`c36_long_unreadable`; the same holds for local names
  in the name section, readers/core/names.rs 52-70).
* **F15 wasm-metadata** (by reading, rewrite.rs 93-160): setting an OCI field (`authors`, `version`, ...)
  of a module that already has it keeps the old section and appends the new one; rewriting drops
  unknown name subsections even if only producers are added.
* **F16 signatures of exported methods** (wit-parser/src/abi.rs 211-227): the first parameter becomes
  `Pointer`, which for a 64-bit memory is `i64` whereas the ABI passes the `i32` representation
  (a TODO in the code; `c30_signature` states the difference, `c30_signature_32` that there is none with
  32-bit pointers).
* **F17 wasm-smith**: `ensure_termination` charges 64-bit bulk lengths modulo 2^32 (terminate.rs 87-108), so
  `memory.fill` of 2^32 bytes of a 64-bit memory is free; `memory.grow`, `table.grow` and GC allocations of fixed
  size are not charged. Executions are finite all the same. `canonicalize_nan` (code_builder.rs 1422-1482) never
  stores the allocated local in `f32_scratch` etc., so each instruction gets a new local, contrary to the comment.
* **F18 wasm-smith `disallow_traps`** (by reading code_builder.rs): `ref_as_non_null_valid` (5526), `array_len_valid`
  (6446), `i31_get_valid` (6661), `throw_ref_valid` (2353) and the atomic instructions (7404-7470) do not look at
  `disallow_traps`, so that instructions that trap on null, out of bounds or unaligned are generated all the same.
  `canonicalize_nans` does not cover `f32.demote_f64`, `f64.promote_f32` and their vector versions (1362-1413), whose NaN
  results are nondeterministic too.
* **F19 peephole `eq-associates`** (rules.rs 278-285): `(i32.eq x (i32.eq y z))` and `(i32.eq (i32.eq x y) z)` differ, e.g. at
  2, 0, 0 (`c33_not_eq_associates`); the rule for `i64` matches only expressions that are not valid.
* **F20 peephole rules and effects**: `x | -1 => -1` and `select y y x => y` lose a trap of an operand such as a division
  or a load (`c33_not_or`, `c33_not_select`). `x | x <=> x` and the like duplicate an operand with side effects
  (`c33_not_or_same`): the mutator only requires all nodes of a tree to have the same colour, which a single call has, and
  `memory.grow` and `table.grow` do not start a new colour (dfg.rs 643-660). `x * 1.0 => x` changes signalling
  NaNs (`c33_not_mul_one`).
* **F21 order of evaluation** (by reading, eggsy/encoder.rs): the function is rebuilt by writing the roots of the data flow
  graph in order, so an operand that was pushed before an effect of another root is evaluated after it: `local.get 0; i32.const 1;
  local.set 0; global.set 0; ...` becomes `i32.const 1; local.set 0; local.get 0; global.set 0; ...`. Only the tree that
  is rewritten is checked for effects.
* **F22 wasm-encoder instructions**: `typed_select_multi(&[t])` writes the same bytes as `typed_select(t)` and is read as
  `TypedSelect`; `MemArg { align: 64, .. }` is not refused although bit 6 of the flags marks a memory index, so that it reads
  as another access and swallows the next byte as the offset (`c14_limits_needed`, `c15_ambiguous`). `align` is documented as an exponent, so no valid
  module needs 64.
* **F23 operator validator, panics**: `check_ref_type` (`RefType::new(..).unwrap()`), `visit_ref_null` (`.expect`) and
  `check_call_ref_ty` (`.expect`) panic if a type id is 2^20 or more, which needs more than a million types in one
  `Validator` (the limit on types is per module; ids grow over the modules of a component or with a reused type list).
  After the `end` of the function itself a further operator that pops an operand panics in `op` (a caller that ignores
  `is_empty`-style checks; `OperatorsReader` does not produce such operators).
* **F24 `br_on_cast` with custom descriptors** (`check_br_on_cast_type_hierarchy`): returns before the check
  `check_cast_to_allowed`, so with that feature a cast to a continuation type is accepted by `br_on_cast`
  and refused by `ref.cast`.
* **F25 `ref.get_desc`** on an operand of unknown reference type in unreachable code pushes a type that is not exact.
* **F26 atomics on globals**: `global.atomic.get/set/rmw.xchg/cmpxchg` compare the type with the unshared `anyref`/`eqref`,
  `table.atomic.*`, `struct.atomic.*`, `array.atomic.*` with the shared ones.
* **F27 immediates of casts**: the types in `ref.test`, `ref.cast`, `br_on_cast` are not checked against the enabled features.
* **F28 floats disabled**: conversions from floats to integers are accepted in unreachable code, and relaxed SIMD
  operators on floats have no check. The feature is for engines without floats only.
* **F29 long names of locals**: `Naming::from_reader` deliberately does not limit the length of names (names.rs lines 34-37),
  but `IndirectNaming::from_reader` first skips the entries with `skip_string`, which has the limit of 100000 bytes. A name of
  a local, label or field above it makes the section unreadable (`c50_long_local_unreadable`), the same name of a function does
  not (`c50_long_function_readable`); wasm-encoder writes both.
* **F30 custom sections can make re-encoding fail**: custom sections have no influence on the validity of a module, but
  `parse_custom_section` returns the errors of a malformed name section, so that such a module cannot be re-encoded, not even
  unchanged (`c52_name_section`). Likewise compact imports with names that are not UTF-8 are read without complaint (names are
  skipped, not checked, when the section is read) and fail later (`c51_skipped_names`).
* **F31 exact function imports are not gated**: `ExternalKind::FuncExact` (0x20) belongs to the custom-descriptors
  proposal, but an import of this kind is read (readers/core/imports.rs `TypeRef::from_reader`) and validated
  (validator/core.rs `check_type_ref`, `add_import`) whether or not the feature is on. Exports of this kind are rejected
  by the reader (`c54_exact_import`).
* **F32 gc.rs misses references to types**: `liveness` does not mark the type indices in declarations of locals (`func`
  calls `get_operators_reader`, which skips them), in the content types of globals (`global`) and in results of blocks
  (`blockty` ignores `BlockType::Type`). `encode` then panics with "can't map … to a new index" if nothing else refers to the
  type (`c56_false`, `c56_panics`). A live body with `try_table`, `resume`, … panics in `liveness` (`c56_try_table`).
* **F33 gc.rs does not rename globals in the stack allocation**: the lazy variant (lines 729-735) is given the old indices of
  `__stack_pointer` and `allocation_state`, the start function (758-775) the old index of `allocation_state`. If a global with
  a smaller index is not live, then the wrong global is used or the module is invalid (`c58_false`).
* **F34 `realloc_via_memory_grow` without memory**: it is emitted if there is a stack pointer but no live memory (line
  737); `memory.grow 0` is then invalid (`c58_no_memory`).
* **F35 globals are encoded before functions have indices**: a live global initialised with `ref.func` makes `encode` panic
  (`c58_ref_func`).
* **F36 two names for one function**: if the adapter imports a `cabi_realloc` of the main module that has a name and there is no main
  realloc, then the name section of the result has both this name and `realloc_via_memory_grow` for the same index (lines 855-893),
  which is not a valid name map; names are not sorted by index either (`c58_names`).
* **F37 names that differ in case**: `ResourceFunc` and `InterfaceName` compare strings, so `[method]a.b` and `[method]a.B`, or
  `a:b/c` and `a:b/C`, are accepted together, although the component model calls names strongly unique only if they differ after
  being put in lower case (`eq_iff_clash_fails`, `externs_unique_fails`). Since `a` equals both `[method]a.a` and `[method]a.A`, equality
  is not transitive (`eq_transitive_fails`).
* **F38 `Ord for ComponentName` is not transitive**: `a` < `c` < `[method]a.a`, but `a` is equal to `[method]a.a`
  (`cmp_transitive_fails`). It matters where sets of names are b-trees (wasmparser without `hash-collections`), which
  can miss a duplicate. `PartialOrd for ComponentName` compares kinds only, so `a.partial_cmp(b)` of any two labels is `Equal`
  (`partial_cmp_agrees_fails`).
* **F39 `InterfaceName::package` panics** on names that `ComponentName::new` accepts if the version has a colon
  (`a:b/c@1:0`), `namespace` returns `a:b/c@1` (`interface_parts_fails`). The version is looked at only by `version()`; the callers
  in this repository call that first.
* **F40** `unlocked-dep=<a:b@{*}>` is accepted although the grammar has `@*` only; `Range` in `Spec.lean` includes it.
* **F41 `dylink.0` ignores bytes at the end of subsections**: `Dylink0Subsection::from_reader` does not check that its reader is at
  the end, so `02 02 00 07` is an empty list of needed libraries (`dylink_exact_fails`). All other readers of C67–C68 check.
* **F42 builders that write what cannot be read**: `BranchHints::function_hints` takes any `u32` as the value of a hint, but
  wasmparser accepts 0 and 1 only (example in `LinkProps.lean`); the methods of `SymbolTable` write the name and
  definition they are given even if the flags say that there is none, or none if the flags say there is one.
* **F43 inline function types reuse open and shared types**: `Expander::expand_header` interns every `type` field that is a function type,
  no matter whether it is final, has a supertype or is shared. In `(type (sub (func))) (func)` the function gets the open type
  (`expand_simple_fails`); the text format asks for `(sub final (func))` and a new definition of it. Explicit `rec` groups of a single
  type are never reused, although they are the same as a `type` field.
* **F44 inline function types are compared before resolution**: `(ref 0)` and `(ref $t)` count as different even if `$t` is type 0, so a
  second definition of the same type is appended (`expand_compares_unresolved`). Harmless, since it is appended after all others.
* **F45 imports after tags change what names stand for**: the check that imports come first (`resolve/mod.rs:34-49`) knows memories,
  functions, tables and globals but not tags. `(tag $a) (import "" "" (tag $b)) (export "a" (tag $a))` is accepted, `$a` is resolved to
  0 and `$b` to 1, but the import is written first, so the module exports the imported tag (`numbering_fails`).
* **F46 names of unknown sorts lose their sort**: `ComponentName::from_reader` reads the sort before it returns `Unknown { ty: 1, data }`, so
  `data` starts after it, and the re-encoder writes `raw(1, data)`. `01 05 06 01 01 00 00`, names of a sort 6, is re-encoded as
  `01 04 01 01 00 00`, which names function 0 (`reencode_keeps_fails`).
* **F47 merging by semver drops imports under other names**: the loop over the imports (`resolve/mod.rs:2511-2516`) looks at the interface of the
  item and not at the key. Of `import a:b/c@1.0.0; import a:b/c@1.1.0; import x: a:b/c@1.0.0;` only the second is left, `x` is gone
  (`merge_keeps_fails`); `elaborate_world` does not bring it back, since it only adds keys that are interfaces.
* **F48 disconnecting what is not connected**: `CompositionGraph::disconnect` is documented to do nothing if source and target are not connected
  by the import, but removes the import from `connected` without a look at the edge (`graph.rs:923`). After `connect(a, e, t, i)` and
  `disconnect(b, t, i)` the edge from `a` is still there; `connect(a, e, t, i)` then panics at the `assert!` in `connect`
  (`always_sound_fails`), and `connect(b, e, t, i)` is accepted, so that the import has two arguments (`two_arguments`).
* **F49 the symbol count of a library that can be opened includes its tags**: `DlOpenables::new` leaves tags out of the symbols (`return None`), but
  writes `metadata.exports.len()` as their count (`linking.rs:151`). `dlsym` then searches past the end of the array, in whatever comes next.
  For a library that exports one tag the count is 1 and the array is empty (`faithful_fails`).
  `dlsym` reads the array of libraries as symbols there: it finds the name of the library as a symbol, and returns function 1 of the table (`found_fails`).
* **F50 sizes of linked libraries wrap around in release builds**: `make_env_module` adds the `memory_size` of libraries and shifts by their `memory_alignment`
  with plain `u32` operators (`linking.rs:529-544`), both of which come from the `dylink.0` section unchecked. Without overflow checks two libraries of 2 GiB
  each are linked with a memory of two pages and a heap that is inside the first library (`laid_out_fails`); with checks it is a panic, not an error.
