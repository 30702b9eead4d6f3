import Verif.Names.Model
/-! Custom sections of the tool conventions: core dumps, branch hints, symbol tables of object files
and dynamic linking; wasmparser's readers (crates/wasmparser/src/readers/core/ coredumps.rs,
branch_hinting.rs, linking.rs, dylink0.rs, custom.rs), wasm-encoder's builders
(crates/wasm-encoder/src/core/ dump.rs, branch_hints.rs, linking.rs), wast's encoder of `dylink.0`
(crates/wast/src/core/ custom.rs, binary.rs).

Strings are their bytes. On the side of the encoders `none` is a panic. The readers and the encoders
have structs of their own with the same fields; here they share one. -/
namespace Verif.Custom
open Verif.Reader Verif.Items Verif.Leb Verif.Framing

/-! ### Common parts -/

/-- `let mut v = vec![]; for _ in 0..reader.read_var_u32()? { v.push(..?) }`. -/
def readVec (item : R α) : R (List α) := do
  let count ← readVarU32
  readMany item count.toNat

/-- `encode_vec` (wasm-encoder's lib.rs lines 165-176), and `impl Encode for [T]` of wast (encode.rs
lines 17-24). -/
def encodeVec (enc : α → Option (List UInt8)) (xs : List α) : Option (List UInt8) := do
  pure ((← encodeUsize xs.length) ++ (← Enc.encodeAll enc xs))

/-- `if reader.read_u8()? != 0 { bail!(pos, msg) }`. -/
def readStart (pos : Nat) (msg : String) : R Unit := do
  let b ← readU8
  if b ≠ 0 then R.fail msg pos else pure ()

/-- `if !reader.eof() { bail!(..) }` at the end of the sections of core dumps. -/
def readEnd : R Unit := fun r =>
  if !r.eof then .error (.msg "trailing bytes at end of custom section" r.originalPosition)
  else .ok ((), r)

/-- A constructor that takes its reader by value: the reader is dropped. -/
def whole (f : R α) (r : Reader) : Except Err α := (f r).map (·.1)

/-! ### Core dumps: the readers -/

/-- `CoreDumpSection::new` (coredumps.rs lines 27-40). -/
def readCore : Reader → Except Err (List UInt8) := whole do
  let pos ← readPos
  readStart pos "invalid start byte for core dump name"
  let name ← readUnlimitedString
  readEnd
  pure name

/-- The loop body of `CoreDumpModulesSection::new` (lines 69-72). -/
def readModule (pos : Nat) : R (List UInt8) := do
  readStart pos "invalid start byte for coremodule"
  readUnlimitedString

/-- `CoreDumpModulesSection::new` (lines 65-81). -/
def readModules : Reader → Except Err (List (List UInt8)) := whole do
  let pos ← readPos
  let modules ← readVec (readModule pos)
  readEnd
  pure modules

/-- `struct CoreDumpInstance` (lines 109-121). -/
structure Instance where
  moduleIndex : BitVec 32
  memories : List (BitVec 32)
  globals : List (BitVec 32)
  deriving DecidableEq, Repr

/-- `CoreDumpInstance::from_reader` (lines 124-146). -/
def readInstance : R Instance := do
  let pos ← readPos
  readStart pos "invalid start byte for core dump instance"
  let moduleIndex ← readVarU32
  let memories ← readVec readVarU32
  let globals ← readVec readVarU32
  pure ⟨moduleIndex, memories, globals⟩

/-- `CoreDumpInstancesSection::new` (lines 92-104). -/
def readInstances : Reader → Except Err (List Instance) := whole do
  let instances ← readVec readInstance
  readEnd
  pure instances

/-- `enum CoreDumpValue` (lines 249-260). -/
inductive Value where
  | missing
  | i32 (v : BitVec 32)
  | i64 (v : BitVec 64)
  | f32 (bits : BitVec 32)
  | f64 (bits : BitVec 64)
  deriving DecidableEq, Repr

/-- The arms of `CoreDumpValue::from_reader` (lines 265-272). -/
def readValueOf (pos : Nat) (b : UInt8) : R Value :=
  if b = 0x01 then pure .missing
  else if b = 0x7F then (do let v ← readVarI32; pure (.i32 v))
  else if b = 0x7E then (do let v ← readVarI64; pure (.i64 v))
  else if b = 0x7D then (do let v ← readU32; pure (.f32 v))
  else if b = 0x7C then (do let v ← readU64; pure (.f64 v))
  else R.fail "invalid CoreDumpValue type" pos

/-- `CoreDumpValue::from_reader` (lines 263-273). -/
def readValue : R Value := do
  let pos ← readPos
  let b ← readU8
  readValueOf pos b

/-- `struct CoreDumpStackFrame` (lines 204-215). -/
structure Frame where
  instanceidx : BitVec 32
  funcidx : BitVec 32
  codeoffset : BitVec 32
  locals : List Value
  stack : List Value
  deriving DecidableEq, Repr

/-- `CoreDumpStackFrame::from_reader` (lines 218-242). -/
def readFrame : R Frame := do
  let pos ← readPos
  readStart pos "invalid start byte for core dump stack frame"
  let instanceidx ← readVarU32
  let funcidx ← readVarU32
  let codeoffset ← readVarU32
  let locals ← readVec readValue
  let stack ← readVec readValue
  pure ⟨instanceidx, funcidx, codeoffset, locals, stack⟩

/-- `struct CoreDumpStackSection` (lines 169-174). -/
structure Stack where
  name : List UInt8
  frames : List Frame
  deriving DecidableEq, Repr

/-- `CoreDumpStackSection::new` (lines 179-199). -/
def readStack : Reader → Except Err Stack := whole do
  let pos ← readPos
  readStart pos "invalid start byte for core dump stack name"
  let name ← readUnlimitedString
  let frames ← readVec readFrame
  readEnd
  pure ⟨name, frames⟩

/-! ### Core dumps: the encoders -/

/-- The data of `CoreDumpSection::as_custom` (dump.rs lines 62-69). -/
def coreData (name : List UInt8) : Option (List UInt8) := do
  pure ([0x00] ++ (← encodeSlice name))

/-- `CoreDumpModulesSection::module` (lines 123-128). -/
def addModule (b : Enc.Builder) (name : List UInt8) : Option Enc.Builder := do
  pure (b.add ([0x00] ++ (← encodeSlice name)))

/-- The data of `as_custom` of the sections of modules and instances (lines 112-120, 165-173). -/
def countedData (b : Enc.Builder) : List UInt8 := encodeU32 b.numAdded ++ b.bytes

/-- `CoreDumpInstancesSection::instance` (lines 176-189). -/
def addInstance (b : Enc.Builder) (i : Instance) : Option Enc.Builder := do
  pure (b.add ([0x00] ++ encodeU32 i.moduleIndex ++
    (← encodeVec (fun x => some (encodeU32 x)) i.memories) ++
    (← encodeVec (fun x => some (encodeU32 x)) i.globals)))

/-- `impl Encode for CoreDumpValue` (lines 313-335). -/
def Value.encode : Value → List UInt8
  | .missing => [0x01]
  | .i32 v => [0x7F] ++ encodeI32 v
  | .i64 v => [0x7E] ++ encodeI64 v
  | .f32 v => [0x7D] ++ Instr.Enc.leBytes 4 v.toNat
  | .f64 v => [0x7C] ++ Instr.Enc.leBytes 8 v.toNat

/-- `CoreDumpStackSection::frame` (lines 247-269). -/
def addFrame (b : Enc.Builder) (f : Frame) : Option Enc.Builder := do
  pure (b.add ([0x00] ++ encodeU32 f.instanceidx ++ encodeU32 f.funcidx ++
    encodeU32 f.codeoffset ++ (← encodeVec (fun x => some x.encode) f.locals) ++
    (← encodeVec (fun x => some x.encode) f.stack)))

/-- The data of `CoreDumpStackSection::as_custom` (lines 272-281). -/
def stackData (name : List UInt8) (b : Enc.Builder) : Option (List UInt8) := do
  pure ([0x00] ++ (← encodeSlice name) ++ encodeU32 b.numAdded ++ b.bytes)

/-! ### Branch hints -/

/-- `struct BranchHint` (branch_hinting.rs lines 36-42). -/
structure Hint where
  funcOffset : BitVec 32
  taken : Bool
  deriving DecidableEq, Repr

/-- `BinaryReader::invalid_leading_byte` (binary_reader.rs lines 644-654), without the byte in the
message. -/
def invalidLeading (desc : String) : R α := fun r =>
  .error (.msg ("invalid leading byte for " ++ desc) (r.originalPosition - 1))

/-- The first `match` of `BranchHint::from_reader` (lines 48-51). -/
def checkHintByte (b : UInt8) : R Unit :=
  if b = 1 then pure () else invalidLeading "invalid branch hint byte"

/-- The second `match` (lines 52-56). -/
def takenOf (b : UInt8) : R Bool :=
  if b = 0 then pure false else if b = 1 then pure true
  else invalidLeading "invalid branch hint taken byte"

/-- `BranchHint::from_reader` (lines 46-58). -/
def readHint : R Hint := do
  let funcOffset ← readVarU32
  let b ← readU8
  checkHintByte b
  let t ← readU8
  let taken ← takenOf t
  pure ⟨funcOffset, taken⟩

/-- `struct BranchHintFunction` (lines 10-15). -/
structure HintFunction where
  func : BitVec 32
  hints : SectionLimited
  deriving DecidableEq, Repr

/-- The closure of `BranchHintFunction::from_reader` (lines 21-27). -/
def skipHint : R Unit := do
  let _ ← readHint
  pure ()

/-- `BranchHintFunction::from_reader` (lines 18-32). -/
def readHintFunction : R HintFunction := do
  let func ← readVarU32
  let hints ← skip (skipItems skipHint)
  let hints ← limited hints
  pure ⟨func, hints⟩

/-- The loop body of `BranchHints::function_hints` (branch_hints.rs lines 90-94); the field
`branch_hint_value` is a number. -/
def encodeHint (h : BitVec 32 × BitVec 32) : List UInt8 :=
  encodeU32 h.1 ++ encodeU32 1 ++ encodeU32 h.2

/-- `BranchHints::function_hints` (branch_hints.rs lines 81-95). -/
def addHints (b : Enc.Builder) (f : BitVec 32 × List (BitVec 32 × BitVec 32)) :
    Option Enc.Builder := do
  pure (b.add (encodeU32 f.1 ++ (← encodeUsize f.2.length) ++ f.2.flatMap encodeHint))

/-! ### `linking` -/

/-- `SymbolFlags::UNDEFINED` and `EXPLICIT_NAME` (linking.rs lines 25, 29); `contains`. -/
def undefined (flags : BitVec 32) : Bool := flags &&& 0x10 == 0x10
@[inherit_doc undefined] def explicitName (flags : BitVec 32) : Bool := flags &&& 0x40 == 0x40

/-- `struct DefinedDataSymbol` (lines 338-345). -/
structure DataDef where
  index : BitVec 32
  offset : BitVec 32
  size : BitVec 32
  deriving DecidableEq, Repr

/-- The variants of `SymbolInfo` with an index and a name. -/
inductive Indexed where
  | func | global | event | table
  deriving DecidableEq, Repr

/-- `enum SymbolInfo` (lines 224-276). -/
inductive Symbol where
  | indexed (k : Indexed) (flags index : BitVec 32) (name : Option (List UInt8))
  | data (flags : BitVec 32) (name : List UInt8) (symbol : Option DataDef)
  | section (flags : BitVec 32) (sect : BitVec 32)
  deriving DecidableEq, Repr

/-- `DefinedDataSymbol::from_reader` (lines 348-357). -/
def readDataDef : R DataDef := do
  let index ← readVarU32
  let offset ← readVarU32
  let size ← readVarU32
  pure ⟨index, offset, size⟩

/-- `match c { true => Some(..?), false => None }` (lines 299-302, 313-316). -/
def readIf (c : Bool) (f : R α) : R (Option α) :=
  if c then (do let x ← f; pure (some x)) else pure none

/-- The first arm of `SymbolInfo::from_reader` (lines 297-310). -/
def readIndexed (k : Indexed) (flags : BitVec 32) : R Symbol := do
  let index ← readVarU32
  let name ← readIf (!undefined flags || explicitName flags) readUnlimitedString
  pure (.indexed k flags index name)

/-- The second arm (lines 311-322). -/
def readData (flags : BitVec 32) : R Symbol := do
  let name ← readUnlimitedString
  let symbol ← readIf (!undefined flags) readDataDef
  pure (.data flags name symbol)

/-- The third arm (lines 323-326). -/
def readSection (flags : BitVec 32) : R Symbol := do
  let sect ← readVarU32
  pure (.section flags sect)

/-- The `match` of `SymbolInfo::from_reader` (lines 296-332); the flags are kept as they are (`from_bits_retain`, line 53). -/
def readSymbolOf (pos : Nat) (kind : UInt8) (flags : BitVec 32) : R Symbol :=
  if kind = 0 then readIndexed .func flags
  else if kind = 2 then readIndexed .global flags
  else if kind = 4 then readIndexed .event flags
  else if kind = 5 then readIndexed .table flags
  else if kind = 1 then readData flags
  else if kind = 3 then readSection flags
  else R.fail "invalid leading byte for symbol kind" pos

/-- `SymbolInfo::from_reader` (lines 280-334). -/
def readSymbol : R Symbol := do
  let pos ← readPos
  let kind ← readU8
  let flags ← readVarU32
  readSymbolOf pos kind flags

/-- `struct Segment` (lines 81-90) and its `from_reader` (lines 92-103). -/
structure Segment where
  name : List UInt8
  alignment : BitVec 32
  flags : BitVec 32
  deriving DecidableEq, Repr

@[inherit_doc Segment]
def readSegment : R Segment := do
  let name ← readUnlimitedString
  let alignment ← readVarU32
  let flags ← readVarU32
  pure ⟨name, alignment, flags⟩

/-- `InitFunc::from_reader` (lines 117-126): the priority and the index of the symbol. -/
def readInitFunc : R (BitVec 32 × BitVec 32) := do
  let priority ← readVarU32
  let symbolIndex ← readVarU32
  pure (priority, symbolIndex)

/-- `enum ComdatSymbolKind` (lines 181-194). -/
inductive ComdatKind where
  | data | func | global | event | table | section
  deriving DecidableEq, Repr

/-- The `match` of `ComdatSymbolKind::from_reader` (lines 199-211). -/
def comdatKindOf (pos : Nat) (b : UInt8) : R ComdatKind :=
  if b = 0 then pure .data
  else if b = 1 then pure .func
  else if b = 2 then pure .global
  else if b = 3 then pure .event
  else if b = 4 then pure .table
  else if b = 5 then pure .section
  else R.fail "invalid leading byte for comdat symbol kind" pos

/-- `ComdatSymbolKind::from_reader` (lines 197-213). -/
def readComdatKind : R ComdatKind := do
  let pos ← readPos
  let b ← readU8
  comdatKindOf pos b

/-- `ComdatSymbol::from_reader` (lines 172-176). -/
def readComdatSymbol : R (ComdatKind × BitVec 32) := do
  let kind ← readComdatKind
  let index ← readVarU32
  pure (kind, index)

/-- `struct Comdat` (lines 133-140). -/
structure Comdat where
  name : List UInt8
  flags : BitVec 32
  symbols : SectionLimited
  deriving DecidableEq, Repr

/-- The body of the closure of `Comdat::from_reader` (lines 149-151). -/
def skipComdatSymbol : R Unit := do
  let _ ← readComdatSymbol
  pure ()

/-- `Comdat::from_reader` (lines 143-161). -/
def readComdat : R Comdat := do
  let name ← readUnlimitedString
  let flags ← readVarU32
  let symbols ← skip (skipItems skipComdatSymbol)
  let symbols ← limited symbols
  pure ⟨name, flags, symbols⟩

/-- The variants of `enum Linking` (lines 362-380) with items. -/
inductive LinkKind where
  | segmentInfo | initFuncs | comdatInfo | symbolTable
  deriving DecidableEq, Repr

/-- `enum Linking` (lines 362-380). -/
inductive Linking where
  | items (k : LinkKind) (map : SectionLimited)
  | unknown (ty : UInt8) (data : List UInt8) (range : Nat × Nat)
  deriving DecidableEq, Repr

/-- `Linking::from_reader` (lines 384-396). -/
def linkingFromReader (id : UInt8) (r : Reader) : Except Err Linking :=
  if id = 5 then (SectionLimited.new r).map (.items .segmentInfo)
  else if id = 6 then (SectionLimited.new r).map (.items .initFuncs)
  else if id = 7 then (SectionLimited.new r).map (.items .comdatInfo)
  else if id = 8 then (SectionLimited.new r).map (.items .symbolTable)
  else .ok (.unknown id r.rest (r.originalPosition, r.originalOffset + r.maxPosition))

/-- `Subsections::read` (readers.rs lines 290-297) with the method `from_reader` of the
subsections. -/
def readSub (from_ : UInt8 → Reader → Except Err α) : R α := do
  let id ← readU7
  let reader ← readReader
  fun r => (from_ id reader).map (·, r)

/-- `Subsections::next` (readers.rs lines 323-329) until it returns `None` or an error; a read
that succeeds consumes a byte, so that the number of bytes bounds the number of steps. -/
def subsFrom (from_ : UInt8 → Reader → Except Err α) : Nat → Reader → Except Err (List α)
  | 0, _ => .ok []
  | n + 1, r =>
    if r.eof then .ok []
    else match readSub from_ r with
      | .error e => .error e
      | .ok (x, r') =>
        match subsFrom from_ n r' with
        | .error e => .error e
        | .ok xs => .ok (x :: xs)

/-- `Subsections::new` and all its items. -/
def subs (from_ : UInt8 → Reader → Except Err α) (r : Reader) : Except Err (List α) :=
  subsFrom from_ r.bytesRemaining r

/-- `LinkingSectionReader::new` (lines 402-420); the result is the reader of the subsections. -/
def readLinking (r : Reader) : Except Err Reader :=
  match readVarU32 r with
  | .error e => .error e
  | .ok (version, r') =>
    if version ≠ 2 then .error (.msg "unsupported linking section version" r.originalPosition)
    else .ok r'

/-- The constants `SYMTAB_*` (wasm-encoder's linking.rs lines 108-115) of the symbols that the
encoder has methods for. -/
def symtab : Indexed → BitVec 32
  | .func => 0
  | .global => 2
  | .event => 4
  | .table => 5

/-- `if let Some(name) = name { name.encode(..) }`. -/
def encodeName : Option (List UInt8) → Option (List UInt8)
  | none => some []
  | some n => encodeSlice n

/-- `SymbolTable::function`, `global`, `table` (lines 130-171). There is no method for events. -/
def addIndexed (b : Enc.Builder) (k : Indexed) (flags index : BitVec 32)
    (name : Option (List UInt8)) : Option Enc.Builder := do
  pure (b.add (encodeU32 (symtab k) ++ encodeU32 flags ++ encodeU32 index ++ (← encodeName name)))

/-- `if let Some(def) = definition { .. }` (lines 183-187). -/
def encodeDef : Option DataDef → List UInt8
  | none => []
  | some d => encodeU32 d.index ++ encodeU32 d.offset ++ encodeU32 d.size

/-- `SymbolTable::data` (lines 174-190). -/
def addData (b : Enc.Builder) (flags : BitVec 32) (name : List UInt8) (d : Option DataDef) :
    Option Enc.Builder := do
  pure (b.add (encodeU32 1 ++ encodeU32 flags ++ (← encodeSlice name) ++ encodeDef d))

/-- `LinkingSection::symbol_table` (lines 61-64) with `impl Encode for SymbolTable` (lines
245-250). -/
def addTable (bytes : List UInt8) (b : Enc.Builder) : Option (List UInt8) := do
  pure (bytes ++ [0x08] ++ (← encodeSection b.numAdded b.bytes))

/-- `LinkingSection::default` (lines 67-73). -/
def newLinking : List UInt8 := encodeU32 2

/-! ### `reloc.*` -/

/-- `enum RelocationType` (reloc.rs lines 76-197), in the order of the discriminants. -/
inductive RelocType where
  | functionIndexLeb | tableIndexSleb | tableIndexI32 | memoryAddrLeb | memoryAddrSleb
  | memoryAddrI32 | typeIndexLeb | globalIndexLeb | functionOffsetI32 | sectionOffsetI32
  | eventIndexLeb | memoryAddrRelSleb | tableIndexRelSleb | globalIndexI32 | memoryAddrLeb64
  | memoryAddrSleb64 | memoryAddrI64 | memoryAddrRelSleb64 | tableIndexSleb64 | tableIndexI64
  | tableNumberLeb | memoryAddrTlsSleb | functionOffsetI64 | memoryAddrLocrelI32
  | tableIndexRelSleb64 | memoryAddrTlsSleb64 | functionIndexI32
  deriving DecidableEq, Repr

/-- `TryFrom<u8>` for it (lines 54-63): the variant with this discriminant. -/
def RelocType.ofByte : UInt8 → Option RelocType
  | 0 => some .functionIndexLeb
  | 1 => some .tableIndexSleb
  | 2 => some .tableIndexI32
  | 3 => some .memoryAddrLeb
  | 4 => some .memoryAddrSleb
  | 5 => some .memoryAddrI32
  | 6 => some .typeIndexLeb
  | 7 => some .globalIndexLeb
  | 8 => some .functionOffsetI32
  | 9 => some .sectionOffsetI32
  | 10 => some .eventIndexLeb
  | 11 => some .memoryAddrRelSleb
  | 12 => some .tableIndexRelSleb
  | 13 => some .globalIndexI32
  | 14 => some .memoryAddrLeb64
  | 15 => some .memoryAddrSleb64
  | 16 => some .memoryAddrI64
  | 17 => some .memoryAddrRelSleb64
  | 18 => some .tableIndexSleb64
  | 19 => some .tableIndexI64
  | 20 => some .tableNumberLeb
  | 21 => some .memoryAddrTlsSleb
  | 22 => some .functionOffsetI64
  | 23 => some .memoryAddrLocrelI32
  | 24 => some .tableIndexRelSleb64
  | 25 => some .memoryAddrTlsSleb64
  | 26 => some .functionIndexI32
  | _ => none

/-- The result of `try_from` in `RelocationType::from_reader` (lines 204-210). -/
def relocTypeOf (pos : Nat) (num : UInt8) : R RelocType :=
  match RelocType.ofByte num with
  | some t => pure t
  | none => R.fail "invalid leading byte for RelocEntryType" (pos - 1)

/-- `RelocationType::from_reader` (lines 202-211). -/
def readRelocType : R RelocType := do
  let num ← readU8
  let pos ← readPos
  relocTypeOf pos num

/-- `enum RelocAddendKind` (lines 216-223). -/
inductive AddendKind where
  | none | addend32 | addend64
  deriving DecidableEq, Repr

/-- `RelocationType::addend_kind` (lines 260-271). -/
def RelocType.addendKind : RelocType → AddendKind
  | .memoryAddrLeb | .memoryAddrSleb | .memoryAddrI32 | .functionOffsetI32
  | .sectionOffsetI32 | .memoryAddrLocrelI32 | .memoryAddrRelSleb | .memoryAddrTlsSleb => .addend32
  | .memoryAddrRelSleb64 | .memoryAddrTlsSleb64 | .memoryAddrLeb64 | .memoryAddrSleb64
  | .memoryAddrI64 | .functionOffsetI64 => .addend64
  | _ => .none

/-- `RelocationType::extent` (lines 274-288). -/
def RelocType.extent : RelocType → Nat
  | .functionIndexLeb | .tableIndexSleb | .memoryAddrLeb | .memoryAddrSleb | .typeIndexLeb
  | .globalIndexLeb | .eventIndexLeb | .memoryAddrRelSleb | .tableIndexRelSleb
  | .tableNumberLeb | .memoryAddrTlsSleb => 5
  | .memoryAddrLeb64 | .memoryAddrSleb64 | .tableIndexSleb64 | .tableIndexRelSleb64
  | .memoryAddrRelSleb64 | .memoryAddrTlsSleb64 => 10
  | .tableIndexI32 | .memoryAddrI32 | .functionOffsetI32 | .sectionOffsetI32
  | .globalIndexI32 | .memoryAddrLocrelI32 | .functionIndexI32 => 4
  | .memoryAddrI64 | .tableIndexI64 | .functionOffsetI64 => 8

/-- `struct RelocationEntry` (lines 228-240). -/
structure Reloc where
  ty : RelocType
  offset : BitVec 32
  index : BitVec 32
  addend : BitVec 64
  deriving DecidableEq, Repr

/-- The `match` of `RelocationEntry::from_reader` (lines 296-300). -/
def readAddend : AddendKind → R (BitVec 64)
  | .none => pure 0
  | .addend32 => do let v ← readVarI32; pure (v.signExtend 64)
  | .addend64 => readVarI64

/-- `RelocationEntry::from_reader` (lines 292-307). -/
def readReloc : R Reloc := do
  let ty ← readRelocType
  let offset ← readVarU32
  let index ← readVarU32
  let addend ← readAddend ty.addendKind
  pure ⟨ty, offset, index, addend⟩

/-- `RelocationEntry::relocation_range` (lines 245-255) where `usize` has 64 bits, so that the
addition does not overflow. -/
def Reloc.range (e : Reloc) : Nat × Nat := (e.offset.toNat, e.offset.toNat + e.ty.extent)

/-- `RelocSectionReader::new` (lines 19-27): the section and the entries. `shrink` of the reader
keeps the bytes that are left. -/
def readRelocs (r : Reader) : Except Err (BitVec 32 × SectionLimited) :=
  match readVarU32 r with
  | .error e => .error e
  | .ok (section_, r') => (SectionLimited.new r').map (section_, ·)

/-! ### `dylink.0` -/

/-- `enum Dylink0Subsection` (dylink0.rs lines 55-68). -/
inductive Dylink where
  | memInfo (memorySize memoryAlignment tableSize tableAlignment : BitVec 32)
  | needed (names : List (List UInt8))
  | exportInfo (infos : List (List UInt8 × BitVec 32))
  | importInfo (infos : List (List UInt8 × List UInt8 × BitVec 32))
  | runtimePath (names : List (List UInt8))
  | unknown (ty : UInt8) (data : List UInt8) (range : Nat × Nat)
  deriving DecidableEq, Repr

/-- The arm of `Dylink0Subsection::from_reader` (lines 73-78). -/
def readMemInfo : R Dylink := do
  let a ← readVarU32
  let b ← readVarU32
  let c ← readVarU32
  let d ← readVarU32
  pure (.memInfo a b c d)

/-- The closure of lines 86-91. -/
def readExportInfo : R (List UInt8 × BitVec 32) := do
  let name ← readUnlimitedString
  let flags ← readVarU32
  pure (name, flags)

/-- The closure of lines 96-102. -/
def readImportInfo : R (List UInt8 × List UInt8 × BitVec 32) := do
  let module ← readUnlimitedString
  let field ← readUnlimitedString
  let flags ← readVarU32
  pure (module, field, flags)

/-- `Dylink0Subsection::from_reader` (lines 71-114); what is left in the reader is ignored. -/
def dylinkFromReader (id : UInt8) (r : Reader) : Except Err Dylink :=
  if id = 1 then whole readMemInfo r
  else if id = 2 then (whole (readVec readUnlimitedString) r).map .needed
  else if id = 3 then (whole (readVec readExportInfo) r).map .exportInfo
  else if id = 4 then (whole (readVec readImportInfo) r).map .importInfo
  else if id = 5 then (whole (readVec readUnlimitedString) r).map .runtimePath
  else .ok (.unknown id r.rest (r.originalPosition, r.originalOffset + r.maxPosition))

/-- `impl Encode for (&str, u32)` and for triples (wast's encode.rs lines 80-93). -/
def encodeExportInfo (e : List UInt8 × BitVec 32) : Option (List UInt8) := do
  pure ((← encodeSlice e.1) ++ encodeU32 e.2)

@[inherit_doc encodeExportInfo]
def encodeImportInfo (e : List UInt8 × List UInt8 × BitVec 32) : Option (List UInt8) := do
  pure ((← encodeSlice e.1) ++ (← encodeSlice e.2.1) ++ encodeU32 e.2.2)

/-- `Dylink0Subsection::id` (wast's custom.rs lines 392-401). wast has no unknown subsections. -/
def Dylink.id : Dylink → UInt8
  | .memInfo .. => 1
  | .needed _ => 2
  | .exportInfo _ => 3
  | .importInfo _ => 4
  | .runtimePath _ => 5
  | .unknown ty _ _ => ty

/-- `impl Encode for Dylink0Subsection` (wast's binary.rs lines 1456-1476). -/
def Dylink.encode : Dylink → Option (List UInt8)
  | .memInfo a b c d => some (encodeU32 a ++ encodeU32 b ++ encodeU32 c ++ encodeU32 d)
  | .needed l => encodeVec encodeSlice l
  | .exportInfo l => encodeVec encodeExportInfo l
  | .importInfo l => encodeVec encodeImportInfo l
  | .runtimePath l => encodeVec encodeSlice l
  | .unknown _ data _ => some data

/-- The loop body of `Dylink0::to_section` (binary.rs lines 1443-1448). -/
def encodeDylink (d : Dylink) : Option (List UInt8) := do
  let tmp ← d.encode
  pure ([d.id] ++ (← encodeSlice tmp))

/-! ### Which reader -/

/-- The variants of `enum KnownCustom` (custom.rs lines 120-160) of the sections above. -/
inductive Known where
  | branchHints (s : SectionLimited)
  | dylink0 (r : Reader)
  | coreDump (name : List UInt8)
  | coreDumpModules (l : List (List UInt8))
  | coreDumpInstances (l : List Instance)
  | coreDumpStack (s : Stack)
  | linking (r : Reader)
  | unknown
  deriving DecidableEq, Repr

/-- `match .. { Ok(s) => k(s), Err(_) => Unknown }`. -/
def Known.ofExcept (k : α → Known) : Except Err α → Known
  | .ok a => k a
  | .error _ => .unknown

/-- `CustomSectionReader::as_known` (custom.rs lines 57-105) for the names of the sections above;
the other names are left out. -/
def asKnown (name : String) (r : Reader) : Known :=
  if name = "metadata.code.branch_hint" then .ofExcept .branchHints (SectionLimited.new r)
  else if name = "dylink.0" then .dylink0 r
  else if name = "core" then .ofExcept .coreDump (readCore r)
  else if name = "coremodules" then .ofExcept .coreDumpModules (readModules r)
  else if name = "coreinstances" then .ofExcept .coreDumpInstances (readInstances r)
  else if name = "corestack" then .ofExcept .coreDumpStack (readStack r)
  else if name = "linking" then .ofExcept .linking (readLinking r)
  else .unknown

end Verif.Custom
