import Verif.Instr.Stack
/-! wasmparser's readers for the items of the sections of a core module
(crates/wasmparser/src/readers/core/{imports,tables,memories,globals,exports,tags,elements,
data,init}.rs and crates/wasmparser/src/readers.rs).

Strings are their bytes; a `Range<u64>` is a pair. A failed `assert!` or index is an error
whose message starts with "panic". -/
namespace Verif.Items
open Verif.Reader Verif.Types

/-- The features (crates/wasmparser/src/features.rs) that the readers look at: those of the
operator reader and `compact_imports` (line 336). -/
structure Feats extends Instr.Features where
  compactImports : Bool
  deriving DecidableEq, Repr

/-! ### Sections as sequences of items -/

/-- `struct SectionLimited` (readers.rs lines 84-88); the item type is a parameter of the
functions below. -/
structure SectionLimited where
  reader : Reader
  count : BitVec 32
  deriving DecidableEq, Repr

/-- `SectionLimited::new` (readers.rs lines 101-108). -/
def SectionLimited.new (r : Reader) : Except Err SectionLimited :=
  match readVarU32 r with
  | .error e => .error e
  | .ok (count, r') => .ok ⟨r', count⟩

/-- `SectionLimitedIntoIter::next` (readers.rs lines 196-214) until it returns `None` or an
error, with `remaining` items left. -/
def collectFrom (item : R α) : Nat → Reader → Except Err (List α)
  | 0, r =>
    if r.eof then .ok []
    else .error (.msg "section size mismatch: unexpected data at the end of the section"
      r.originalPosition)
  | n + 1, r =>
    match item r with
    | .error e => .error e
    | .ok (a, r') =>
      match collectFrom item n r' with
      | .error e => .error e
      | .ok as => .ok (a :: as)

/-- `into_iter().collect::<Result<Vec<_>>>()` on a section. -/
def SectionLimited.collect (item : R α) (s : SectionLimited) : Except Err (List α) :=
  collectFrom item s.count.toNat s.reader

/-! ### Constant expressions -/

/-- `struct ConstExpr` (init.rs lines 21-23). -/
structure ConstExpr where
  reader : Reader
  deriving DecidableEq, Repr

/-- `OperatorsReader::skip_const_expr` (operators.rs lines 578-590). Every step consumes a
byte, so that `fuel` above the number of remaining bytes is never exhausted. -/
def skipConstExprFrom (f : Instr.Features) : Nat → Instr.OperatorsReader →
    Except Err Instr.OperatorsReader
  | 0, s => .error (.msg "out of fuel" s.reader.originalPosition)
  | n + 1, s =>
    match s.read f with
    | .error e => .error e
    | .ok (.end_, s') =>
      if s'.stack.top.isSome then
        .error (.msg "control frames remain at end of expression" s'.reader.originalPosition)
      else .ok s'
    | .ok (_, s') => skipConstExprFrom f n s'

/-- The closure of init.rs lines 53-58 and the loop body of elements.rs lines 122-129. -/
def skipConstExpr (f : Instr.Features) : R Unit := fun r =>
  match skipConstExprFrom f (r.bytesRemaining + 1) (Instr.OperatorsReader.new r) with
  | .error e => .error e
  | .ok s => .ok ((), s.reader)

/-- `ConstExpr::from_reader` (init.rs lines 51-60). -/
def readConstExpr (f : Instr.Features) : R ConstExpr := do
  let reader ← skip (skipConstExpr f)
  pure ⟨reader⟩

/-! ### Tables, memories, globals, tags -/

/-- `struct TableType` (types.rs lines 1930-1951). -/
structure TableType where
  elementType : RefType
  table64 : Bool
  initial : BitVec 64
  maximum : Option (BitVec 64)
  shared : Bool
  deriving DecidableEq, Repr

/-- The limit readers of tables.rs lines 79-92 and memories.rs lines 37-48. -/
def readLimit (f : Instr.Features) : R (BitVec 64) :=
  if f.memory64 then readVarU64 else do pure ((← readVarU32).setWidth 64)

/-- `if b { Some(read()?) } else { None }`. -/
def readOpt (b : Bool) (m : R α) : R (Option α) :=
  if b then do pure (some (← m)) else pure none

/-- `TableType::from_reader` (tables.rs lines 67-95). -/
def readTableType (f : Instr.Features) : R TableType := do
  let elementType ← readRefType
  let pos ← readPos
  let flags ← readU8
  if flags &&& 0xF8 ≠ 0 then R.fail "invalid table resizable limits flags" pos
  else do
    let initial ← readLimit f
    let maximum ← readOpt (flags &&& 1 ≠ 0) (readLimit f)
    pure ⟨elementType, flags &&& 4 ≠ 0, initial, maximum, flags &&& 2 ≠ 0⟩

/-- `enum TableInit` (tables.rs lines 33-39). -/
inductive TableInit where
  | refNull
  | expr (e : ConstExpr)
  deriving DecidableEq, Repr

/-- `struct Table` (tables.rs lines 24-29). -/
structure Table where
  ty : TableType
  init : TableInit
  deriving DecidableEq, Repr

/-- The two checks for the `0x40 0x00` prefix (tables.rs lines 43-54): `has_init_expr`. -/
def readTablePrefix : R Bool := do
  let b ← peekR
  if b = 0x40 then do
    let _ ← readU8
    let z ← readU8
    let pos ← readPos
    if z ≠ 0 then R.fail "invalid table encoding" (pos - 1)
    else pure true
  else pure false

/-- `TableInit` of `Table::from_reader` (tables.rs lines 57-61). -/
def readTableInit (f : Instr.Features) (hasInit : Bool) : R TableInit :=
  if hasInit then do pure (.expr (← readConstExpr f)) else pure .refNull

/-- `Table::from_reader` (tables.rs lines 42-63). -/
def readTable (f : Instr.Features) : R Table := do
  let hasInit ← readTablePrefix
  let ty ← readTableType f
  let init ← readTableInit f hasInit
  pure ⟨ty, init⟩

/-- `struct MemoryType` (types.rs lines 1966-2001). -/
structure MemoryType where
  memory64 : Bool
  shared : Bool
  initial : BitVec 64
  maximum : Option (BitVec 64)
  pageSizeLog2 : Option (BitVec 32)
  deriving DecidableEq, Repr

/-- The page size of memories.rs lines 49-57. -/
def readPageSize (pos : Nat) : R (BitVec 32) := do
  let val ← readVarU32
  if val.toNat ≥ 64 then R.fail "invalid custom page size" pos
  else pure val

/-- `MemoryType::from_reader` (memories.rs lines 22-60). -/
def readMemoryType (f : Instr.Features) : R MemoryType := do
  let pos ← readPos
  let flags ← readU8
  if flags &&& 0xF0 ≠ 0 then R.fail "invalid memory limits flags" pos
  else do
    let initial ← readLimit f
    let maximum ← readOpt (flags &&& 1 ≠ 0) (readLimit f)
    let page ← readOpt (flags &&& 8 ≠ 0) (readPageSize pos)
    pure ⟨flags &&& 4 ≠ 0, flags &&& 2 ≠ 0, initial, maximum, page⟩

/-- `struct GlobalType` (types.rs lines 2032-2039). -/
structure GlobalType where
  contentType : ValType
  mutable : Bool
  shared : Bool
  deriving DecidableEq, Repr

/-- `GlobalType::from_reader` (globals.rs lines 39-50). -/
def readGlobalType : R GlobalType := do
  let contentType ← readValType
  let flags ← readU8
  let pos ← readPos
  if flags.toNat > 3 then R.fail "malformed global flags" (pos - 1)
  else pure ⟨contentType, flags &&& 1 ≠ 0, flags &&& 2 ≠ 0⟩

/-- `struct Global` (globals.rs lines 20-25). -/
structure Global where
  ty : GlobalType
  initExpr : ConstExpr
  deriving DecidableEq, Repr

/-- `Global::from_reader` (globals.rs lines 31-35). -/
def readGlobal (f : Instr.Features) : R Global := do
  let ty ← readGlobalType
  let initExpr ← readConstExpr f
  pure ⟨ty, initExpr⟩

/-- `struct TagType` (types.rs lines 2050-2055); there is a single `TagKind`. -/
structure TagType where
  funcTypeIdx : BitVec 32
  deriving DecidableEq, Repr

/-- `TagType::from_reader` (tags.rs lines 22-31). -/
def readTagType : R TagType := do
  let attr ← readU8
  let pos ← readPos
  if attr ≠ 0 then R.fail "invalid tag attributes" (pos - 1)
  else do pure ⟨← readVarU32⟩

/-! ### Imports and exports -/

/-- `enum ExternalKind` (exports.rs lines 25-38). -/
inductive ExternalKind where
  | func | table | memory | global | tag | funcExact
  deriving DecidableEq, Repr

/-- `external_kind_from_byte` (binary_reader.rs lines 238-248). -/
def externalKindFromByte (b : UInt8) : Option ExternalKind :=
  if b = 0 then some .func
  else if b = 1 then some .table
  else if b = 2 then some .memory
  else if b = 3 then some .global
  else if b = 4 then some .tag
  else if b = 0x20 then some .funcExact
  else none

/-- `ExternalKind::from_reader` (exports.rs lines 70-74). -/
def readExternalKind : R ExternalKind := do
  let offset ← readPos
  let byte ← readU8
  match externalKindFromByte byte with
  | some k => pure k
  | none => R.fail "invalid leading byte for external kind" offset

/-- `enum TypeRef` (imports.rs lines 25-42). -/
inductive TypeRef where
  | func (i : BitVec 32)
  | table (t : TableType)
  | memory (t : MemoryType)
  | global (t : GlobalType)
  | tag (t : TagType)
  | funcExact (i : BitVec 32)
  deriving DecidableEq, Repr

/-- `TypeRef::from_reader` (imports.rs lines 178-187). -/
def readTypeRef (f : Instr.Features) : R TypeRef := do
  let k ← readExternalKind
  match k with
  | .func => do pure (.func (← readVarU32))
  | .funcExact => do pure (.funcExact (← readVarU32))
  | .table => do pure (.table (← readTableType f))
  | .memory => do pure (.memory (← readMemoryType f))
  | .global => do pure (.global (← readGlobalType))
  | .tag => do pure (.tag (← readTagType))

/-- `struct Import` (imports.rs lines 69-76). -/
structure Import where
  module : List UInt8
  name : List UInt8
  ty : TypeRef
  deriving DecidableEq, Repr

/-- `struct ImportItemCompact` (imports.rs lines 80-85). -/
structure ImportItemCompact where
  name : List UInt8
  ty : TypeRef
  deriving DecidableEq, Repr

/-- `enum Imports` (imports.rs lines 46-65). -/
inductive Imports where
  | single (start : Nat) (i : Import)
  | compact1 (module : List UInt8) (items : SectionLimited)
  | compact2 (module : List UInt8) (ty : TypeRef) (names : SectionLimited)
  deriving DecidableEq, Repr

/-- `reader.peek_bytes(1)?[0]` (imports.rs line 95). -/
def peekByte : R UInt8 := fun r =>
  match peekBytes r 1 with
  | .error e => .error e
  | .ok [] => .error (.msg "panic: index out of bounds" 0)
  | .ok (b :: _) => .ok (b, r)

/-- `SectionLimited::new` on a reader at hand, as a step that leaves the current reader. -/
def limited (r : Reader) : R SectionLimited := fun q =>
  match SectionLimited.new r with
  | .error e => .error e
  | .ok s => .ok (s, q)

/-- `let count = reader.read_var_u32()?; for _ in 0..count { .. }`. -/
def skipItems (item : R Unit) : R Unit := do
  let count ← readVarU32
  let _ ← readMany item count.toNat
  pure ()

/-- The loop body of imports.rs lines 110-111. -/
def skipImportItem (f : Instr.Features) : R Unit := do
  skipString
  let _ ← readTypeRef f
  pure ()

/-- The first arm of imports.rs lines 97-120. -/
def readCompact1 (f : Feats) (module : List UInt8) : R Imports := do
  let pos ← readPos
  if f.compactImports then do
    let _ ← readBytes 1
    let items ← skip (skipItems (skipImportItem f.toFeatures))
    pure (.compact1 module (← limited items))
  else R.fail "invalid leading byte 0x7F with compact imports proposal disabled" pos

/-- The second arm of imports.rs lines 121-145. -/
def readCompact2 (f : Feats) (module : List UInt8) : R Imports := do
  let pos ← readPos
  if f.compactImports then do
    let _ ← readBytes 1
    let ty ← readTypeRef f.toFeatures
    let names ← skip (skipItems skipString)
    pure (.compact2 module ty (← limited names))
  else R.fail "invalid leading byte 0x7E with compact imports proposal disabled" pos

/-- `Imports::from_reader` (imports.rs lines 91-155). -/
def readImports (f : Feats) : R Imports := do
  let start ← readPos
  let module ← readString
  let name ← readString
  let discriminator ← peekByte
  if name = [] ∧ discriminator = 0x7F then readCompact1 f module
  else if name = [] ∧ discriminator = 0x7E then readCompact2 f module
  else do pure (.single start ⟨module, name, ← readTypeRef f.toFeatures⟩)

/-- `ImportItemCompact::from_reader` (imports.rs lines 169-174); `read::<&str>` is
`read_string`. -/
def readImportItem (f : Instr.Features) : R ImportItemCompact := do
  let name ← readString
  let ty ← readTypeRef f
  pure ⟨name, ty⟩

/-- `struct Export` (exports.rs lines 42-49). -/
structure Export where
  name : List UInt8
  kind : ExternalKind
  index : BitVec 32
  deriving DecidableEq, Repr

/-- `Export::from_reader` (exports.rs lines 52-66). -/
def readExport : R Export := do
  let name ← readString
  let kind ← readExternalKind
  let pos ← readPos
  if kind = .funcExact then R.fail "Exact type is not allowed in the exports" pos
  else do pure ⟨name, kind, ← readVarU32⟩

/-! ### Element and data segments -/

/-- `enum ElementKind` (elements.rs lines 35-47). -/
inductive ElementKind where
  | passive
  | active (tableIndex : Option (BitVec 32)) (offset : ConstExpr)
  | declared
  deriving DecidableEq, Repr

/-- `enum ElementItems` (elements.rs lines 51-56). -/
inductive ElementItems where
  | functions (s : SectionLimited)
  | expressions (ty : RefType) (s : SectionLimited)
  deriving DecidableEq, Repr

/-- `struct Element` (elements.rs lines 24-31). -/
structure Element where
  kind : ElementKind
  items : ElementItems
  range : Nat × Nat
  deriving DecidableEq, Repr

/-- elements.rs lines 83-101. -/
def readElementKind (f : Instr.Features) (flags : BitVec 32) : R ElementKind :=
  if flags &&& 1 ≠ 0 then pure (if flags &&& 2 ≠ 0 then .declared else .passive)
  else do
    let tableIndex ← readOpt (flags &&& 2 ≠ 0) readVarU32
    let offset ← readConstExpr f
    pure (.active tableIndex offset)

/-- elements.rs lines 103-119. -/
def readElementType (flags : BitVec 32) (exprs : Bool) : R (Option RefType) :=
  if flags &&& 3 ≠ 0 then
    if exprs then do pure (some (← readRefType))
    else do
      let k ← readExternalKind
      let pos ← readPos
      if k = .func then pure none
      else R.fail "only the function external type is supported in elem segment" (pos - 1)
  else pure none

/-- elements.rs lines 121-139: the bytes of the items. -/
def skipElementItems (f : Instr.Features) (exprs : Bool) : R Unit :=
  if exprs then skipItems (skipConstExpr f)
  else skipItems (do let _ ← readVarU32; pure ())

/-- elements.rs lines 140-145. -/
def elementItems (exprs : Bool) (ty : Option RefType) (data : Reader) : R ElementItems :=
  if exprs then do pure (.expressions (ty.getD RefType.funcref) (← limited data))
  else if ty.isSome then R.fail "panic: assertion failed: ty.is_none()" 0
  else do pure (.functions (← limited data))

/-- `Element::from_reader` (elements.rs lines 62-152). -/
def readElement (f : Instr.Features) : R Element := do
  let start ← readPos
  let flags ← readVarU32
  let pos ← readPos
  if flags &&& 0xFFFFFFF8 ≠ 0 then R.fail "invalid flags byte in element segment" (pos - 1)
  else do
    let kind ← readElementKind f flags
    let ty ← readElementType flags (flags &&& 4 ≠ 0)
    let data ← skip (skipElementItems f (flags &&& 4 ≠ 0))
    let items ← elementItems (flags &&& 4 ≠ 0) ty data
    let stop ← readPos
    pure ⟨kind, items, (start, stop)⟩

/-- `enum DataKind` (data.rs lines 32-42). -/
inductive DataKind where
  | passive
  | active (memoryIndex : BitVec 32) (offset : ConstExpr)
  deriving DecidableEq, Repr

/-- `struct Data` (data.rs lines 21-28). -/
structure Data where
  kind : DataKind
  data : List UInt8
  range : Nat × Nat
  deriving DecidableEq, Repr

/-- data.rs lines 69-73. -/
def readMemoryIndex (flags : BitVec 32) : R (BitVec 32) :=
  if flags = 0 then pure 0 else readVarU32

/-- data.rs lines 66-86. -/
def readDataKind (f : Instr.Features) (start : Nat) (flags : BitVec 32) : R DataKind :=
  if flags = 1 then pure .passive
  else if flags = 0 ∨ flags = 2 then do
    let memoryIndex ← readMemoryIndex flags
    let offset ← readConstExpr f
    pure (.active memoryIndex offset)
  else R.fail "invalid flags byte in data segment" start

/-- `Data::from_reader` (data.rs lines 48-93). -/
def readData (f : Instr.Features) : R Data := do
  let start ← readPos
  let flags ← readVarU32
  let kind ← readDataKind f start flags
  let data ← readReader
  pure ⟨kind, data.rest, (start, data.originalOffset + data.maxPosition)⟩

/-! ### The items of a section, by section id -/

/-- What the iterators of the section readers yield (parser.rs lines 163-205: which reader
belongs to which payload). -/
inductive Items where
  | types (xs : List RecGroup)
  | imports (xs : List Imports)
  | functions (xs : List (BitVec 32))
  | tables (xs : List Table)
  | memories (xs : List MemoryType)
  | tags (xs : List TagType)
  | globals (xs : List Global)
  | exports (xs : List Export)
  | elements (xs : List Element)
  | data (xs : List Data)

/-- Collects the items of a section of a known kind; the ids are those of
`Parser::parse_reader` (parser.rs lines 767-845), other ids do not carry items. -/
def collectItems (f : Feats) (id : UInt8) (s : SectionLimited) : Option (Except Err Items) :=
  if id = 1 then some (.types <$> s.collect readRecGroup)
  else if id = 2 then some (.imports <$> s.collect (readImports f))
  else if id = 3 then some (.functions <$> s.collect readVarU32)
  else if id = 4 then some (.tables <$> s.collect (readTable f.toFeatures))
  else if id = 5 then some (.memories <$> s.collect (readMemoryType f.toFeatures))
  else if id = 6 then some (.globals <$> s.collect (readGlobal f.toFeatures))
  else if id = 7 then some (.exports <$> s.collect readExport)
  else if id = 9 then some (.elements <$> s.collect (readElement f.toFeatures))
  else if id = 11 then some (.data <$> s.collect (readData f.toFeatures))
  else if id = 13 then some (.tags <$> s.collect readTagType)
  else none

end Verif.Items
