import Verif.Items.Model
import Verif.Instr.EncModel
import Verif.Framing.Model
/-! wasm-encoder's builders for the sections of a core module
(crates/wasm-encoder/src/core/*.rs). `none` is a panic. -/
namespace Verif.Items.Enc
open Verif.Leb Verif.Framing Verif.Types.Enc

/-- `struct ConstExpr` (code.rs lines 2253-2255): the encoded instructions without the final
`end`. -/
structure ConstExpr where
  bytes : List UInt8
  deriving DecidableEq, Repr

/-- `ConstExpr::extended` (code.rs lines 2271-2277). -/
def ConstExpr.extended (is : List Instr.Enc.Instr) : Option ConstExpr := do
  pure ⟨← Instr.Enc.encodeSeq is⟩

/-- `impl Encode for ConstExpr` (code.rs lines 2418-2423). -/
def ConstExpr.encode (e : ConstExpr) : List UInt8 := e.bytes ++ [0x0B]

/-- `struct TableType` (tables.rs lines 83-96). -/
structure TableType where
  elementType : RefType
  table64 : Bool
  minimum : BitVec 64
  maximum : Option (BitVec 64)
  shared : Bool
  deriving DecidableEq, Repr

/-- `if b { flags |= bit }`. -/
def flag (b : Bool) (bit : UInt8) : UInt8 := if b then bit else 0

/-- `if let Some(x) = o { x.encode(sink) }`. -/
def encodeOpt (enc : α → List UInt8) : Option α → List UInt8
  | none => []
  | some x => enc x

/-- `impl Encode for TableType` (tables.rs lines 110-129). -/
def TableType.encode (t : TableType) : List UInt8 :=
  t.elementType.encode ++
    [flag t.maximum.isSome 1 ||| flag t.shared 2 ||| flag t.table64 4] ++
    encodeU64 t.minimum ++ encodeOpt encodeU64 t.maximum

/-- A call of `TableSection::table` or `table_with_init`. -/
structure Table where
  ty : TableType
  init : Option ConstExpr
  deriving DecidableEq, Repr

/-- `TableSection::table` and `table_with_init` (tables.rs lines 50-66): the bytes added. -/
def Table.encode (t : Table) : List UInt8 :=
  match t.init with
  | none => t.ty.encode
  | some e => [0x40, 0x00] ++ t.ty.encode ++ e.encode

/-- `struct MemoryType` (memories.rs lines 71-90). -/
structure MemoryType where
  minimum : BitVec 64
  maximum : Option (BitVec 64)
  memory64 : Bool
  shared : Bool
  pageSizeLog2 : Option (BitVec 32)
  deriving DecidableEq, Repr

/-- `impl Encode for MemoryType` (memories.rs lines 93-115). -/
def MemoryType.encode (t : MemoryType) : List UInt8 :=
  [flag t.maximum.isSome 1 ||| flag t.shared 2 ||| flag t.memory64 4 |||
    flag t.pageSizeLog2.isSome 8] ++
    encodeU64 t.minimum ++ encodeOpt encodeU64 t.maximum ++ encodeOpt encodeU32 t.pageSizeLog2

/-- `struct GlobalType` (globals.rs lines 80-87). -/
structure GlobalType where
  valType : ValType
  mutable : Bool
  shared : Bool
  deriving DecidableEq, Repr

/-- `impl Encode for GlobalType` (globals.rs lines 90-100). -/
def GlobalType.encode (t : GlobalType) : List UInt8 :=
  t.valType.encode ++ [flag t.mutable 1 ||| flag t.shared 2]

/-- A call of `GlobalSection::global`. -/
structure Global where
  ty : GlobalType
  init : ConstExpr
  deriving DecidableEq, Repr

/-- `GlobalSection::global` (globals.rs lines 51-56). -/
def Global.encode (g : Global) : List UInt8 := g.ty.encode ++ g.init.encode

/-- `struct TagType` (tags.rs lines 74-79) with its single `TagKind::Exception = 0`. -/
structure TagType where
  funcTypeIdx : BitVec 32
  deriving DecidableEq, Repr

/-- `impl Encode for TagType` (tags.rs lines 82-85). -/
def TagType.encode (t : TagType) : List UInt8 := [0x00] ++ encodeU32 t.funcTypeIdx

/-- `enum EntityType` (imports.rs lines 11-30). -/
inductive EntityType where
  | function (i : BitVec 32)
  | table (t : TableType)
  | memory (t : MemoryType)
  | global (t : GlobalType)
  | tag (t : TagType)
  | functionExact (i : BitVec 32)
  deriving DecidableEq, Repr

/-- `impl Encode for EntityType` (imports.rs lines 33-60; the sorts in core.rs lines 44-49). -/
def EntityType.encode : EntityType → List UInt8
  | .function i => [0x00] ++ encodeU32 i
  | .functionExact i => [0x20] ++ encodeU32 i
  | .table t => [0x01] ++ t.encode
  | .memory t => [0x02] ++ t.encode
  | .global t => [0x03] ++ t.encode
  | .tag t => [0x04] ++ t.encode

/-- `struct ImportCompact` (imports.rs lines 100-105). -/
structure ImportCompact where
  name : List UInt8
  ty : EntityType
  deriving DecidableEq, Repr

/-- `enum Imports` (imports.rs lines 109-128), `struct Import` (lines 89-96) inlined. -/
inductive Imports where
  | single (module name : List UInt8) (ty : EntityType)
  | compact1 (module : List UInt8) (items : List ImportCompact)
  | compact2 (module : List UInt8) (ty : EntityType) (names : List (List UInt8))
  deriving DecidableEq, Repr

/-- `for x in xs { x.encode(sink) }`. -/
def encodeAll (enc : α → Option (List UInt8)) : List α → Option (List UInt8)
  | [] => some []
  | x :: xs => do pure ((← enc x) ++ (← encodeAll enc xs))

/-- The loop body of imports.rs lines 190-193. -/
def ImportCompact.encode (i : ImportCompact) : Option (List UInt8) := do
  pure ((← encodeSlice i.name) ++ i.ty.encode)

/-- `ImportSection::imports` (imports.rs lines 178-208). -/
def Imports.encode : Imports → Option (List UInt8)
  | .single module name ty => do
    pure ((← encodeSlice module) ++ (← encodeSlice name) ++ ty.encode)
  | .compact1 module items => do
    pure ((← encodeSlice module) ++ [0x00] ++ [0x7F] ++ (← encodeUsize items.length) ++
      (← encodeAll ImportCompact.encode items))
  | .compact2 module ty names => do
    pure ((← encodeSlice module) ++ [0x00] ++ [0x7E] ++ ty.encode ++
      (← encodeUsize names.length) ++ (← encodeAll encodeSlice names))

/-- `enum ExportKind` (exports.rs lines 10-21). -/
inductive ExportKind where
  | func | table | memory | global | tag
  deriving DecidableEq, Repr

/-- `impl Encode for ExportKind` (exports.rs lines 24-26): the discriminants are the sorts. -/
def ExportKind.encode : ExportKind → List UInt8
  | .func => [0x00] | .table => [0x01] | .memory => [0x02] | .global => [0x03] | .tag => [0x04]

/-- A call of `ExportSection::export`. -/
structure Export where
  name : List UInt8
  kind : ExportKind
  index : BitVec 32
  deriving DecidableEq, Repr

/-- `ExportSection::export` (exports.rs lines 67-73). -/
def Export.encode (e : Export) : Option (List UInt8) := do
  pure ((← encodeSlice e.name) ++ e.kind.encode ++ encodeU32 e.index)

/-- `enum Elements` (elements.rs lines 50-55). -/
inductive Elements where
  | functions (fs : List (BitVec 32))
  | expressions (ty : RefType) (es : List ConstExpr)
  deriving DecidableEq, Repr

/-- `enum ElementMode` (elements.rs lines 59-79). -/
inductive ElementMode where
  | passive
  | declared
  | active (table : Option (BitVec 32)) (offset : ConstExpr)
  deriving DecidableEq, Repr

/-- `struct ElementSegment` (elements.rs lines 83-88). -/
structure ElementSegment where
  mode : ElementMode
  elements : Elements
  deriving DecidableEq, Repr

/-- `RefType::FUNCREF` (encoder types.rs lines 240-247). -/
def funcref : RefType := ⟨true, .abstract false .func⟩

/-- `expr_bit` (elements.rs lines 108-111). -/
def Elements.exprBit : Elements → BitVec 32
  | .expressions .. => 4
  | .functions _ => 0

/-- The test of elements.rs lines 123-126: the short encoding of a segment for table 0. -/
def Elements.isFuncref : Elements → Bool
  | .functions _ => true
  | .expressions ty _ => ty == funcref

/-- elements.rs lines 113-147: the bytes and `encode_type`. -/
def encodeMode (mode : ElementMode) (els : Elements) : List UInt8 × Bool :=
  match mode with
  | .passive => (encodeU32 (1 ||| els.exprBit), true)
  | .declared => (encodeU32 (3 ||| els.exprBit), true)
  | .active table offset =>
    if table.isNone ∧ els.isFuncref then (encodeU32 els.exprBit ++ offset.encode, false)
    else (encodeU32 (2 ||| els.exprBit) ++ encodeU32 (table.getD 0) ++ offset.encode, true)

/-- elements.rs lines 149-165. -/
def Elements.encode (encodeType : Bool) : Elements → Option (List UInt8)
  | .functions fs => do
    pure ((if encodeType then [0x00] else []) ++ (← encodeUsize fs.length) ++
      fs.flatMap encodeU32)
  | .expressions ty es => do
    pure ((if encodeType then ty.encode else []) ++ (← encodeUsize es.length) ++
      es.flatMap ConstExpr.encode)

/-- `ElementSection::segment` (elements.rs lines 107-169). -/
def ElementSegment.encode (s : ElementSegment) : Option (List UInt8) := do
  let (bytes, encodeType) := encodeMode s.mode s.elements
  pure (bytes ++ (← s.elements.encode encodeType))

/-- `enum DataSegmentMode` (data.rs lines 55-67). -/
inductive DataSegmentMode where
  | active (memoryIndex : BitVec 32) (offset : ConstExpr)
  | passive
  deriving DecidableEq, Repr

/-- `struct DataSegment` (data.rs lines 46-51). -/
structure DataSegment where
  mode : DataSegmentMode
  data : List UInt8
  deriving DecidableEq, Repr

/-- data.rs lines 91-110. -/
def DataSegmentMode.encode : DataSegmentMode → List UInt8
  | .passive => [0x01]
  | .active memoryIndex offset =>
    if memoryIndex = 0 then [0x00] ++ offset.encode
    else [0x02] ++ encodeU32 memoryIndex ++ offset.encode

/-- `DataSection::segment` (data.rs lines 86-118). -/
def DataSegment.encode (s : DataSegment) : Option (List UInt8) := do
  pure (s.mode.encode ++ (← encodeUsize s.data.length) ++ s.data)

/-- A call of `CoreTypeEncoder::subtype` or `CoreTypeEncoder::rec` after `TypeSection::ty`
(types.rs lines 543-549, 660-662, 704-720). -/
inductive TypeEntry where
  | single (t : SubType)
  | group (ts : List SubType)
  deriving DecidableEq, Repr

/-- The bytes added by the call. -/
def TypeEntry.encode : TypeEntry → Option (List UInt8)
  | .single t => t.encode
  | .group ts => encodeRec ts

/-- The `bytes` and `num_added` fields of every section builder (for instance tables.rs lines
28-31). -/
structure Builder where
  bytes : List UInt8 := []
  numAdded : BitVec 32 := 0
  deriving DecidableEq, Repr

/-- Every method of a builder appends to `bytes` and adds one to `num_added`; the addition
wraps as in a release build. -/
def Builder.add (b : Builder) (bytes : List UInt8) : Builder := ⟨b.bytes ++ bytes, b.numAdded + 1⟩

/-- Adding items one after another. -/
def buildFrom (enc : α → Option (List UInt8)) (b : Builder) (xs : List α) : Option Builder :=
  xs.foldlM (fun b x => do pure (b.add (← enc x))) b

/-- The sections with items. -/
inductive Section where
  | types (xs : List TypeEntry)
  | imports (xs : List Imports)
  | functions (xs : List (BitVec 32))
  | tables (xs : List Table)
  | memories (xs : List MemoryType)
  | tags (xs : List TagType)
  | globals (xs : List Global)
  | exports (xs : List Export)
  | elements (xs : List ElementSegment)
  | data (xs : List DataSegment)

/-- `Section::id` of each builder (core.rs lines 67-99). -/
def Section.id : Section → UInt8
  | .types _ => 1 | .imports _ => 2 | .functions _ => 3 | .tables _ => 4 | .memories _ => 5
  | .globals _ => 6 | .exports _ => 7 | .elements _ => 9 | .data _ => 11 | .tags _ => 13

/-- A section built by adding the items one after another to an empty builder;
`FunctionSection::function` (functions.rs lines 47-51) appends the index, `MemorySection::memory`
(memories.rs lines 50-54) and `TagSection::tag` (tags.rs lines 45-49) the encoded type. -/
def Section.build : Section → Option Builder
  | .types xs => buildFrom TypeEntry.encode {} xs
  | .imports xs => buildFrom Imports.encode {} xs
  | .functions xs => buildFrom (fun i => some (encodeU32 i)) {} xs
  | .tables xs => buildFrom (fun t => some t.encode) {} xs
  | .memories xs => buildFrom (fun t => some t.encode) {} xs
  | .tags xs => buildFrom (fun t => some t.encode) {} xs
  | .globals xs => buildFrom (fun g => some g.encode) {} xs
  | .exports xs => buildFrom Export.encode {} xs
  | .elements xs => buildFrom ElementSegment.encode {} xs
  | .data xs => buildFrom DataSegment.encode {} xs

/-- The section as the framing model (`Verif.Framing.Model`) takes it. -/
def Section.sect (s : Section) : Option Sect := do
  let b ← s.build
  pure (.items s.id b.numAdded b.bytes)

end Verif.Items.Enc
