import Verif.Reenc.Model
/-! Re-encoding of the items of sections (crates/wasm-encoder/src/reencode.rs, module `utils`).

As in `Verif.Reenc.Model`, a reencoder is represented by its index methods, and `none` is an
error or a panic. A method that reads items from an iterator and adds them to a builder one by
one is modelled as reading all of them and then converting them: both fail if one of them cannot
be read or converted, and nothing is observed in between since a failed re-encoding yields no
module. -/
namespace Verif.Remod
open Verif.Reader Verif.Items Verif.Reenc

variable (m : Maps)

/-- `for item in section { .. item? .. }`: the items, if all of them can be read. -/
def itemsOf (item : R α) (s : SectionLimited) : Option (List α) :=
  match s.collect item with
  | .ok xs => some xs
  | .error _ => none

/-- `table_type` (lines 1329-1340). -/
def tableType (t : TableType) : Option Enc.TableType := do
  pure { elementType := ← Types.Reenc.refType m.type t.elementType, minimum := t.initial
         maximum := t.maximum, table64 := t.table64, shared := t.shared }

/-- The `match` of `parse_table` (lines 1318-1325). -/
def tableInit (f : Instr.Features) : TableInit → Option (Option Enc.ConstExpr)
  | .refNull => some none
  | .expr e => do pure (some (← constExpr m f e))

/-- `parse_table` (lines 1312-1327). -/
def table (f : Instr.Features) (t : Table) : Option Enc.Table := do
  let ty ← tableType m t.ty
  pure { ty, init := ← tableInit m f t.init }

/-- `memory_type` (lines 1046-1057). -/
def memoryType (t : MemoryType) : Enc.MemoryType :=
  { minimum := t.initial, maximum := t.maximum, memory64 := t.memory64, shared := t.shared
    pageSizeLog2 := t.pageSizeLog2 }

/-- `tag_type` (lines 1081-1089) with `tag_kind` (1059-1066). -/
def tagType (t : TagType) : Enc.TagType := { funcTypeIdx := m.type t.funcTypeIdx }

/-- `global_type` (lines 1411-1420). -/
def globalType (t : GlobalType) : Option Enc.GlobalType := do
  pure { valType := ← Types.Reenc.valType m.type t.contentType, mutable := t.mutable
         shared := t.shared }

/-- `parse_global` (lines 1399-1409). -/
def global (f : Instr.Features) (g : Global) : Option Enc.Global := do
  let ty ← globalType m g.ty
  pure { ty, init := ← constExpr m f g.initExpr }

/-- `external_index` (lines 62-76). -/
def externalIndex : ExternalKind → BitVec 32 → BitVec 32
  | .func, i | .funcExact, i => m.func i
  | .table, i => m.table i
  | .memory, i => m.memory i
  | .global, i => m.global i
  | .tag, i => m.tag i

/-- `export_kind` (lines 1031-1044). -/
def exportKind : ExternalKind → Enc.ExportKind
  | .func | .funcExact => .func
  | .table => .table
  | .memory => .memory
  | .global => .global
  | .tag => .tag

/-- `parse_export` (lines 1371-1382). -/
def export_ (x : Export) : Enc.Export :=
  { name := x.name, kind := exportKind x.kind, index := externalIndex m x.kind x.index }

/-- `entity_type` (lines 1422-1436). -/
def entityType : TypeRef → Option Enc.EntityType
  | .func i => some (.function (m.type i))
  | .funcExact i => some (.functionExact (m.type i))
  | .table t => do pure (.table (← tableType m t))
  | .memory t => some (.memory (memoryType t))
  | .global t => do pure (.global (← globalType m t))
  | .tag t => some (.tag (tagType m t))

/-- The loop body of `parse_imports` for the first compact form (lines 1467-1473). -/
def importItem (i : ImportItemCompact) : Option Enc.ImportCompact := do
  pure { name := i.name, ty := ← entityType m i.ty }

/-- `parse_imports` (lines 1454-1489). -/
def imports (f : Instr.Features) : Imports → Option Enc.Imports
  | .single _ i => do pure (.single i.module i.name (← entityType m i.ty))
  | .compact1 module items => do
    let xs ← itemsOf (readImportItem f) items
    pure (.compact1 module (← xs.mapM (importItem m)))
  | .compact2 module ty names => do
    let ns ← itemsOf readString names
    pure (.compact2 module (← entityType m ty) ns)

/-- The inner `match` of `parse_element` (lines 1597-1603). -/
def elementTable (tableIndex : Option (BitVec 32)) : Option (BitVec 32) :=
  let n := m.table (tableIndex.getD 0)
  if tableIndex = none ∧ n = 0 then none else some n

/-- The outer `match` of `parse_element` (lines 1583-1609). -/
def elementKind (f : Instr.Features) : ElementKind → Option Enc.ElementMode
  | .active tableIndex offset => do
    pure (.active (elementTable m tableIndex) (← constExpr m f offset))
  | .passive => some .passive
  | .declared => some .declared

/-- `element_items` (lines 1613-1633). -/
def elementItems (f : Instr.Features) : ElementItems → Option Enc.Elements
  | .functions s => do
    let fs ← itemsOf readVarU32 s
    pure (.functions (fs.map m.func))
  | .expressions ty s => do
    let cs ← itemsOf (readConstExpr f) s
    let es ← cs.mapM (constExpr m f)
    pure (.expressions (← Types.Reenc.refType m.type ty) es)

/-- `parse_element` (lines 1577-1611). -/
def element (f : Instr.Features) (x : Element) : Option Enc.ElementSegment := do
  let elements ← elementItems m f x.items
  pure { mode := ← elementKind m f x.kind, elements }

/-- The `match` of `parse_data` (lines 1548-1558). -/
def dataKind (f : Instr.Features) : DataKind → Option Enc.DataSegmentMode
  | .active memoryIndex offset => do
    pure (.active (m.memory memoryIndex) (← constExpr m f offset))
  | .passive => some .passive

/-- `parse_data` (lines 1543-1560). -/
def data (f : Instr.Features) (x : Data) : Option Enc.DataSegment := do
  pure { mode := ← dataKind m f x.kind, data := x.data }

/-- `parse_recursive_type_group` (lines 1128-1144): the call made on the encoder. -/
def recGroup : Types.RecGroup → Option Enc.TypeEntry
  | .explicit tys => do pure (.group (← (tys.map (·.2)).mapM (Types.Reenc.subType m.type)))
  | .implicit _ ty => do pure (.single (← Types.Reenc.subType m.type ty))

/-- `parse_type_section` (lines 1116-1125), `parse_import_section` (1440-1450),
`parse_function_section` (1518-1527), `parse_table_section` (1300-1309), `parse_memory_section`
(1504-1514), `parse_tag_section` (1344-1354), `parse_global_section` (1386-1395),
`parse_export_section` (1358-1367), `parse_element_section` (1564-1573), `parse_data_section`
(1531-1540). -/
def items (f : Feats) : Items → Option Enc.Section
  | .types xs => do pure (.types (← xs.mapM (recGroup m)))
  | .imports xs => do pure (.imports (← xs.mapM (imports m f.toFeatures)))
  | .functions xs => some (.functions (xs.map m.type))
  | .tables xs => do pure (.tables (← xs.mapM (table m f.toFeatures)))
  | .memories xs => some (.memories (xs.map memoryType))
  | .tags xs => some (.tags (xs.map (tagType m)))
  | .globals xs => do pure (.globals (← xs.mapM (global m f.toFeatures)))
  | .exports xs => some (.exports (xs.map (export_ m)))
  | .elements xs => do pure (.elements (← xs.mapM (element m f.toFeatures)))
  | .data xs => do pure (.data (← xs.mapM (data m f.toFeatures)))

end Verif.Remod
