import Verif.Op.Module
import Verif.Op.Body
import Verif.Items.Model
import Verif.Parser.Spec
/-!
# Validation of whole core modules

crates/wasmparser/src/validator.rs and crates/wasmparser/src/validator/core.rs, with the readers
of `Verif.Items`, the list of types of `Verif.TypeList` and the operator validator of
`Verif.Op`. The component model is taken to be disabled (`WasmFeatures::COMPONENT_MODEL`).
Messages and offsets of errors are left out; `Fail` says whether a computation stopped with an
error or with a panic. Allocations that are only reused are left out. `usize` has 64 bits.
-/
namespace Verif.Valid
open Verif.Reader Verif.Items
open Verif.Types (AbsHeap HeapType UnpackedIndex PackedIndex RefType ValType StorageType FieldType
  CompositeInnerType SubType)
open Verif.TypeList (TypeList)
open Verif.TypeList.Spec (Storage Field Comp SubT)
open Verif.Op (Fail Val Ref St Env TableTy GlobalTy)
open Verif.Instr (Operator)
open Verif.Std (BSearch)

/-- `WasmFeatures` (crates/wasmparser/src/features.rs), the ones that core modules depend on. -/
structure Feats extends Op.Features where
  multiMemory : Bool
  memory64 : Bool
  callIndirectOverlong : Bool
  compactImports : Bool
  mutableGlobal : Bool
  extendedConst : Bool
  customPageSizes : Bool
  deriving DecidableEq, Repr

/-- The flags that the readers look at (`Parser::set_features`, validator.rs line 504). -/
def Feats.reader (f : Feats) : Items.Feats where
  multiMemory := f.multiMemory
  memory64 := f.memory64
  legacyExceptions := f.legacyExceptions
  callIndirectOverlong := f.callIndirectOverlong
  compactImports := f.compactImports

/-! ## Results -/

abbrev X := Except Fail

/-- Feature checks and other conditions whose failure is an error. -/
def need (b : Bool) : X Unit := if b then .ok () else .error .error

/-- An error for `None`. -/
def orErr {α : Type} : Option α → X α
  | some a => .ok a
  | none => .error .error

/-- A panic for `None` (`unwrap`, indexing). -/
def orPanic {α : Type} : Option α → X α
  | some a => .ok a
  | none => .error .panic

/-- The results of functions on the list of types. -/
def ofList {α : Type} : TypeList.M α → X α
  | .ok a => .ok a
  | .error (.error _) => .error .error
  | .error .panic => .error .panic
  | .error .diverges => .error .panic

/-- The results of readers. -/
def ofRead {α : Type} : Except Err α → X α
  | .ok a => .ok a
  | .error _ => .error .error

/-- A `for` loop over the items of a section (`SectionLimited::into_iter`, readers.rs lines
196-214): reading an item and the body of the loop take turns. -/
def eachFrom {α σ : Type} (item : R α) (g : σ → α → X σ) : Nat → Reader → σ → X σ
  | 0, r, s => do
    need r.eof
    pure s
  | n + 1, r, s => do
    let (a, r') ← ofRead (item r)
    let s ← g s a
    eachFrom item g n r' s

/-- The whole loop. -/
def eachItem {α σ : Type} (item : R α) (g : σ → α → X σ) (sec : SectionLimited) (s : σ) : X σ :=
  eachFrom item g sec.count.toNat sec.reader s

/-! ## What packed types stand for

The operator validator is modelled on types whose references are identifiers of the list of
types (`Op.Module`); in the code these are packed in 24 bits (C11). -/

/-- The identifier in a canonical index; other indices do not occur in the list of types. -/
def decIdx (p : PackedIndex) : Nat :=
  match p.unpack with
  | some (.id i) => i.toNat
  | _ => 0

/-- A heap type of the list. -/
def decHeap : HeapType → Op.Heap
  | .abstract s a => .abs s a
  | .concrete (.id i) => .concrete i.toNat
  | .exact (.id i) => .exact i.toNat
  | .concrete _ => .concrete 0
  | .exact _ => .exact 0

/-- A reference type of the list. -/
def decRef (r : RefType) : Ref :=
  ⟨r.isNullable, (r.heapType.map decHeap).getD (.abs false .any)⟩

/-- A value type of the list. -/
def decVal : ValType → Val
  | .i32 => .i32
  | .i64 => .i64
  | .f32 => .f32
  | .f64 => .f64
  | .v128 => .v128
  | .ref r => .ref (decRef r)

/-- A storage type of the list. -/
def decStorage : StorageType → Storage Nat
  | .i8 => .i8
  | .i16 => .i16
  | .val v => .val (decVal v)

/-- A field of the list. -/
def decField (f : FieldType) : Field Nat := ⟨f.mutable, decStorage f.elementType⟩

/-- A composite type of the list. -/
def decComp : CompositeInnerType → Comp Nat
  | .func f => .func (f.params.map decVal) (f.results.map decVal)
  | .array f => .array (decField f)
  | .struct fs => .struct (fs.map decField)
  | .cont i => .cont (decIdx i)

/-- A type of the list. -/
def decSub (t : SubType) : SubT Nat where
  final := t.isFinal
  supertype := t.supertypeIdx.map decIdx
  shared := t.compositeType.shared
  descriptor := t.compositeType.descriptorIdx.map decIdx
  describes := t.compositeType.describesIdx.map decIdx
  comp := decComp t.compositeType.inner

/-- What the list of types stands for. -/
def listOf (T : TypeList) : List (SubT Nat) := T.coreTypes.map decSub

/-! ## Modules under validation -/

/-- `struct ModuleState` (core.rs lines 25-45) and `struct Module` (lines 463-486). `m` has the
fields that the operator validator uses. Of imports and exports only the keys are kept, of
memories (in `m`) only whether they have 64 bit addresses: the other parts are only used by
the component model and to report types. `owned` says that the module has not been shared
(`MaybeOwned`, lines 1197-1260). -/
structure ModuleState where
  m : Op.Module
  numImportedGlobals : Nat
  typeSize : Nat
  imports : List (List UInt8 × List UInt8)
  exports : List (List UInt8)
  snapshot : Option TypeList
  owned : Bool
  codeIndex : Option Nat

/-- `ModuleState::new` and `Module::new` (core.rs lines 38-46, 489-510). -/
def ModuleState.new : ModuleState where
  m :=
    { types := [], tables := [], memories := [], globals := [], elementTypes := []
      dataCount := none, functions := [], tags := [], functionReferences := []
      exactFunctionImports := [], numImportedFunctions := 0 }
  numImportedGlobals := 0
  typeSize := 1
  imports := []
  exports := []
  snapshot := none
  owned := true
  codeIndex := none

/-- The resources of a module with the list of types as it is
(`OperatorValidatorResources`, core.rs lines 1030-1110; they differ from `ValidatorResources`
only in where the list comes from). -/
def env (f : Feats) (bs : BSearch) (T : TypeList) (m : Op.Module) : Env :=
  ⟨f.toFeatures, m.resources T (listOf T), bs⟩

/-- `assert_mut` (core.rs lines 1216-1224): the module must not be shared. -/
def ModuleState.assertMut (s : ModuleState) : X Unit := if s.owned then .ok () else .error .panic

/-- `check_max` (validator.rs lines 70-85). -/
def checkMax (cur added max : Nat) : X Unit := need (decide (cur + added ≤ max))

/-- `combine_type_sizes` (validator.rs lines 87-95). -/
def combineTypeSizes (a b : Nat) : X Nat :=
  if a + b < 1000000 then .ok (a + b) else .error .error

/-- `SubType::type_info` (types.rs lines 142-151) and the assertion of `TypeInfo::_new` (line
246). -/
def subTypeSize (x : SubT Nat) : X Nat :=
  let size := 1 + match x.comp with
    | .func ps rs => 1 + ps.length + rs.length
    | .array _ => 2
    | .struct fs => 1 + 2 * fs.length
    | .cont _ => 1
  if size < 2 ^ 24 then .ok size else .error .panic

section
variable (f : Feats) (bs : BSearch) (T : TypeList)

/-- `Module::check_ref_type` (core.rs lines 831-837). -/
def checkRefType (m : Op.Module) (r : RefType) : X Ref := do
  ofList (TypeList.checkRefType f.types r)
  let h ← orPanic r.heapType
  let h ← m.checkHeapType h
  orPanic (Op.mkRef r.isNullable h)

/-- `Module::check_value_type` (core.rs lines 822-829). -/
def checkValueType (m : Op.Module) : ValType → X Val
  | .ref r => do pure (.ref (← checkRefType f m r))
  | t => do
    ofList (TypeList.checkValueType f.types t)
    pure (decVal t)

/-- `types.reftype_is_shared` on a checked reference type. -/
def refIsShared (r : Ref) : X Bool := do
  let t ← orPanic (Op.encRef r)
  ofList (TypeList.reftypeIsShared T t)

/-- `types.valtype_is_shared` on a checked value type. -/
def valIsShared (v : Val) : X Bool := do
  let t ← orPanic (Op.encVal v)
  ofList (TypeList.valtypeIsShared T t)

/-- `types.reftype_is_subtype` on checked reference types. -/
def refIsSubtype (a b : Ref) : X Bool := do
  let x ← orPanic (Op.encRef a)
  let y ← orPanic (Op.encRef b)
  ofList (TypeList.reftypeIsSubtype T x y)

/-- `type_id_at` and `types[id]` (core.rs lines 656-660, 1015-1020). -/
def subTypeAt (m : Op.Module) (i : BitVec 32) : X (SubT Nat) := do
  let id ← orErr m.types[i.toNat]?
  orPanic (listOf T)[id]?

/-- `func_type_at` (core.rs lines 661-677). -/
def funcTypeAt (m : Op.Module) (i : BitVec 32) : X (List Val × List Val) := do
  match (← subTypeAt T m i).comp with
  | .func ps rs => pure (ps, rs)
  | _ => .error .error

/-- `get_func_type` (core.rs lines 967-980). -/
def getFuncType (m : Op.Module) (i : BitVec 32) : X (List Val × List Val) := do
  funcTypeAt T m (← orErr m.functions[i.toNat]?)

/-- `check_limits` (core.rs lines 890-903). -/
def checkLimits (initial : BitVec 64) (maximum : Option (BitVec 64)) : X Unit :=
  match maximum with
  | some max => need (decide (initial ≤ max))
  | none => .ok ()

/-- A size and an optional maximum are at most `n`. -/
def checkAtMost (initial : BitVec 64) (maximum : Option (BitVec 64)) (n : Nat) : X Unit := do
  need (decide (initial.toNat ≤ n))
  match maximum with
  | some max => need (decide (max.toNat ≤ n))
  | none => .ok ()

/-- `RefType::FUNCREF`. -/
def isFuncref (r : RefType) : Bool := RefType.new true (.abstract false .func) == some r

/-- `check_table_type` (core.rs lines 713-756): the type with a checked element type. -/
def checkTableType (m : Op.Module) (t : TableType) : X TableTy := do
  let elem ← (if isFuncref t.elementType then pure ⟨true, .abs false .func⟩
    else checkRefType f m t.elementType)
  checkLimits t.initial t.maximum
  (if t.table64 then need f.memory64 else pure ())
  (if t.shared then need f.sharedEverythingThreads else pure ())
  checkAtMost t.initial t.maximum (if t.table64 then 2 ^ 64 - 1 else 2 ^ 32 - 1)
  (if t.shared then do need (← refIsShared T elem) else pure ())
  pure ⟨elem, t.table64, t.shared⟩

/-- The page size of `check_memory_type` (core.rs lines 777-799). -/
def pageSize (p : Option (BitVec 32)) : X Nat :=
  match p with
  | none => .ok 65536
  | some n => do
    need f.customPageSizes
    if n ≠ 0 ∧ n ≠ 16 then .error .error else pure (2 ^ n.toNat)

/-- `max_wasm_memory32_pages` and `max_wasm_memory64_pages` (limits.rs lines 50-60). -/
def maxPages (memory64 : Bool) (pageSize : Nat) : Nat :=
  if memory64 then min (2 ^ 64 / pageSize) (2 ^ 64 - 1) else min (2 ^ 32 / pageSize) (2 ^ 32 - 1)

/-- `check_memory_type` (core.rs lines 758-821). -/
def checkMemoryType (t : MemoryType) : X Unit := do
  checkLimits t.initial t.maximum
  (if t.memory64 then need f.memory64 else pure ())
  (if t.shared then need f.threads else pure ())
  let size ← pageSize f t.pageSizeLog2
  checkAtMost t.initial t.maximum (maxPages t.memory64 size)
  (if t.shared then need t.maximum.isSome else pure ())

/-- `check_tag_type` (core.rs lines 857-869). -/
def checkTagType (m : Op.Module) (t : TagType) : X Unit := do
  need f.exceptions
  let (_, rs) ← funcTypeAt T m t.funcTypeIdx
  (if !rs.isEmpty then need f.stackSwitching else pure ())

/-- `check_global_type` (core.rs lines 871-888). -/
def checkGlobalType (m : Op.Module) (t : GlobalType) : X GlobalTy := do
  let content ← checkValueType f m t.contentType
  (if t.shared then need f.sharedEverythingThreads else pure ())
  (if t.shared then do need (← valIsShared T content) else pure ())
  pure ⟨content, t.mutable, t.shared⟩

/-- `max_tables` (core.rs lines 905-911). -/
def maxTables : Nat := if f.referenceTypes then 100 else 1

/-- `max_memories` (core.rs lines 913-919). -/
def maxMemories : Nat := if f.multiMemory then 100 else 1

/-! ### Constant expressions -/

/-- `function_references.insert`. -/
def insertRef (m : Op.Module) (i : BitVec 32) : Op.Module :=
  if m.functionReferences.contains i then m
  else { m with functionReferences := m.functionReferences ++ [i] }

/-- `validate_global` (core.rs lines 259-281). -/
def validateGlobal (s : ModuleState) (i : BitVec 32) : X Unit := do
  let g ← orErr s.m.globals[i.toNat]?
  (if s.numImportedGlobals ≤ i.toNat then need f.gc else pure ())
  need (!g.mutable)

/-- `insert_ref_func` (core.rs lines 301-313), with `uninserted_funcref`. -/
def insertRefFunc (s : ModuleState) (u : Bool) (i : BitVec 32) : ModuleState × Bool :=
  if s.owned then ({ s with m := insertRef s.m i }, u) else (s, true)

/-- Operators of the proposal `extended-const` (core.rs lines 324-349). -/
def extendedPlain : List Instr.Plain := [.i32Add, .i32Sub, .i32Mul, .i64Add, .i64Sub, .i64Mul]

/-- Operators of the proposal `gc` without immediates (core.rs lines 351-386). -/
def gcPlain : List Instr.Plain := [.refI31, .externConvertAny, .anyConvertExtern]

/-- Operators of the proposal `gc` with an index; `array.new_fixed` has two (same lines). -/
def gcIdx : List Instr.Idx :=
  [.structNew, .structNewDefault, .structNewDesc, .structNewDefaultDesc, .arrayNew,
    .arrayNewDefault]

/-- What `VisitConstOperator` does before it calls the operator validator
(core.rs lines 322-443). -/
def constOp (s : ModuleState) (u : Bool) : Operator → X (ModuleState × Bool)
  | .i32Const _ | .i64Const _ | .f32Const _ | .f64Const _ | .v128Const _ | .end_ => pure (s, u)
  | .plain o => do
    (if o ∈ extendedPlain then need f.extendedConst
      else if o ∈ gcPlain then need f.gc
      else if o = .refI31Shared then need f.sharedEverythingThreads
      else .error .error)
    pure (s, u)
  | .heap o _ => if o = .refNull then pure (s, u) else .error .error
  | .idx o i =>
    if o ∈ gcIdx then do
      need f.gc
      pure (s, u)
    else if o = .globalGet then do
      validateGlobal f s i
      pure (s, u)
    else if o = .refFunc then pure (insertRefFunc s u i)
    else .error .error
  | .idx2 o _ _ => do
    (if o = .arrayNewFixed then need f.gc else .error .error)
    pure (s, u)
  | _ => .error .error

/-- One operator: a new state of the module and of the operator validator. -/
def constStep (s : ModuleState) (u : Bool) (S : St) (o : Operator) :
    X (ModuleState × Bool × St) := do
  let (s, u) ← constOp f s u o
  match Op.op (env f bs T s.m) o S with
  | (.ok _, S) => pure (s, u, S)
  | (.error e, _) => .error e

/-- The loop of `check_const_expr` (core.rs lines 209-213). The number bounds the rounds; every
operator takes up at least a byte. -/
def constFrom : Nat → Reader → ModuleState → Bool → St → X (ModuleState × Bool)
  | 0, r, s, u, _ => if r.eof then .ok (s, u) else .error .panic
  | n + 1, r, s, u, S =>
    if r.eof then .ok (s, u)
    else do
      let (o, r') ← ofRead
        (Instr.visitOperator f.reader.toFeatures (S.control.head?.map (·.kind)) r)
      let (s, u, S) ← constStep f bs T s u S o
      constFrom n r' s u S

/-- `check_const_expr` (core.rs lines 189-460). -/
def checkConstExpr (s : ModuleState) (e : ConstExpr) (ty : Val) : X ModuleState := do
  let (s, u) ← constFrom f bs T e.reader.bytesRemaining e.reader s false (Op.newConstExpr ty)
  if u then .error .panic else pure s

/-! ### Items -/

/-- `add_global` (core.rs lines 61-67). -/
def addGlobal (s : ModuleState) (g : Global) : X ModuleState := do
  let ty ← checkGlobalType f T s.m g.ty
  let s ← checkConstExpr f bs T s g.initExpr ty.content
  s.assertMut
  pure { s with m := { s.m with globals := s.m.globals ++ [ty] } }

/-- The `match` of `add_table` (core.rs lines 72-88). -/
def checkTableInit (s : ModuleState) (ty : TableTy) : TableInit → X ModuleState
  | .refNull => do
    need ty.elem.nullable
    pure s
  | .expr e => do
    need f.functionReferences
    checkConstExpr f bs T s e (.ref ty.elem)

/-- `add_table` (core.rs lines 69-91). -/
def addTable (s : ModuleState) (t : Table) : X ModuleState := do
  let ty ← checkTableType f T s.m t.ty
  let s ← checkTableInit f bs T s ty t.init
  s.assertMut
  pure { s with m := { s.m with tables := s.m.tables ++ [ty] } }

/-- `add_data_segment` (core.rs lines 93-111). -/
def addDataSegment (s : ModuleState) (d : Data) : X ModuleState :=
  match d.kind with
  | .passive => do
    need f.bulkMemory
    pure s
  | .active i offset => do
    let is64 ← orErr s.m.memories[i.toNat]?
    checkConstExpr f bs T s offset (Op.indexType is64)

/-- The first `match` of `add_element_segment` (core.rs lines 121-127). -/
def elementType (m : Op.Module) : ElementItems → X Ref
  | .functions _ => pure ⟨false, .abs false .func⟩
  | .expressions ty _ => checkRefType f m ty

/-- The second `match` of `add_element_segment` (core.rs lines 129-156). -/
def checkElementKind (s : ModuleState) (ty : Ref) : ElementKind → X ModuleState
  | .active i offset => do
    let table ← orErr s.m.tables[(i.getD 0).toNat]?
    need (← refIsSubtype T ty table.elem)
    checkConstExpr f bs T s offset (Op.indexType table.table64)
  | .passive | .declared => do
    need f.bulkMemory
    pure s

/-- The body of the loop over functions (core.rs lines 169-173). -/
def addElementFunc (s : ModuleState) (i : BitVec 32) : X ModuleState := do
  let _ ← getFuncType T s.m i
  s.assertMut
  pure { s with m := insertRef s.m i }

/-- `validate_count` (core.rs lines 158-164). -/
def validateCount (n : BitVec 32) : X Unit := need (decide (n.toNat ≤ 10000000))

/-- The last `match` of `add_element_segment` (core.rs lines 165-182). -/
def checkElementItems (s : ModuleState) (ty : Ref) : ElementItems → X ModuleState
  | .functions sec => do
    validateCount sec.count
    eachItem readVarU32 (addElementFunc T) sec s
  | .expressions _ sec => do
    validateCount sec.count
    eachItem (readConstExpr f.reader.toFeatures)
      (fun s e => checkConstExpr f bs T s e (.ref ty)) sec s

/-- `add_element_segment` (core.rs lines 113-187). -/
def addElementSegment (s : ModuleState) (e : Element) : X ModuleState := do
  let ty ← elementType f s.m e.items
  let s ← checkElementKind f bs T s ty e.kind
  let s ← checkElementItems f bs T s ty e.items
  s.assertMut
  pure { s with m := { s.m with elementTypes := s.m.elementTypes ++ [ty] } }

/-- `add_types` (core.rs lines 512-531) in the closure of `type_section` (validator.rs lines
733-739). -/
def addTypes (x : TypeList × ModuleState) (g : Types.RecGroup) : X (TypeList × ModuleState) := do
  let (T, s) := x
  s.assertMut
  let (T, types) ← ofList (TypeList.addTypes f.types T s.m.types g)
  pure (T, { s with m := { s.m with types } })

/-- The size of the type of a function or tag (`EntityType::info`, types.rs lines 318-323). -/
def infoSize (id : Nat) : X Nat := do
  subTypeSize (← orPanic (listOf T)[id]?)

/-- `check_type_ref` and the `match` of `add_import` (core.rs lines 679-711, 539-583): the size of
the type of the import and the module with the new item. -/
def addImportType (s : ModuleState) : TypeRef → X (Nat × ModuleState)
  | .func i => do
    let _ ← funcTypeAt T s.m i
    let id ← orPanic s.m.types[i.toNat]?
    let s := { s with m :=
      { s.m with
        functions := s.m.functions ++ [i]
        numImportedFunctions := s.m.numImportedFunctions + 1 } }
    checkMax s.m.functions.length 0 1000000
    pure (← infoSize T id, s)
  | .funcExact i => do
    let _ ← funcTypeAt T s.m i
    let id ← orPanic s.m.types[i.toNat]?
    let s := { s with m :=
      { s.m with
        functions := s.m.functions ++ [i]
        exactFunctionImports :=
          s.m.exactFunctionImports ++ [BitVec.ofNat 32 s.m.numImportedFunctions]
        numImportedFunctions := s.m.numImportedFunctions + 1 } }
    checkMax s.m.functions.length 0 1000000
    pure (← infoSize T id, s)
  | .table t => do
    let ty ← checkTableType f T s.m t
    let s := { s with m := { s.m with tables := s.m.tables ++ [ty] } }
    checkMax s.m.tables.length 0 (maxTables f)
    pure (1, s)
  | .memory t => do
    checkMemoryType f t
    let s := { s with m := { s.m with memories := s.m.memories ++ [t.memory64] } }
    checkMax s.m.memories.length 0 (maxMemories f)
    pure (1, s)
  | .tag t => do
    checkTagType f T s.m t
    let id ← orPanic s.m.types[t.funcTypeIdx.toNat]?
    let s := { s with m := { s.m with tags := s.m.tags ++ [id] } }
    checkMax s.m.tags.length 0 1000000
    pure (← infoSize T id, s)
  | .global t => do
    let ty ← checkGlobalType f T s.m t
    (if ty.mutable then need f.mutableGlobal else pure ())
    let s := { s with
      m := { s.m with globals := s.m.globals ++ [ty] }
      numImportedGlobals := s.numImportedGlobals + 1 }
    checkMax s.m.globals.length 0 1000000
    pure (1, s)

/-- `add_import` (core.rs lines 533-600); the key of the import is entered into a map. -/
def addImport (s : ModuleState) (i : Import) : X ModuleState := do
  let (size, s) ← addImportType f T s i.ty
  let typeSize ← combineTypeSizes s.typeSize size
  let key := (i.module, i.name)
  pure { s with
    typeSize
    imports := if s.imports.contains key then s.imports else s.imports ++ [key] }

/-- The closure of `import_section` (validator.rs lines 762-769) with `Imports::into_iter`
(readers/core/imports.rs lines 140-215). -/
def addImports (s : ModuleState) (i : Imports) : X ModuleState := do
  s.assertMut
  match i with
  | .single _ i => addImport f T s i
  | .compact1 module items =>
    eachItem (readImportItem f.reader.toFeatures)
      (fun s i => addImport f T s ⟨module, i.name, i.ty⟩) items s
  | .compact2 module ty names =>
    eachItem readString (fun s name => addImport f T s ⟨module, name, ty⟩) names s

/-- `add_function` (core.rs lines 638-642). -/
def addFunction (s : ModuleState) (i : BitVec 32) : X ModuleState := do
  s.assertMut
  let _ ← funcTypeAt T s.m i
  pure { s with m := { s.m with functions := s.m.functions ++ [i] } }

/-- `add_memory` (core.rs lines 644-648). -/
def addMemory (s : ModuleState) (t : MemoryType) : X ModuleState := do
  s.assertMut
  checkMemoryType f t
  pure { s with m := { s.m with memories := s.m.memories ++ [t.memory64] } }

/-- `add_tag` (core.rs lines 650-654). -/
def addTag (s : ModuleState) (t : TagType) : X ModuleState := do
  s.assertMut
  checkTagType f T s.m t
  let id ← orPanic s.m.types[t.funcTypeIdx.toNat]?
  pure { s with m := { s.m with tags := s.m.tags ++ [id] } }

/-- `export_to_entity_type` (core.rs lines 921-965) and the check for mutable globals of
`add_export` (lines 610-618): the size of the type of the export. -/
def exportType (s : ModuleState) (i : BitVec 32) : ExternalKind → X (Nat × ModuleState)
  | .func | .funcExact => do
    let ty ← orErr s.m.functions[i.toNat]?
    let s := { s with m := insertRef s.m i }
    let id ← orPanic s.m.types[ty.toNat]?
    pure (← infoSize T id, s)
  | .table => do
    let _ ← orErr s.m.tables[i.toNat]?
    pure (1, s)
  | .memory => do
    let _ ← orErr s.m.memories[i.toNat]?
    pure (1, s)
  | .global => do
    let g ← orErr s.m.globals[i.toNat]?
    (if g.mutable then need f.mutableGlobal else pure ())
    pure (1, s)
  | .tag => do
    let id ← orErr s.m.tags[i.toNat]?
    pure (← infoSize T id, s)

/-- The closure of `export_section` (validator.rs lines 900-904) with `add_export`
(core.rs lines 602-636). -/
def addExport (s : ModuleState) (x : Export) : X ModuleState := do
  s.assertMut
  let (size, s) ← exportType f T s x.index x.kind
  let typeSize ← combineTypeSizes s.typeSize size
  need (!s.exports.contains x.name)
  pure { s with typeSize, exports := s.exports ++ [x.name] }

end

/-! ## The validator -/

/-- `enum State` (validator.rs lines 160-185) without components. -/
inductive VState where
  | unparsed | module | ended
  deriving DecidableEq, Repr

/-- `struct Validator` (validator.rs lines 133-156). -/
structure Validator where
  types : TypeList
  state : VState
  module : Option ModuleState

/-- `Validator::new` (validator.rs lines 364-366). -/
def Validator.new : Validator := ⟨.default, .unparsed, none⟩

/-- `Validator::reset` (validator.rs lines 444-482). -/
def Validator.reset (V : Validator) : X Validator :=
  if V.state ≠ .module ∧ V.module.isNone then .ok { V with state := .unparsed }
  else .error .panic

/-- `struct FuncToValidate` (validator/func.rs lines 13-24): the type of the function, and its
module with the snapshot of the list of types. -/
structure FuncToValidate where
  ty : BitVec 32
  m : Op.Module
  types : Option TypeList

section
variable (f : Feats) (bs : BSearch)

/-- `version` (validator.rs lines 650-708); nothing is expected of the encoding at the top
level. -/
def version (V : Validator) (num : Nat) (encoding : Parser.Encoding) : X Validator :=
  match V.state with
  | .unparsed =>
    match encoding with
    | .module =>
      if num = 1 then
        if V.module.isNone then .ok { V with state := .module, module := some .new }
        else .error .panic
      else .error .error
    | .component => .error .error
  | _ => .error .error

/-- `ensure_module` (validator.rs lines 188-211) and `self.module.as_mut().unwrap()`. -/
def ensureModule (V : Validator) : X ModuleState :=
  match V.state with
  | .module => orPanic V.module
  | _ => .error .error

/-- A section whose items do not change the list of types. -/
def sectionOf {α : Type} (V : Validator) (item : R α) (sec : SectionLimited)
    (start : ModuleState → X Unit) (g : ModuleState → α → X ModuleState) : X Validator := do
  let s ← ensureModule V
  start s
  let s ← eachItem item g sec s
  pure { V with module := some s }

/-- `type_section` (validator.rs lines 711-733). -/
def typeSection (V : Validator) (sec : SectionLimited) : X Validator := do
  let s ← ensureModule V
  checkMax s.m.types.length sec.count.toNat 1000000
  s.assertMut
  let (types, s) ← eachItem Types.readRecGroup (addTypes f) sec (V.types, s)
  pure { V with types, module := some s }

/-- `start_section` (validator.rs lines 912-923). -/
def startSection (V : Validator) (func : BitVec 32) : X Validator := do
  let s ← ensureModule V
  let (ps, rs) ← getFuncType V.types s.m func
  need (ps.isEmpty && rs.isEmpty)
  pure V

/-- `data_count_section` (validator.rs lines 954-969). -/
def dataCountSection (V : Validator) (count : BitVec 32) : X Validator := do
  let s ← ensureModule V
  need (decide (count.toNat ≤ 100000))
  s.assertMut
  pure { V with module := some { s with m := { s.m with dataCount := some count } } }

/-- `code_section_start` (validator.rs lines 974-984). `commit` moves the types to another place
in the list, which does not change the list. -/
def codeSectionStart (V : Validator) : X Validator := do
  let s ← ensureModule V
  s.assertMut
  pure { V with module := some { s with snapshot := some V.types } }

/-- `next_code_index_and_type` (core.rs lines 48-59). -/
def nextCode (s : ModuleState) : X (BitVec 32 × ModuleState) := do
  let i := s.codeIndex.getD s.m.numImportedFunctions
  let ty ← orPanic s.m.functions[i]?
  pure (ty, { s with codeIndex := some (i + 1) })

/-- `code_section_entry` (validator.rs lines 999-1022). From here on the module is shared. -/
def codeSectionEntry (V : Validator) (body : Reader) : X (Validator × FuncToValidate) := do
  let s ← ensureModule V
  checkMax 0 (body.bytesRemaining) 7654321
  let (ty, s) ← nextCode s
  let s := { s with owned := false }
  pure ({ V with module := some s }, ⟨ty, s.m, s.snapshot⟩)

/-- The sections with items, in the order of their ids: `type_section`, `import_section`
(validator.rs lines 745-772), `function_section` (777-795), `table_section` (800-818),
`memory_section` (823-841), `global_section` (871-889), `export_section` (894-911),
`element_section` (928-950), `data_section` (1027-1036) and `tag_section` (846-866). -/
def itemSection (V : Validator) (id : UInt8) (sec : SectionLimited) : X Validator :=
  let n := sec.count.toNat
  if id = 1 then typeSection f V sec
  else if id = 2 then
    sectionOf V (readImports f.reader) sec
      (fun s => do checkMax s.imports.length n 1000000; s.assertMut) (addImports f V.types)
  else if id = 3 then
    sectionOf V readVarU32 sec
      (fun s => do checkMax s.m.functions.length n 1000000; s.assertMut) (addFunction V.types)
  else if id = 4 then
    sectionOf V (readTable f.reader.toFeatures) sec
      (fun s => do checkMax s.m.tables.length n (maxTables f); s.assertMut) (addTable f bs V.types)
  else if id = 5 then
    sectionOf V (readMemoryType f.reader.toFeatures) sec
      (fun s => do checkMax s.m.memories.length n (maxMemories f); s.assertMut) (addMemory f)
  else if id = 6 then
    sectionOf V (readGlobal f.reader.toFeatures) sec
      (fun s => do checkMax s.m.globals.length n 1000000; s.assertMut) (addGlobal f bs V.types)
  else if id = 7 then
    sectionOf V readExport sec
      (fun s => do checkMax s.exports.length n 1000000; s.assertMut) (addExport f V.types)
  else if id = 9 then
    sectionOf V (readElement f.reader.toFeatures) sec
      (fun s => do checkMax s.m.elementTypes.length n 100000; s.assertMut)
      (addElementSegment f bs V.types)
  else if id = 11 then
    sectionOf V (readData f.reader.toFeatures) sec (fun _ => checkMax 0 n 100000)
      (addDataSegment f bs V.types)
  else if id = 13 then do
    need f.exceptions
    sectionOf V readTagType sec
      (fun s => do checkMax s.m.tags.length n 1000000; s.assertMut) (addTag f V.types)
  else .error .error

/-- `end` (validator.rs lines 1330-1385). -/
def endOf (V : Validator) : X Validator :=
  match V.state with
  | .module => do
    let _ ← orPanic V.module
    pure { V with state := .ended, module := none }
  | _ => .error .error

/-- `Validator::payload` (validator.rs lines 570-645). -/
def payload (V : Validator) : Parser.Payload → X (Validator × Option (FuncToValidate × Reader))
  | .version num encoding _ => do pure (← version V num encoding, none)
  | .limited id count reader => do pure (← itemSection f bs V id ⟨reader, count⟩, none)
  | .start func _ => do pure (← startSection V func, none)
  | .dataCount count _ => do pure (← dataCountSection V count, none)
  | .codeStart .. => do pure (← codeSectionStart V, none)
  | .codeEntry body => do
    let (V, fn) ← codeSectionEntry V body
    pure (V, some (fn, body))
  | .custom .. => pure (V, none)
  | .endOf _ => do pure (← endOf V, none)
  | .unknown .. | .nested .. | .componentStart .. => .error .error

/-- The first loop of `validate_all` (validator.rs lines 505-517). -/
def payloads (V : Validator) : List Parser.Event → X (Validator × List (FuncToValidate × Reader))
  | [] => pure (V, [])
  | e :: es => do
    let (V, fn) ← payload f bs V e.payload
    let (V, fns) ← payloads V es
    pure (V, fn.toList ++ fns)

/-- The body of the second loop of `validate_all` (validator.rs lines 520-524) with
`into_validator` (validator/func.rs lines 39-53). -/
def validateFunc (fn : FuncToValidate) (body : Reader) : X Unit := do
  let T ← orPanic fn.types
  let E := env f bs T fn.m
  match Op.newFunc E fn.ty with
  | .error _ => .error .panic
  | .ok S => (Op.validate E f.reader.toFeatures body S).1

/-- The second loop. -/
def validateFuncs : List (FuncToValidate × Reader) → X Unit
  | [] => pure ()
  | (fn, body) :: fns => do
    validateFunc f bs fn body
    validateFuncs fns

/-- `validate_all` (validator.rs lines 498-527), given the payloads of the parser and the error
at which it stopped, if any. `last_types.unwrap()` panics unless the module ended. -/
def validateAll (V : Validator) (tr : List Parser.Event) (out : Option Err) : X Validator := do
  let (V, fns) ← payloads f bs V tr
  match out with
  | some _ => .error .error
  | none =>
    validateFuncs f bs fns
    if V.state = .ended then pure V else .error .panic

end

end Verif.Valid
