import Verif.Reader.Model
import Verif.Framing.Model
/-!
# Core types: wasmparser's packed representation and readers, wasm-encoder's writers

Sources: `/repo/crates/wasmparser/src/readers/core/types.rs` ("types.rs" below) and
`/repo/crates/wasm-encoder/src/core/types.rs` ("encoder types.rs").

`u32` is `BitVec 32`. A `debug_assert!` is kept as a separate predicate (`…Ok`), an
`unreachable!()`/`unwrap()` is `none`.
-/
namespace Verif.Types
open Verif.Reader

/-- `enum AbstractHeapType` (types.rs lines 1556-1650); wasm-encoder has an enum with the
same variants (encoder types.rs lines 421-479), modelled by the same type. -/
inductive AbsHeap where
  | func | extern | any | none | noExtern | noFunc | eq | struct | array | i31 | exn | noExn
  | cont | noCont
  deriving DecidableEq, Repr

/-! ## PackedIndex -/

/-- `enum UnpackedIndex` (types.rs lines 239-254). A `CoreTypeId` is its index. -/
inductive UnpackedIndex where
  | module (i : BitVec 32)
  | recGroup (i : BitVec 32)
  | id (i : BitVec 32)
  deriving DecidableEq, Repr

/-- `struct PackedIndex(u32)` (types.rs lines 63-64). -/
structure PackedIndex where
  bits : BitVec 32
  deriving DecidableEq, Repr

namespace PackedIndex

/-- `KIND_MASK` (line 86). -/
def kindMask : BitVec 32 := 0b11#32 <<< 20
/-- `INDEX_MASK` (line 87). -/
def indexMask : BitVec 32 := (1#32 <<< 20) - 1
/-- `UNUSED_MASK` (line 85). -/
def unusedMask : BitVec 32 := ~~~ (kindMask ||| indexMask)
/-- `MODULE_KIND` (line 89). -/
def moduleKind : BitVec 32 := 0b00#32 <<< 20
/-- `REC_GROUP_KIND` (line 90). -/
def recGroupKind : BitVec 32 := 0b01#32 <<< 20
/-- `ID_KIND` (line 92). -/
def idKind : BitVec 32 := 0b10#32 <<< 20

/-- `can_represent_index` (lines 107-110). -/
def canRepresentIndex (index : BitVec 32) : Bool := index &&& indexMask == index

/-- `kind` (lines 112-115). -/
def kind (p : PackedIndex) : BitVec 32 := p.bits &&& kindMask
/-- `index` (lines 117-120). -/
def index (p : PackedIndex) : BitVec 32 := p.bits &&& indexMask

/-- `from_module_index` (lines 122-130). -/
def fromModuleIndex (index : BitVec 32) : Option PackedIndex :=
  if canRepresentIndex index then some ⟨moduleKind ||| index⟩ else none

/-- `from_rec_group_index` (lines 132-141). -/
def fromRecGroupIndex (index : BitVec 32) : Option PackedIndex :=
  if canRepresentIndex index then some ⟨recGroupKind ||| index⟩ else none

/-- `from_id` (lines 143-153); the index of a `CoreTypeId` is already a `u32`. -/
def fromId (index : BitVec 32) : Option PackedIndex :=
  if canRepresentIndex index then some ⟨idKind ||| index⟩ else none

/-- `unpack` (lines 166-179); `none` is the `unreachable!()`. -/
def unpack (p : PackedIndex) : Option UnpackedIndex :=
  if p.kind = moduleKind then some (.module p.index)
  else if p.kind = recGroupKind then some (.recGroup p.index)
  else if p.kind = idKind then some (.id p.index)
  else none

/-- `is_canonical` (lines 155-164); `none` is the `unreachable!()`. -/
def isCanonical (p : PackedIndex) : Option Bool :=
  if p.kind = recGroupKind ∨ p.kind = idKind then some true
  else if p.kind = moduleKind then some false
  else none

/-- The `debug_assert_eq!` of `unchecked_from_u32` and `to_u32` (lines 94-105). -/
def bitsOk (x : BitVec 32) : Bool := unusedMask &&& x == 0

end PackedIndex

/-- `UnpackedIndex::pack` (lines 250-262). -/
def UnpackedIndex.pack : UnpackedIndex → Option PackedIndex
  | .module i => PackedIndex.fromModuleIndex i
  | .recGroup i => PackedIndex.fromRecGroupIndex i
  | .id i => PackedIndex.fromId i

/-! ## RefType -/

/-- `enum HeapType` (types.rs lines 1519-1539). -/
inductive HeapType where
  | abstract (shared : Bool) (ty : AbsHeap)
  | concrete (i : UnpackedIndex)
  | exact (i : UnpackedIndex)
  deriving DecidableEq, Repr

/-- `struct RefType(u32)` (types.rs lines 1023-1024). -/
structure RefType where
  bits : BitVec 32
  deriving DecidableEq, Repr

namespace RefType

/-- `CONCRETE_BIT` (line 1089). -/
def concreteBit : BitVec 32 := 1#32 <<< 24
/-- `EXACT_BIT` (line 1090). -/
def exactBit : BitVec 32 := 1#32 <<< 23
/-- `NULLABLE_BIT` (line 1091). -/
def nullableBit : BitVec 32 := 1#32 <<< 22
/-- `SHARED_BIT` (line 1094). -/
def sharedBit : BitVec 32 := 1#32 <<< 21
/-- `ABSTYPE_MASK` (line 1095). -/
def abstypeMask : BitVec 32 := 0b1111#32 <<< 17
/-- `ANY_ABSTYPE` (line 1096). -/
def anyAbstype : BitVec 32 := 0b1111#32 <<< 17
/-- `EQ_ABSTYPE` (line 1097). -/
def eqAbstype : BitVec 32 := 0b1101#32 <<< 17
/-- `I31_ABSTYPE` (line 1098). -/
def i31Abstype : BitVec 32 := 0b1000#32 <<< 17
/-- `STRUCT_ABSTYPE` (line 1099). -/
def structAbstype : BitVec 32 := 0b1001#32 <<< 17
/-- `ARRAY_ABSTYPE` (line 1100). -/
def arrayAbstype : BitVec 32 := 0b1100#32 <<< 17
/-- `FUNC_ABSTYPE` (line 1101). -/
def funcAbstype : BitVec 32 := 0b0101#32 <<< 17
/-- `NOFUNC_ABSTYPE` (line 1102). -/
def nofuncAbstype : BitVec 32 := 0b0100#32 <<< 17
/-- `EXTERN_ABSTYPE` (line 1103). -/
def externAbstype : BitVec 32 := 0b0011#32 <<< 17
/-- `NOEXTERN_ABSTYPE` (line 1104). -/
def noexternAbstype : BitVec 32 := 0b0010#32 <<< 17
/-- `EXN_ABSTYPE` (line 1105). -/
def exnAbstype : BitVec 32 := 0b0001#32 <<< 17
/-- `NOEXN_ABSTYPE` (line 1106). -/
def noexnAbstype : BitVec 32 := 0b1110#32 <<< 17
/-- `NONE_ABSTYPE` (line 1107). -/
def noneAbstype : BitVec 32 := 0b0000#32 <<< 17
/-- `CONT_ABSTYPE` (line 1108). -/
def contAbstype : BitVec 32 := 0b0111#32 <<< 17
/-- `NOCONT_ABSTYPE` (line 1109). -/
def nocontAbstype : BitVec 32 := 0b0110#32 <<< 17
/-- `INDEX_MASK` (line 1112). -/
def indexMask : BitVec 32 := (1#32 <<< 22) - 1

/-- `can_represent_type_index` (lines 1207-1209). -/
def canRepresentTypeIndex (index : BitVec 32) : Bool := index &&& indexMask == index

/-- The two `debug_assert!`s of `from_u32` (lines 1217-1243). -/
def bitsOk (x : BitVec 32) : Bool :=
  x &&& (0b1111111#32 <<< 25) == 0 &&
  (x &&& concreteBit != 0 ||
    let a := x &&& abstypeMask
    a == anyAbstype || a == eqAbstype || a == i31Abstype || a == structAbstype ||
    a == arrayAbstype || a == funcAbstype || a == nofuncAbstype || a == externAbstype ||
    a == noexternAbstype || a == noneAbstype || a == exnAbstype || a == noexnAbstype ||
    a == contAbstype || a == nocontAbstype)

/-- `NULLABLE_BIT * nullable as u32` and the like: the bit if the flag is set. -/
def bitIf (bit : BitVec 32) (b : Bool) : BitVec 32 := bit * (if b then 1 else 0)

/-- `concrete` (lines 1245-1255). -/
def concrete (nullable : Bool) (index : PackedIndex) : RefType :=
  ⟨bitIf nullableBit nullable ||| concreteBit ||| index.bits⟩

/-- `exact` (lines 1257-1263). -/
def exact (nullable : Bool) (index : PackedIndex) : RefType :=
  ⟨bitIf nullableBit nullable ||| exactBit ||| concreteBit ||| index.bits⟩

/-- The inner `match ty` of `new` (lines 1277-1292). -/
def abstypeOf : AbsHeap → BitVec 32
  | .func => funcAbstype
  | .extern => externAbstype
  | .any => anyAbstype
  | .none => noneAbstype
  | .noExtern => noexternAbstype
  | .noFunc => nofuncAbstype
  | .eq => eqAbstype
  | .struct => structAbstype
  | .array => arrayAbstype
  | .i31 => i31Abstype
  | .exn => exnAbstype
  | .noExn => noexnAbstype
  | .cont => contAbstype
  | .noCont => nocontAbstype

/-- `RefType::new` (lines 1265-1295). -/
def new (nullable : Bool) : HeapType → Option RefType
  | .concrete i => do pure (concrete nullable (← i.pack))
  | .exact i => do pure (exact nullable (← i.pack))
  | .abstract shared ty =>
    some ⟨bitIf nullableBit nullable ||| bitIf sharedBit shared ||| abstypeOf ty⟩

/-- `is_concrete_type_ref` (lines 1312-1315). -/
def isConcreteTypeRef (t : RefType) : Bool := t.bits &&& concreteBit != 0
/-- `is_exact_type_ref` (lines 1317-1320). -/
def isExactTypeRef (t : RefType) : Bool := ~~~ t.bits &&& (exactBit ||| concreteBit) == 0
/-- `is_nullable` (lines 1373-1376). -/
def isNullable (t : RefType) : Bool := t.bits &&& nullableBit != 0

/-- `type_index` (lines 1322-1331). -/
def typeIndex (t : RefType) : Option PackedIndex :=
  if t.isConcreteTypeRef then some ⟨t.bits &&& indexMask⟩ else none

/-- The `match s & Self::ABSTYPE_MASK` of `heap_type` (lines 1409-1425). -/
def absHeapOf (a : BitVec 32) : Option AbsHeap :=
  if a = funcAbstype then some .func
  else if a = externAbstype then some .extern
  else if a = anyAbstype then some .any
  else if a = noneAbstype then some .none
  else if a = noexternAbstype then some .noExtern
  else if a = nofuncAbstype then some .noFunc
  else if a = eqAbstype then some .eq
  else if a = structAbstype then some .struct
  else if a = arrayAbstype then some .array
  else if a = i31Abstype then some .i31
  else if a = exnAbstype then some .exn
  else if a = noexnAbstype then some .noExn
  else if a = contAbstype then some .cont
  else if a = nocontAbstype then some .noCont
  else none

/-- `heap_type` (lines 1397-1428); `none` stands for the `unwrap`s and `unreachable!()`s. -/
def heapType (t : RefType) : Option HeapType :=
  if t.isConcreteTypeRef then
    if !t.isExactTypeRef then do pure (.concrete (← (← t.typeIndex).unpack))
    else do pure (.exact (← (← t.typeIndex).unpack))
  else do
    let shared := t.bits &&& sharedBit != 0
    pure (.abstract shared (← absHeapOf (t.bits &&& abstypeMask)))

/-- `as_non_null` (lines 1378-1381). -/
def asNonNull (t : RefType) : RefType := ⟨t.bits &&& ~~~ nullableBit⟩
/-- `nullable` (lines 1383-1386). -/
def nullable (t : RefType) : RefType := ⟨t.bits ||| nullableBit⟩
/-- `shared` (lines 1388-1395). -/
def shared (t : RefType) : Option RefType :=
  if t.isConcreteTypeRef then none else some ⟨t.bits ||| sharedBit⟩

/-- `difference` (lines 1297-1310); `none` is a panic. -/
def difference (a b : RefType) : Option RefType := do
  new (if b.isNullable then false else a.isNullable) (← a.heapType)

/-- `abstype` (lines 1333-1336). -/
def abstype (t : RefType) : BitVec 32 := t.bits &&& abstypeMask
/-- `is_func_ref` (lines 1338-1342). -/
def isFuncRef (t : RefType) : Bool := !t.isConcreteTypeRef && t.abstype == funcAbstype
/-- `is_extern_ref` (lines 1344-1348). -/
def isExternRef (t : RefType) : Bool := !t.isConcreteTypeRef && t.abstype == externAbstype
/-- `is_array_ref` (lines 1350-1354). -/
def isArrayRef (t : RefType) : Bool := !t.isConcreteTypeRef && t.abstype == arrayAbstype
/-- `is_struct_ref` (lines 1356-1360). -/
def isStructRef (t : RefType) : Bool := !t.isConcreteTypeRef && t.abstype == structAbstype
/-- `is_cont_ref` (lines 1362-1366). -/
def isContRef (t : RefType) : Bool := !t.isConcreteTypeRef && t.abstype == contAbstype
/-- `is_none_ref` (lines 1368-1371). -/
def isNoneRef (t : RefType) : Bool := !t.isConcreteTypeRef && t.abstype == noneAbstype

/-- `FUNCREF` (line 1116). -/
def funcref : RefType := nullable ⟨funcAbstype⟩
/-- `EXTERNREF` (line 1120). -/
def externref : RefType := nullable ⟨externAbstype⟩

end RefType

/-- `enum ValType` (types.rs lines 867-882). -/
inductive ValType where
  | i32 | i64 | f32 | f64 | v128
  | ref (r : RefType)
  deriving DecidableEq, Repr

/-- `enum StorageType` (types.rs lines 786-794). -/
inductive StorageType where
  | i8 | i16
  | val (v : ValType)
  deriving DecidableEq, Repr

/-- `struct FieldType` (types.rs lines 753-760). -/
structure FieldType where
  elementType : StorageType
  mutable : Bool
  deriving DecidableEq, Repr

/-- `struct FuncType` (types.rs lines 645-652): parameters and results in one slice. -/
structure FuncType where
  paramsResults : List ValType
  lenParams : Nat
  deriving DecidableEq, Repr

/-- `FuncType::params` (types.rs lines 713-717). -/
def FuncType.params (f : FuncType) : List ValType := f.paramsResults.take f.lenParams
/-- `FuncType::results` (types.rs lines 727-731). -/
def FuncType.results (f : FuncType) : List ValType := f.paramsResults.drop f.lenParams

/-- `enum CompositeInnerType` (types.rs lines 560-570): `ArrayType(FieldType)`,
`StructType { fields }` and `ContType(PackedIndex)` inlined. -/
inductive CompositeInnerType where
  | func (f : FuncType)
  | array (f : FieldType)
  | struct (fields : List FieldType)
  | cont (i : PackedIndex)
  deriving DecidableEq, Repr

/-- `struct CompositeType` (types.rs lines 584-595). -/
structure CompositeType where
  inner : CompositeInnerType
  shared : Bool
  descriptorIdx : Option PackedIndex
  describesIdx : Option PackedIndex
  deriving DecidableEq, Repr

/-- `struct SubType` (types.rs lines 448-457). -/
structure SubType where
  isFinal : Bool
  supertypeIdx : Option PackedIndex
  compositeType : CompositeType
  deriving DecidableEq, Repr

/-- `enum RecGroupInner` (types.rs lines 319-328): offsets and types. -/
inductive RecGroup where
  | implicit (offset : Nat) (ty : SubType)
  | explicit (tys : List (Nat × SubType))
  deriving DecidableEq, Repr

/-- `RecGroup::types` (types.rs lines 352-358). -/
def RecGroup.types : RecGroup → List SubType
  | .implicit _ t => [t]
  | .explicit ts => ts.map (·.2)

/-- `RecGroup::is_explicit_rec_group` (types.rs lines 347-349). -/
def RecGroup.isExplicit : RecGroup → Bool
  | .implicit .. => false
  | .explicit _ => true

/-! ## Readers -/

/-- `self.peek()?` as a reader method. -/
def peekR : R UInt8 := fun r => match peek r with
  | .ok b => .ok (b, r)
  | .error e => .error e

/-- `.map_err(f)`. -/
def mapErr (g : Err → Err) (f : R α) : R α := fun r => match f r with
  | .ok x => .ok x
  | .error e => .error (g e)

/-- Whether an error has `ErrorKind::InvalidHeapType` (error.rs line 26). Only line 1919 of
types.rs creates that kind, and `set_message` keeps it, so exactly the errors with these
messages carry it where the closures below look at it. -/
def Err.isHeapKind : Err → Bool
  | .msg m _ => m == "invalid abstract heap type" || m == "malformed reference type" ||
      m == "invalid heap type"
  | .eof .. => false

/-- The closures of lines 1800-1805, 1836-1841, 1887-1892: change the message of an
`InvalidHeapType` error. -/
def reclassify (m : String) (e : Err) : Err :=
  match e with
  | .msg _ o => if Err.isHeapKind e then .msg m o else e
  | .eof .. => e

/-- The `match` of `AbstractHeapType::from_reader` (lines 1903-1917). -/
def absHeapOfByte (b : UInt8) : Option AbsHeap :=
  if b = 0x70 then some .func
  else if b = 0x6F then some .extern
  else if b = 0x6E then some .any
  else if b = 0x71 then some .none
  else if b = 0x72 then some .noExtern
  else if b = 0x73 then some .noFunc
  else if b = 0x6D then some .eq
  else if b = 0x6B then some .struct
  else if b = 0x6A then some .array
  else if b = 0x6C then some .i31
  else if b = 0x69 then some .exn
  else if b = 0x74 then some .noExn
  else if b = 0x68 then some .cont
  else if b = 0x75 then some .noCont
  else none

/-- `AbstractHeapType::from_reader` (lines 1900-1926). -/
def readAbsHeap : R AbsHeap := do
  let b ← readU8
  match absHeapOfByte b with
  | some t => pure t
  | none => R.fail "invalid abstract heap type" ((← readPos) - 1)

/-- The limit error used by several readers, at the current position. -/
def limitFail : R α := do
  R.fail "type index greater than implementation limits" (← readPos)

/-- `HeapType::from_reader` (lines 1849-1898). The unwrap-free `idx.unpack()` on a freshly
made module index is modelled by `unpack`, its impossible failure as an error. -/
def readHeapType : R HeapType := fun r =>
  match readVarS33 r with
  | .error e => .error e
  | .ok (s33, clone) =>
    if 0 ≤ s33.toInt ∧ s33.toInt < 2 ^ 32 then
      (match PackedIndex.fromModuleIndex (s33.setWidth 32) with
        | none => limitFail
        | some idx => match idx.unpack with
          | some u => pure (.concrete u)
          | none => R.fail "panic: unreachable" 0 : R HeapType) clone
    else
      (do
        let b ← peekR
        if b = 0x65 then
          let _ ← readU8
          let ty ← readAbsHeap
          pure (.abstract true ty)
        else if b = 0x62 then
          let _ ← readU8
          let idx ← readVarU32
          pure (.exact (.module idx))
        else
          let ty ← mapErr (reclassify "invalid heap type") readAbsHeap
          pure (.abstract false ty) : R HeapType) r

/-- `RefType::from_reader` (lines 1812-1847). -/
def readRefType : R RefType := do
  let pos ← readPos
  let b ← peekR
  if b = 0x63 ∨ b = 0x64 then
    let nullable := (← readU8) == 0x63
    match RefType.new nullable (← readHeapType) with
    | some t => pure t
    | none => R.fail "type index too large" pos
  else if b = 0x62 then R.fail "unexpected exact type" pos
  else
    let shared := (← peekR) == 0x65
    if shared then let _ ← readU8
    let ty ← mapErr (reclassify "malformed reference type") readAbsHeap
    match RefType.new true (.abstract shared ty) with
    | some t => pure t
    | none => R.fail "panic: unwrap" 0

/-- `ValType::from_reader` (lines 1721-1810). -/
def readValType : R ValType := do
  let b ← peekR
  if b = 0x7F then let _ ← readU8; pure .i32
  else if b = 0x7E then let _ ← readU8; pure .i64
  else if b = 0x7D then let _ ← readU8; pure .f32
  else if b = 0x7C then let _ ← readU8; pure .f64
  else if b = 0x7B then let _ ← readU8; pure .v128
  else
    let refty ← mapErr (reclassify "invalid value type") readRefType
    pure (.ref refty)

/-- `StorageType::from_reader` (lines 1703-1719). -/
def readStorageType : R StorageType := do
  let b ← peekR
  if b = 0x78 then let _ ← readU8; pure .i8
  else if b = 0x77 then let _ ← readU8; pure .i16
  else pure (.val (← readValType))

/-- `FieldType::from_reader` (lines 2217-2233); `ArrayType` reads the same (2235-2239). -/
def readFieldType : R FieldType := do
  let elementType ← readStorageType
  let mutable ← readU8
  if mutable = 0 then pure ⟨elementType, false⟩
  else if mutable = 1 then pure ⟨elementType, true⟩
  else R.fail "malformed mutability byte for field type" (← readPos)

/-- `MAX_WASM_TYPES` (limits.rs line 22). -/
def maxWasmTypes : Nat := 1000000
/-- `MAX_WASM_SUPERTYPES` (limits.rs line 23). -/
def maxWasmSupertypes : Nat := 1
/-- `MAX_WASM_FUNCTION_PARAMS` (limits.rs line 33). -/
def maxWasmFunctionParams : Nat := 1000
/-- `MAX_WASM_FUNCTION_RETURNS` (limits.rs line 34). -/
def maxWasmFunctionReturns : Nat := 1000
/-- `MAX_WASM_STRUCT_FIELDS` (limits.rs line 41). -/
def maxWasmStructFields : Nat := 10000

/-- `FuncType::from_reader` (lines 2202-2215). -/
def readFuncType : R FuncType := do
  let params ← readIter readValType maxWasmFunctionParams "function params"
  let lenParams := params.length
  let results ← readIter readValType maxWasmFunctionReturns "function returns"
  pure ⟨params ++ results, lenParams⟩

/-- `StructType::from_reader` (lines 2241-2248). -/
def readStructType : R (List FieldType) :=
  readIter readFieldType maxWasmStructFields "struct fields"

/-- `ContType::from_reader` (lines 2250-2266). -/
def readContType : R PackedIndex := do
  let s33 ← readVarS33
  if 0 ≤ s33.toInt ∧ s33.toInt < 2 ^ 32 then
    match PackedIndex.fromModuleIndex (s33.setWidth 32) with
    | some idx => pure idx
    | none => limitFail
  else R.fail "invalid continuation type" (← readPos)

/-- `PackedIndex::from_module_index(reader.read_var_u32()?).ok_or_else(..)?`
(lines 2103-2108 and 2114-2119). -/
def readPackedIndex : R PackedIndex := do
  let i ← readVarU32
  match PackedIndex.fromModuleIndex i with
  | some idx => pure idx
  | none => limitFail

/-- The `match opcode` of `read_composite_type` (lines 2124-2130). -/
def readCompositeInner (opcode : UInt8) : R CompositeInnerType := do
  if opcode = 0x60 then pure (.func (← readFuncType))
  else if opcode = 0x5e then pure (.array (← readFieldType))
  else if opcode = 0x5f then pure (.struct (← readStructType))
  else if opcode = 0x5d then pure (.cont (← readContType))
  else R.fail "invalid leading byte for type" ((← readPos) - 1)

/-- `read_composite_type` (lines 2094-2137). -/
def readCompositeType (opcode : UInt8) : R CompositeType := do
  let (shared, opcode) ← (if opcode = 0x65 then do pure (true, ← readU8) else pure (false, opcode))
  let (describesIdx, opcode) ←
    (if opcode = 0x4c then do
      let idx ← readPackedIndex
      pure (some idx, ← readU8)
    else pure (none, opcode))
  let (descriptorIdx, opcode) ←
    (if opcode = 0x4d then do
      let idx ← readPackedIndex
      pure (some idx, ← readU8)
    else pure (none, opcode))
  let inner ← readCompositeInner opcode
  pure { shared, inner, descriptorIdx, describesIdx }

/-- `idxs.first().copied().map(..).transpose()?` (lines 2175-2186). -/
def firstSupertype : List (BitVec 32) → R (Option PackedIndex)
  | [] => pure none
  | idx :: _ => match PackedIndex.fromModuleIndex idx with
    | some p => pure (some p)
    | none => limitFail

/-- `SubType::from_reader` (lines 2163-2200). -/
def readSubType : R SubType := do
  let pos ← readPos
  let opcode ← readU8
  if opcode = 0x4f ∨ opcode = 0x50 then
    let idxs ← readIter readVarU32 maxWasmSupertypes "supertype idxs"
    if idxs.length > 1 then R.fail "multiple supertypes not supported" pos
    else
      let supertypeIdx ← firstSupertype idxs
      let compositeType ← readCompositeType (← readU8)
      pure { isFinal := opcode == 0x4f, supertypeIdx, compositeType }
  else
    let compositeType ← readCompositeType opcode
    pure { isFinal := true, supertypeIdx := none, compositeType }

/-- One round of the loop of lines 2148-2152: the offset before the type and the type. -/
def readOffsetSubType : R (Nat × SubType) := do
  let offset ← readPos
  pure (offset, ← readSubType)

/-- `RecGroup::from_reader` (lines 2139-2161). -/
def readRecGroup : R RecGroup := do
  let b ← peekR
  if b = 0x4e then
    let _ ← readU8
    let types ← readIter readOffsetSubType maxWasmTypes "rec group types"
    pure (.explicit types)
  else
    let offset ← readPos
    pure (.implicit offset (← readSubType))

end Verif.Types

/-! ## wasm-encoder -/
namespace Verif.Types.Enc
open Verif.Leb Verif.Framing

/-- `enum HeapType` (encoder types.rs lines 357-371). -/
inductive HeapType where
  | abstract (shared : Bool) (ty : AbsHeap)
  | concrete (i : BitVec 32)
  | exact (i : BitVec 32)
  deriving DecidableEq, Repr

/-- `struct RefType` (encoder types.rs lines 232-236). -/
structure RefType where
  nullable : Bool
  heapType : HeapType
  deriving DecidableEq, Repr

/-- `enum ValType` (encoder types.rs lines 104-124). -/
inductive ValType where
  | i32 | i64 | f32 | f64 | v128
  | ref (r : RefType)
  deriving DecidableEq, Repr

/-- `enum StorageType` (encoder types.rs lines 74-82). -/
inductive StorageType where
  | i8 | i16
  | val (v : ValType)
  deriving DecidableEq, Repr

/-- `struct FieldType` (encoder types.rs lines 65-71). -/
structure FieldType where
  elementType : StorageType
  mutable : Bool
  deriving DecidableEq, Repr

/-- `struct FuncType` (encoder types.rs lines 45-51), by its `params()` and `results()`
(lines 173-183). -/
structure FuncType where
  params : List ValType
  results : List ValType
  deriving DecidableEq, Repr

/-- `enum CompositeInnerType` (encoder types.rs lines 32-42) with its payload structs. -/
inductive CompositeInnerType where
  | func (f : FuncType)
  | array (f : FieldType)
  | struct (fields : List FieldType)
  | cont (i : BitVec 32)
  deriving DecidableEq, Repr

/-- `struct CompositeType` (encoder types.rs lines 18-29). -/
structure CompositeType where
  inner : CompositeInnerType
  shared : Bool
  descriptor : Option (BitVec 32)
  describes : Option (BitVec 32)
  deriving DecidableEq, Repr

/-- `struct SubType` (encoder types.rs lines 6-15). -/
structure SubType where
  isFinal : Bool
  supertypeIdx : Option (BitVec 32)
  compositeType : CompositeType
  deriving DecidableEq, Repr

/-- `impl Encode for AbstractHeapType` (encoder types.rs lines 481-501). -/
def encodeAbs : AbsHeap → List UInt8
  | .func => [0x70]
  | .extern => [0x6F]
  | .any => [0x6E]
  | .none => [0x71]
  | .noExtern => [0x72]
  | .noFunc => [0x73]
  | .eq => [0x6D]
  | .struct => [0x6B]
  | .array => [0x6A]
  | .i31 => [0x6C]
  | .exn => [0x69]
  | .noExn => [0x74]
  | .cont => [0x68]
  | .noCont => [0x75]

/-- `impl Encode for HeapType` (encoder types.rs lines 399-418). `i64::from(u32)` is
zero extension. -/
def HeapType.encode : HeapType → List UInt8
  | .abstract shared ty => (if shared then [0x65] else []) ++ encodeAbs ty
  | .concrete i => encodeI64 (i.setWidth 64)
  | .exact i => 0x62 :: encodeU32 i

/-- `impl Encode for RefType` (encoder types.rs lines 317-348). -/
def RefType.encode (t : RefType) : List UInt8 :=
  match t.nullable, t.heapType with
  | true, .abstract s a => (HeapType.abstract s a).encode
  | true, h => 0x63 :: h.encode
  | false, h => 0x64 :: h.encode

/-- `impl Encode for ValType` (encoder types.rs lines 213-224). -/
def ValType.encode : ValType → List UInt8
  | .i32 => [0x7F]
  | .i64 => [0x7E]
  | .f32 => [0x7D]
  | .f64 => [0x7C]
  | .v128 => [0x7B]
  | .ref rt => rt.encode

/-- `impl Encode for StorageType` (encoder types.rs lines 203-211). -/
def StorageType.encode : StorageType → List UInt8
  | .i8 => [0x78]
  | .i16 => [0x77]
  | .val vt => vt.encode

/-- `encode_field` (encoder types.rs lines 622-625). -/
def FieldType.encode (f : FieldType) : List UInt8 :=
  f.elementType.encode ++ [if f.mutable then 1 else 0]

/-- `encode_function` (encoder types.rs lines 595-610); `none` is the panic of
`usize::encode` on lengths above `u32::MAX`. -/
def FuncType.encode (f : FuncType) : Option (List UInt8) := do
  pure (0x60 :: (← encodeUsize f.params.length) ++ f.params.flatMap (·.encode) ++
    (← encodeUsize f.results.length) ++ f.results.flatMap (·.encode))

/-- `encode_struct` (encoder types.rs lines 636-647). -/
def encodeStruct (fields : List FieldType) : Option (List UInt8) := do
  pure (0x5f :: (← encodeUsize fields.length) ++ fields.flatMap (·.encode))

/-- The final `match` of `encode_subtype` (encoder types.rs lines 691-700), with
`encode_array` (617-620) and `encode_cont` (654-657). -/
def CompositeInnerType.encode : CompositeInnerType → Option (List UInt8)
  | .func f => f.encode
  | .array f => some (0x5e :: f.encode)
  | .struct fields => encodeStruct fields
  | .cont i => some (0x5d :: encodeI64 (i.setWidth 64))

/-- `impl Encode for Option<u32>` (`/repo/crates/wasm-encoder/src/lib.rs` lines 178-191). -/
def encodeOption : Option (BitVec 32) → List UInt8
  | some v => 0x01 :: encodeU32 v
  | none => [0x00]

/-- `if let Some(index) = .. { push(op); index.encode(..) }` (encoder types.rs lines
683-690). -/
def encodeAttr (op : UInt8) : Option (BitVec 32) → List UInt8
  | some i => op :: encodeU32 i
  | none => []

/-- The part of `encode_subtype` for the composite type (encoder types.rs lines 680-700). -/
def CompositeType.encode (c : CompositeType) : Option (List UInt8) := do
  pure ((if c.shared then [0x65] else []) ++
    encodeAttr 0x4c c.describes ++ encodeAttr 0x4d c.descriptor ++
    (← c.inner.encode))

/-- `encode_subtype` (encoder types.rs lines 664-701), for
`push_prefix_if_component_core_type = false`, the setting of `TypeSection::ty`
(lines 542-549) and of `rec` (lines 703-720). -/
def SubType.encode (t : SubType) : Option (List UInt8) := do
  pure ((if t.supertypeIdx.isSome || !t.isFinal then
      (if t.isFinal then [0x4f] else [0x50]) ++ encodeOption t.supertypeIdx
    else []) ++ (← t.compositeType.encode))

/-- Concatenation of the encodings of several subtypes. -/
def encodeSubTypes : List SubType → Option (List UInt8)
  | [] => some []
  | t :: ts => do pure ((← t.encode) ++ (← encodeSubTypes ts))

/-- `rec` (encoder types.rs lines 703-720). -/
def encodeRec (ts : List SubType) : Option (List UInt8) := do
  pure (0x4e :: (← encodeUsize ts.length) ++ (← encodeSubTypes ts))

end Verif.Types.Enc
