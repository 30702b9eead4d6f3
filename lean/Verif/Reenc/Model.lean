import Verif.Items.EncModel
import Verif.Types.Reenc
/-! Re-encoding of instructions, constant expressions and function bodies
(crates/wasm-encoder/src/reencode.rs, module `utils`: the default bodies of `trait Reencode`).

A reencoder is represented by its index methods, which are total maps here (in Rust they may
also keep state and fail); its other methods are the defaults. `none` is an error or a panic of
the encoder. -/
namespace Verif.Reenc
open Verif.Reader Verif.Instr Verif.Items

/-- The index methods of `trait Reencode` (lines 24-54); `RoundtripReencoder` (lines 650-657) has
identities (lines 921-923, 960-966, 1068-1070, 1635-1649). -/
structure Maps where
  type : BitVec 32 → BitVec 32
  func : BitVec 32 → BitVec 32
  table : BitVec 32 → BitVec 32
  memory : BitVec 32 → BitVec 32
  global : BitVec 32 → BitVec 32
  tag : BitVec 32 → BitVec 32
  data : BitVec 32 → BitVec 32
  elem : BitVec 32 → BitVec 32

/-- `RoundtripReencoder`. -/
def Maps.id : Maps :=
  { type := _root_.id, func := _root_.id, table := _root_.id, memory := _root_.id
    global := _root_.id, tag := _root_.id, data := _root_.id, elem := _root_.id }

/-- The names of the `u32` fields of `wasmparser::Operator` (wasmparser/src/lib.rs lines 69-800). -/
inductive Field where
  | relativeDepth | functionIndex | typeIndex | tagIndex | localIndex | globalIndex | dataIndex
  | mem | dstMem | srcMem | structTypeIndex | arrayTypeIndex | arrayTypeIndexDst
  | arrayTypeIndexSrc | elemIndex | table | tableIndex | dstTable | srcTable | contTypeIndex
  | argumentIndex | resultIndex | fieldIndex | arraySize | arrayDataIndex | arrayElemIndex
  deriving DecidableEq, Repr

/-- The `map` rules of `translate!` (lines 1704-1757) for these fields. -/
def mapField (m : Maps) : Field → BitVec 32 → BitVec 32
  | .tagIndex => m.tag
  | .functionIndex => m.func
  | .table => m.table
  | .tableIndex => m.table
  | .dstTable => m.table
  | .srcTable => m.table
  | .typeIndex => m.type
  | .arrayTypeIndex => m.type
  | .arrayTypeIndexDst => m.type
  | .arrayTypeIndexSrc => m.type
  | .structTypeIndex => m.type
  | .globalIndex => m.global
  | .mem => m.memory
  | .srcMem => m.memory
  | .dstMem => m.memory
  | .dataIndex => m.data
  | .elemIndex => m.elem
  | .arrayDataIndex => m.data
  | .arrayElemIndex => m.elem
  | .relativeDepth => _root_.id
  | .localIndex => _root_.id
  | .arraySize => _root_.id
  | .fieldIndex => _root_.id
  | .argumentIndex => m.type
  | .resultIndex => m.type
  | .contTypeIndex => m.type

/-- The field of each operator with one index (lib.rs lines 69-800). -/
def idxField : Idx → Field
  | .br | .brIf | .brOnNull | .brOnNonNull | .rethrow => .relativeDepth
  | .call | .returnCall | .refFunc => .functionIndex
  | .callRef | .returnCallRef | .refGetDesc => .typeIndex
  | .throw | .suspend => .tagIndex
  | .localGet | .localSet | .localTee => .localIndex
  | .globalGet | .globalSet => .globalIndex
  | .dataDrop => .dataIndex
  | .memoryFill | .memoryDiscard => .mem
  | .structNew | .structNewDefault | .structNewDesc | .structNewDefaultDesc => .structTypeIndex
  | .arrayNew | .arrayNewDefault | .arrayGet | .arrayGetS | .arrayGetU | .arraySet | .arrayFill =>
    .arrayTypeIndex
  | .elemDrop => .elemIndex
  | .tableFill | .tableSet | .tableGet | .tableGrow | .tableSize => .table
  | .contNew => .contTypeIndex

/-- The fields of each operator with two indices (lib.rs lines 69-800). -/
def idx2Fields : Idx2 → Field × Field
  | .memoryCopy => (.dstMem, .srcMem)
  | .structGet | .structGetS | .structGetU | .structSet => (.structTypeIndex, .fieldIndex)
  | .arrayNewFixed => (.arrayTypeIndex, .arraySize)
  | .arrayNewData | .arrayInitData => (.arrayTypeIndex, .arrayDataIndex)
  | .arrayNewElem | .arrayInitElem => (.arrayTypeIndex, .arrayElemIndex)
  | .arrayCopy => (.arrayTypeIndexDst, .arrayTypeIndexSrc)
  | .tableCopy => (.dstTable, .srcTable)
  | .contBind => (.argumentIndex, .resultIndex)
  | .switch => (.contTypeIndex, .tagIndex)

/-- The index field of each atomic operator with one (lib.rs lines 735-771). -/
def atomicField : Atomic → Field
  | .globalAtomicGet | .globalAtomicSet | .globalAtomicRmwAdd | .globalAtomicRmwSub
  | .globalAtomicRmwAnd | .globalAtomicRmwOr | .globalAtomicRmwXor | .globalAtomicRmwXchg
  | .globalAtomicRmwCmpxchg => .globalIndex
  | .tableAtomicGet | .tableAtomicSet | .tableAtomicRmwXchg | .tableAtomicRmwCmpxchg => .tableIndex
  | .arrayAtomicGet | .arrayAtomicGetS | .arrayAtomicGetU | .arrayAtomicSet | .arrayAtomicRmwAdd
  | .arrayAtomicRmwSub | .arrayAtomicRmwAnd | .arrayAtomicRmwOr | .arrayAtomicRmwXor
  | .arrayAtomicRmwXchg | .arrayAtomicRmwCmpxchg => .arrayTypeIndex

/-- The fields of the atomic operators on structs (lib.rs lines 749-759). -/
def atomic2Fields : Atomic2 → Field × Field := fun _ => (.structTypeIndex, .fieldIndex)

variable (m : Maps)

/-- `block_type` (lines 1666-1677). -/
def blockType : BlockType → Option Enc.BlockType
  | .empty => some .empty
  | .funcType n => some (.functionType (m.type n))
  | .type t => do pure (.result (← Types.Reenc.valType m.type t))

/-- `mem_arg` (lines 939-948). -/
def memArg (a : MemArg) : Enc.MemArg :=
  { offset := a.offset, align := a.align.toBitVec.setWidth 32, memoryIndex := m.memory a.memory }

/-- `ordering` (lines 950-958). -/
def ordering : Instr.Ordering → Enc.Ordering
  | .seqCst => .seqCst
  | .acqRel => .acqRel

/-- `catch` (lines 968-984). -/
def catch_ : Catch → Enc.Catch
  | .one tag label => .one (m.tag tag) label
  | .oneRef tag label => .oneRef (m.tag tag) label
  | .all label => .all label
  | .allRef label => .allRef label

/-- `handle` (lines 986-999). -/
def handle : Handle → Enc.Handle
  | .onLabel tag label => .onLabel (m.tag tag) label
  | .onSwitch tag => .onSwitch (m.tag tag)

/-- `targets().collect::<Result<Vec<_>, _>>()?` (lines 1725-1731). -/
def targets (t : BrTable) : Option (List (BitVec 32)) :=
  match t.targets with
  | .ok ls => some ls
  | .error _ => none

/-- `V128::i128` (wasmparser readers/core/operators.rs lines 281-283): `i128::from_le_bytes`. -/
def v128 (bs : List UInt8) : BitVec 128 := BitVec.ofNat 128 (leValue bs)

/-- `instruction` (lines 1679-1779): each field is mapped according to its name and given to the
field of the same name of the encoder's instruction. -/
def instruction : Operator → Option Enc.Instr
  | .plain o => some (.plain o)
  | .else_ => some .else_
  | .end_ => some .end_
  | .catchAll => some .catchAll
  | .atomicFence => some .atomicFence
  | .block o ty => do pure (.block o (← blockType m ty))
  | .tryTable ty catches => do pure (.tryTable (← blockType m ty) (catches.map (catch_ m)))
  | .idx o i => some (.idx o (mapField m (idxField o) i))
  | .catch_ tag => some (.catch_ (mapField m .tagIndex tag))
  | .delegate depth => some (.delegate (mapField m .relativeDepth depth))
  | .memorySize mem => some (.memorySize (mapField m .mem mem))
  | .memoryGrow mem => some (.memoryGrow (mapField m .mem mem))
  | .idx2 o i j => some (.idx2 o (mapField m (idx2Fields o).1 i) (mapField m (idx2Fields o).2 j))
  | .callIndirect ty table =>
    some (.callIndirect (mapField m .tableIndex table) (mapField m .typeIndex ty))
  | .returnCallIndirect ty table =>
    some (.returnCallIndirect (mapField m .tableIndex table) (mapField m .typeIndex ty))
  | .memoryInit data mem => some (.memoryInit (mapField m .mem mem) (mapField m .dataIndex data))
  | .tableInit elem table => some (.tableInit (mapField m .table table) (mapField m .elemIndex elem))
  | .brTable t => do pure (.brTable (← targets t) t.default)
  | .mem o a => some (.mem o (memArg m a))
  | .memLane o a lane => some (.memLane o (memArg m a) lane)
  | .lane o lane => some (.lane o lane)
  | .i8x16Shuffle lanes => some (.i8x16Shuffle lanes)
  | .heap o h => do pure (.heap o (← Types.Reenc.heapType m.type h))
  | .cast o depth a b => do
    pure (.cast o (mapField m .relativeDepth depth) (← Types.Reenc.refType m.type a)
      (← Types.Reenc.refType m.type b))
  | .atomic o ord i => some (.atomic o (ordering ord) (mapField m (atomicField o) i))
  | .atomic2 o ord i j => some (.atomic2 o (ordering ord) (mapField m (atomic2Fields o).1 i)
    (mapField m (atomic2Fields o).2 j))
  | .i32Const v => some (.i32Const v)
  | .i64Const v => some (.i64Const v)
  | .f32Const v => some (.f32Const v)
  | .f64Const v => some (.f64Const v)
  | .v128Const bs => some (.v128Const (v128 bs))
  | .typedSelect ty => do pure (.typedSelect (← Types.Reenc.valType m.type ty))
  | .typedSelectMulti tys => do pure (.typedSelectMulti (← tys.mapM (Types.Reenc.valType m.type)))
  | .resume ty hs => some (.resume (mapField m .contTypeIndex ty) (hs.map (handle m)))
  | .resumeThrow ty tag hs => some (.resumeThrow (mapField m .contTypeIndex ty)
    (mapField m .tagIndex tag) (hs.map (handle m)))
  | .resumeThrowRef ty hs =>
    some (.resumeThrowRef (mapField m .contTypeIndex ty) (hs.map (handle m)))

/-- `parse_instruction` (lines 1824-1830). -/
def parseInstruction (f : Instr.Features) (s : OperatorsReader) :
    Option (Enc.Instr × OperatorsReader) :=
  match s.read f with
  | .error _ => none
  | .ok (op, s') => do pure (← instruction m op, s')

/-- `is_end_then_eof` (wasmparser binary_reader.rs lines 709-711). -/
def isEndThenEof (r : Reader) : Bool := r.rest = [0x0B]

/-- The loop of `const_expr` (lines 1658-1661). Every step consumes a byte or fails, so that
`fuel` above the number of remaining bytes is never exhausted. -/
def constExprFrom (f : Instr.Features) : Nat → OperatorsReader → Option (List UInt8)
  | 0, _ => none
  | n + 1, s =>
    if isEndThenEof s.reader then some []
    else do
      let (insn, s') ← parseInstruction m f s
      let bytes ← insn.encode
      pure (bytes ++ (← constExprFrom f n s'))

/-- `const_expr` (lines 1651-1664). -/
def constExpr (f : Instr.Features) (c : ConstExpr) : Option Items.Enc.ConstExpr := do
  pure ⟨← constExprFrom m f (c.reader.bytesRemaining + 1) (.new c.reader)⟩

/-! ### Function bodies -/

/-- `LocalsReader::read` (wasmparser readers/core/code.rs lines 113-121) for each of `n`
declarations, as the iterator of lines 144-156 does; `total` is `total_count`. -/
def readLocalsFrom : Nat → Nat → R (List (BitVec 32 × Types.ValType))
  | 0, _ => pure []
  | n + 1, total => do
    let count ← readVarU32
    let pos ← readPos
    if total + count.toNat ≥ 2 ^ 32 then R.fail "too many locals" pos
    else do
      let ty ← Types.readValType
      let rest ← readLocalsFrom n (total + count.toNat)
      pure ((count, ty) :: rest)

/-- `FunctionBody::get_locals_reader` (code.rs lines 49-57) and all its items. -/
def readLocals : R (List (BitVec 32 × Types.ValType)) := do
  let n ← readVarU32
  readLocalsFrom n.toNat 0

/-- `FunctionBody::skip_locals` (code.rs lines 39-46). -/
def skipLocals : R Unit := skipItems do
  let _ ← readVarU32
  let _ ← Types.readValType
  pure ()

/-- `FunctionBody::get_operators_reader` (code.rs lines 60-72). -/
def operatorsReader (body : Reader) : Except Err OperatorsReader :=
  match skipLocals body with
  | .error e => .error e
  | .ok ((), r) => .ok (.new r)

/-- The declarations that `get_locals_reader` yields. -/
def localsOf (body : Reader) : Except Err (List (BitVec 32 × Types.ValType)) :=
  match readLocals body with
  | .error e => .error e
  | .ok (ds, _) => .ok ds

/-- The operators of a body, and the reader after them. -/
def operatorsOf (f : Instr.Features) (body : Reader) :
    Except Err (List Operator × OperatorsReader) :=
  match operatorsReader body with
  | .error e => .error e
  | .ok s => s.collect f

/-- One pair of `Function::new` (core/code.rs lines 177-180). -/
def encodeLocal (d : BitVec 32 × Types.Enc.ValType) : List UInt8 :=
  Leb.encodeU32 d.1 ++ d.2.encode

/-- `Function::new` (core/code.rs lines 169-182). -/
def functionNew (locals : List (BitVec 32 × Types.Enc.ValType)) : Option (List UInt8) := do
  pure ((← Framing.encodeUsize locals.length) ++ locals.flatMap encodeLocal)

/-- The loop body of `new_function_with_parsed_locals` (lines 1816-1819). -/
def local_ (d : BitVec 32 × Types.ValType) : Option (BitVec 32 × Types.Enc.ValType) := do
  pure (d.1, ← Types.Reenc.valType m.type d.2)

/-- `new_function_with_parsed_locals` (lines 1811-1821). -/
def newFunction (body : Reader) : Option (List UInt8) :=
  match localsOf body with
  | .error _ => none
  | .ok ds => do functionNew (← ds.mapM (local_ m))

/-- The loop of `parse_function_body` (lines 1801-1803): the bytes appended. A read that
succeeds consumes a byte, so that the number of bytes bounds the number of steps. -/
def instructionsFrom (f : Instr.Features) : Nat → OperatorsReader → Option (List UInt8)
  | 0, _ => some []
  | n + 1, s =>
    if s.reader.eof then some []
    else do
      let (insn, s') ← parseInstruction m f s
      let bytes ← insn.encode
      pure (bytes ++ (← instructionsFrom f n s'))

/-- `parse_function_body` (lines 1795-1806): the body given to `CodeSection::function`. -/
def functionBody (f : Instr.Features) (body : Reader) : Option (List UInt8) := do
  let head ← newFunction m body
  match operatorsReader body with
  | .error _ => none
  | .ok s => do
    pure (head ++ (← instructionsFrom m f s.reader.bytesRemaining s))

end Verif.Reenc
