import Verif.Instr.Names
import Verif.Types.Model
/-! wasmparser's operators and the readers of their immediates
(crates/wasmparser/src/binary_reader.rs, crates/wasmparser/src/readers/core/operators.rs). -/
namespace Verif.Instr
open Verif.Reader Verif.Types

/-- The features (crates/wasmparser/src/features.rs) that the operator reader looks at. The
cargo features `simd` and `features` are on. -/
structure Features where
  multiMemory : Bool
  memory64 : Bool
  legacyExceptions : Bool
  callIndirectOverlong : Bool
  deriving DecidableEq, Repr

/-- `enum FrameKind` (operators.rs lines 36-68). -/
inductive FrameKind where
  | block | if_ | else_ | loop | tryTable | legacyTry | legacyCatch | legacyCatchAll
  deriving DecidableEq, Repr

/-- `enum BlockType` (operators.rs lines 23-33). -/
inductive BlockType where
  | empty
  | type (ty : ValType)
  | funcType (i : BitVec 32)
  deriving DecidableEq, Repr

/-- `struct MemArg` (operators.rs lines 72-95). -/
structure MemArg where
  align : UInt8
  maxAlign : UInt8
  offset : BitVec 64
  memory : BitVec 32
  deriving DecidableEq, Repr

/-- `struct BrTable` (operators.rs lines 99-103). -/
structure BrTable where
  reader : Reader
  cnt : Nat
  default : BitVec 32
  deriving DecidableEq, Repr

/-- `enum Ordering` (operators.rs lines 307-315). -/
inductive Ordering where
  | acqRel | seqCst
  deriving DecidableEq, Repr

/-- `enum Catch` (operators.rs lines 876-885). -/
inductive Catch where
  | one (tag label : BitVec 32)
  | oneRef (tag label : BitVec 32)
  | all (label : BitVec 32)
  | allRef (label : BitVec 32)
  deriving DecidableEq, Repr

/-- `enum Handle` (operators.rs lines 932-937). -/
inductive Handle where
  | onLabel (tag label : BitVec 32)
  | onSwitch (tag : BitVec 32)
  deriving DecidableEq, Repr

/-- `enum Operator` (operators.rs lines 317-332 over lib.rs lines 69-800), fields in declared
order. Float constants by their bits; `V128` and `[u8; 16]` are lists of bytes, which the
readers below only build with 16 elements. -/
inductive Operator where
  | plain (o : Plain)
  | else_ | end_ | catchAll | atomicFence
  | block (o : Blk) (ty : BlockType)
  | tryTable (ty : BlockType) (catches : List Catch)
  | idx (o : Idx) (i : BitVec 32)
  | catch_ (tag : BitVec 32)
  | delegate (depth : BitVec 32)
  | memorySize (mem : BitVec 32)
  | memoryGrow (mem : BitVec 32)
  | idx2 (o : Idx2) (i j : BitVec 32)
  | callIndirect (typeIndex tableIndex : BitVec 32)
  | returnCallIndirect (typeIndex tableIndex : BitVec 32)
  | memoryInit (dataIndex mem : BitVec 32)
  | tableInit (elemIndex table : BitVec 32)
  | brTable (targets : BrTable)
  | mem (o : Mem) (m : MemArg)
  | memLane (o : MemLane) (m : MemArg) (lane : UInt8)
  | lane (o : Lane) (lane : UInt8)
  | i8x16Shuffle (lanes : List UInt8)
  | heap (o : Heap) (h : HeapType)
  | cast (o : Cast) (depth : BitVec 32) (frm to : RefType)
  | atomic (o : Atomic) (ord : Ordering) (i : BitVec 32)
  | atomic2 (o : Atomic2) (ord : Ordering) (i j : BitVec 32)
  | i32Const (v : BitVec 32)
  | i64Const (v : BitVec 64)
  | f32Const (v : BitVec 32)
  | f64Const (v : BitVec 64)
  | v128Const (v : List UInt8)
  | typedSelect (ty : ValType)
  | typedSelectMulti (tys : List ValType)
  | resume (contType : BitVec 32) (handlers : List Handle)
  | resumeThrow (contType tag : BitVec 32) (handlers : List Handle)
  | resumeThrowRef (contType : BitVec 32) (handlers : List Handle)
  deriving DecidableEq, Repr

/-- `MAX_WASM_BR_TABLE_SIZE` (limits.rs lines 31, 40). -/
def maxWasmBrTableSize : Nat := 7654321
/-- `MAX_WASM_CATCHES` (limits.rs line 42). -/
def maxWasmCatches : Nat := 10000
/-- `MAX_WASM_HANDLERS` (limits.rs line 44). -/
def maxWasmHandlers : Nat := 10000
/-- `MAX_WASM_SELECT_RESULT_SIZE` (limits.rs line 46). -/
def maxWasmSelectResultSize : Nat := 10

/-- `read_block_type` (binary_reader.rs lines 667-704). -/
def readBlockType : R BlockType := do
  let b ← peekR
  if b &&& 0x80 = 0 ∧ b &&& 0x40 ≠ 0 then
    if b = 0x40 then
      let _ ← readU8
      pure .empty
    else .type <$> readValType
  else
    let idx ← readVarS33
    if 0 ≤ idx.toInt ∧ idx.toInt < 2 ^ 32 then pure (.funcType (idx.setWidth 32))
    else R.fail "invalid function type" (← readPos)

/-- `read_memarg` (binary_reader.rs lines 1937-1966). -/
def readMemarg (f : Features) (maxAlign : UInt8) : R MemArg := do
  let flagsPos ← readPos
  let flags ← readVarU32
  let hasMemory := f.multiMemory && flags &&& (1#32 <<< 6) != 0
  let flags := if hasMemory then flags ^^^ (1#32 <<< 6) else flags
  let memory ← if hasMemory then readVarU32 else pure 0#32
  let maxFlagBits := if f.multiMemory then 6 else 5
  if flags ≥ 1#32 <<< maxFlagBits then
    R.fail "malformed memop alignment: alignment too large" flagsPos
  else
    let align := UInt8.ofBitVec (flags.setWidth 8)
    let offset ← if f.memory64 then readVarU64 else (·.setWidth 64) <$> readVarU32
    pure { align, maxAlign, offset, memory }

/-- `read_ordering` (binary_reader.rs lines 1968-1978). -/
def readOrdering : R Ordering := do
  let byte ← readVarU32
  if byte = 0 then pure .seqCst
  else if byte = 1 then pure .acqRel
  else R.fail "invalid atomic consistency ordering" ((← readPos) - 1)

/-- `read_br_table` (binary_reader.rs lines 1980-1994). -/
def readBrTable : R BrTable := do
  let cnt ← readSize maxWasmBrTableSize "br_table"
  let reader ← skip (do let _ ← readMany readVarU32 cnt)
  let default ← readVarU32
  pure { reader, cnt, default }

/-- `BrTableTargets::next` (operators.rs lines 172-199) until it returns `None` or an error. -/
def targetsFrom (r : Reader) : Nat → Except Err (List (BitVec 32))
  | 0 => if r.eof then .ok [] else .error (.msg "trailing data in br_table" r.originalPosition)
  | n + 1 => match readVarU32 r with
    | .error e => .error e
    | .ok (t, r') => (t :: ·) <$> targetsFrom r' n

/-- `BrTable::targets` (operators.rs lines 152-157), collected. -/
def BrTable.targets (t : BrTable) : Except Err (List (BitVec 32)) := targetsFrom t.reader t.cnt

/-- `read_memory_index_or_zero_if_not_multi_memory` (binary_reader.rs lines 2008-2019). -/
def readMemoryIndexOrZero (f : Features) : R (BitVec 32) := do
  if f.multiMemory then readVarU32
  else if (← readU8) = 0 then pure 0
  else R.fail "zero byte expected" ((← readPos) - 1)

/-- `read_call_indirect_table_immediate` (binary_reader.rs lines 2021-2035). -/
def readCallIndirectTable (f : Features) : R (BitVec 32) := do
  if f.callIndirectOverlong then readVarU32
  else if (← readU8) = 0 then pure 0
  else R.fail "zero byte expected" ((← readPos) - 1)

/-- `expect_frame` (binary_reader.rs lines 813-823). -/
def expectFrame (k want : FrameKind) (found : String) : R Unit := do
  if k = want then pure ()
  else R.fail s!"`{found}` found outside block" (← readPos)

/-- The two `expect_frame`s of `catch` and `catch_all` (binary_reader.rs lines 868-871 and
903-906). -/
def expectCatchFrame (k : FrameKind) (found : String) : R Unit := fun r =>
  match expectFrame k .legacyCatch found r with
  | .ok x => .ok x
  | .error _ => expectFrame k .legacyTry found r

/-- `require_feature::legacy_exceptions` (binary_reader.rs lines 853-858, 862-867, 897-902). -/
def requireLegacyExceptions (f : Features) (what : String) (pos : Nat) : R Unit :=
  if f.legacyExceptions then pure ()
  else R.fail s!"legacy_exceptions feature required for {what} instruction" pos

/-- Two `read_var_u32` passed to a visitor method in this order. -/
def read2 (g : BitVec 32 → BitVec 32 → Operator) : R Operator := do
  let i ← readVarU32
  let j ← readVarU32
  pure (g i j)

/-- A memory immediate and a lane (binary_reader.rs lines 1538-1577; `read_lane_index`
lines 1997-1999). -/
def readMemLane (f : Features) (maxAlign : UInt8) (g : MemArg → UInt8 → Operator) :
    R Operator := do
  let memarg ← readMemarg f maxAlign
  let lane ← readU8
  pure (g memarg lane)

/-- `let (from, to) = match cast_flags` (binary_reader.rs lines 1239-1245). -/
def castFlags (b : UInt8) : Option (Bool × Bool) :=
  if b = 0 then some (false, false)
  else if b = 1 then some (true, false)
  else if b = 2 then some (false, true)
  else if b = 3 then some (true, true)
  else none

/-- The immediates of `br_on_cast` (binary_reader.rs lines 1235-1257; the same in
1258-1280, 1300-1322 and 1323-1345). -/
def readCast (g : BitVec 32 → RefType → RefType → Operator) : R Operator := do
  let pos ← readPos
  let flags ← readU8
  let depth ← readVarU32
  match castFlags flags with
  | none => R.fail "invalid cast flags" pos
  | some (fromNullable, toNullable) =>
    match RefType.new fromNullable (← readHeapType) with
    | none => R.fail "implementation error: type index too large" pos
    | some frm =>
      match RefType.new toNullable (← readHeapType) with
      | none => R.fail "implementation error: type index too large" pos
      | some to => pure (g depth frm to)

/-- An ordering and an index (binary_reader.rs lines 1832-1930). -/
def readAtomic (g : Ordering → BitVec 32 → Operator) : R Operator := do
  let ord ← readOrdering
  let i ← readVarU32
  pure (g ord i)

/-- An ordering and two indices (binary_reader.rs lines 1861-1915). -/
def readAtomic2 (g : Ordering → BitVec 32 → BitVec 32 → Operator) : R Operator := do
  let ord ← readOrdering
  let i ← readVarU32
  let j ← readVarU32
  pure (g ord i j)

/-- Opcode `0x1c` (binary_reader.rs lines 911-923). -/
def readTypedSelect : R Operator := do
  let n ← readSize maxWasmSelectResultSize "select types"
  if n = 1 then .typedSelect <$> readValType
  else .typedSelectMulti <$> readMany readValType n

/-- `Catch::from_reader` (operators.rs lines 897-918). -/
def readCatch : R Catch := do
  let b ← readU8
  if b = 0 then
    let tag ← readVarU32
    let label ← readVarU32
    pure (.one tag label)
  else if b = 1 then
    let tag ← readVarU32
    let label ← readVarU32
    pure (.oneRef tag label)
  else if b = 2 then .all <$> readVarU32
  else if b = 3 then .allRef <$> readVarU32
  else R.fail "invalid leading byte for catch" ((← readPos) - 1)

/-- `TryTable::from_reader` (operators.rs lines 887-895). -/
def readTryTable : R Operator := do
  let ty ← readBlockType
  let catches ← readIter readCatch maxWasmCatches "catches"
  pure (.tryTable ty catches)

/-- `Handle::from_reader` (operators.rs lines 956-969). -/
def readHandle : R Handle := do
  let b ← readU8
  if b = 0 then
    let tag ← readVarU32
    let label ← readVarU32
    pure (.onLabel tag label)
  else if b = 1 then .onSwitch <$> readVarU32
  else R.fail "invalid leading byte for on clause" ((← readPos) - 1)

/-- `ResumeTable::from_reader` (operators.rs lines 946-954). -/
def readResumeTable : R (List Handle) := readIter readHandle maxWasmHandlers "resume table"

end Verif.Instr
