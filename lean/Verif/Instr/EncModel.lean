import Verif.Instr.EncTable
import Verif.Types.Model
/-! wasm-encoder's instructions (crates/wasm-encoder/src/core/code.rs and instructions.rs). -/
namespace Verif.Instr.Enc
open Verif.Leb Verif.Framing Verif.Types.Enc

/-- `enum BlockType` (code.rs lines 437-444). -/
inductive BlockType where
  | empty
  | result (ty : ValType)
  | functionType (i : BitVec 32)
  deriving DecidableEq, Repr

/-- `struct MemArg` (code.rs lines 375-389). -/
structure MemArg where
  offset : BitVec 64
  align : BitVec 32
  memoryIndex : BitVec 32
  deriving DecidableEq, Repr

/-- `enum Ordering` (code.rs lines 412-420). -/
inductive Ordering where
  | acqRel | seqCst
  deriving DecidableEq, Repr

/-- `enum Catch` (code.rs lines 2194-2199). -/
inductive Catch where
  | one (tag label : BitVec 32)
  | oneRef (tag label : BitVec 32)
  | all (label : BitVec 32)
  | allRef (label : BitVec 32)
  deriving DecidableEq, Repr

/-- `enum Handle` (code.rs lines 2228-2231). -/
inductive Handle where
  | onLabel (tag label : BitVec 32)
  | onSwitch (tag : BitVec 32)
  deriving DecidableEq, Repr

/-- `enum Instruction` (code.rs lines 460-1339), with the arguments in the order of the
`InstructionSink` methods. `[Lane; 16]` is a list of bytes. -/
inductive Instr where
  | plain (o : Plain)
  | else_ | end_ | catchAll | atomicFence
  | block (o : Blk) (bt : BlockType)
  | tryTable (ty : BlockType) (catches : List Catch)
  | idx (o : Idx) (i : BitVec 32)
  | catch_ (t : BitVec 32)
  | delegate (l : BitVec 32)
  | memorySize (i : BitVec 32)
  | memoryGrow (i : BitVec 32)
  | idx2 (o : Idx2) (i j : BitVec 32)
  | callIndirect (tableIndex typeIndex : BitVec 32)
  | returnCallIndirect (tableIndex typeIndex : BitVec 32)
  | memoryInit (mem dataIndex : BitVec 32)
  | tableInit (table elemIndex : BitVec 32)
  | brTable (ls : List (BitVec 32)) (l : BitVec 32)
  | mem (o : Mem) (m : MemArg)
  | memLane (o : MemLane) (m : MemArg) (lane : UInt8)
  | lane (o : Lane) (lane : UInt8)
  | i8x16Shuffle (lanes : List UInt8)
  | heap (o : Heap) (h : HeapType)
  | cast (o : Cast) (depth : BitVec 32) (frm to : RefType)
  | atomic (o : Atomic) (ord : Ordering) (i : BitVec 32)
  | atomic2 (o : Atomic2) (ord : Ordering) (i j : BitVec 32)
  | i32Const (x : BitVec 32)
  | i64Const (x : BitVec 64)
  | f32Const (bits : BitVec 32)
  | f64Const (bits : BitVec 64)
  | v128Const (x : BitVec 128)
  | typedSelect (ty : ValType)
  | typedSelectMulti (tys : List ValType)
  | resume (contType : BitVec 32) (table : List Handle)
  | resumeThrow (contType tag : BitVec 32) (table : List Handle)
  | resumeThrowRef (contType : BitVec 32) (table : List Handle)
  deriving DecidableEq, Repr

/-- `impl Encode for BlockType` (code.rs lines 446-454). -/
def BlockType.encode : BlockType → List UInt8
  | .empty => [0x40]
  | .result ty => ty.encode
  | .functionType i => encodeI64 (i.setWidth 64)

/-- `impl Encode for MemArg` (code.rs lines 391-402). -/
def MemArg.encode (m : MemArg) : List UInt8 :=
  if m.memoryIndex = 0 then encodeU32 m.align ++ encodeU64 m.offset
  else encodeU32 (m.align ||| 1#32 <<< 6) ++ encodeU32 m.memoryIndex ++ encodeU64 m.offset

/-- `impl Encode for Ordering` (code.rs lines 422-430). -/
def Ordering.encode : Ordering → List UInt8
  | .seqCst => [0]
  | .acqRel => [1]

/-- `impl Encode for Catch` (code.rs lines 2201-2224). -/
def Catch.encode : Catch → List UInt8
  | .one tag label => 0x00 :: (encodeU32 tag ++ encodeU32 label)
  | .oneRef tag label => 0x01 :: (encodeU32 tag ++ encodeU32 label)
  | .all label => 0x02 :: encodeU32 label
  | .allRef label => 0x03 :: encodeU32 label

/-- `impl Encode for Handle` (code.rs lines 2233-2247). -/
def Handle.encode : Handle → List UInt8
  | .onLabel tag label => 0x00 :: (encodeU32 tag ++ encodeU32 label)
  | .onSwitch tag => 0x01 :: encodeU32 tag

/-- `encode_vec` (lib.rs lines 165-176) and `impl Encode for [T]` (lib.rs lines 107-114);
`none` is the panic on more than `u32::MAX` elements. -/
def encodeVec (enc : α → List UInt8) (xs : List α) : Option (List UInt8) := do
  pure ((← encodeUsize xs.length) ++ xs.flatMap enc)

/-- `to_le_bytes` of an `n`-byte integer. -/
def leBytes : Nat → Nat → List UInt8
  | 0, _ => []
  | n + 1, v => UInt8.ofNat (v % 256) :: leBytes n (v / 256)

/-- `cast_flags` (instructions.rs lines 1627, 1644, 4677, 4694):
`(from.nullable as u8) | ((to.nullable as u8) << 1)`. -/
def castFlags (frm to : RefType) : UInt8 :=
  (if frm.nullable then (1 : UInt8) else 0) ||| ((if to.nullable then (1 : UInt8) else 0) <<< 1)

/-- The immediates of a cast (instructions.rs lines 1619-1651 and 4669-4701). -/
def encodeCast (depth : BitVec 32) (frm to : RefType) : List UInt8 :=
  [castFlags frm to] ++ encodeU32 depth ++ frm.heapType.encode ++ to.heapType.encode

/-- `impl Encode for Instruction` (code.rs lines 1341-2190) through the methods of
`InstructionSink` (instructions.rs lines 22-4701). -/
def Instr.encode : Instr → Option (List UInt8)
  | .plain o => some (opcodePlain o).bytes
  | .else_ => some [0x05]
  | .end_ => some [0x0B]
  | .catchAll => some [0x19]
  | .atomicFence => some [0xFE, 0x03, 0x00]
  | .block o bt => some ((opcodeBlk o).bytes ++ bt.encode)
  | .tryTable ty catches => do
    pure ([0x1f] ++ ty.encode ++ (← encodeVec Catch.encode catches))
  | .idx o i => some ((opcodeIdx o).bytes ++ encodeU32 i)
  | .catch_ t => some ([0x07] ++ encodeU32 t)
  | .delegate l => some ([0x18] ++ encodeU32 l)
  | .memorySize i => some ([0x3F] ++ encodeU32 i)
  | .memoryGrow i => some ([0x40] ++ encodeU32 i)
  | .idx2 o i j => some ((opcodeIdx2 o).bytes ++ encodeU32 i ++ encodeU32 j)
  | .callIndirect tableIndex typeIndex =>
    some ([0x11] ++ encodeU32 typeIndex ++ encodeU32 tableIndex)
  | .returnCallIndirect tableIndex typeIndex =>
    some ([0x13] ++ encodeU32 typeIndex ++ encodeU32 tableIndex)
  | .memoryInit memory dataIndex =>
    some ([0xFC, 0x08] ++ encodeU32 dataIndex ++ encodeU32 memory)
  | .tableInit table elemIndex => some ([0xFC, 0x0C] ++ encodeU32 elemIndex ++ encodeU32 table)
  | .brTable ls l => do
    pure ([0x0E] ++ (← encodeVec encodeU32 ls) ++ encodeU32 l)
  | .mem o m => some ((opcodeMem o).bytes ++ m.encode)
  | .memLane o m l => some ((opcodeMemLane o).bytes ++ m.encode ++ [l])
  | .lane o l => some ((opcodeLane o).bytes ++ [l])
  | .i8x16Shuffle lanes => some ([0xFD] ++ encodeU32 0x0D ++ lanes)
  | .heap o h => some ((opcodeHeap o).bytes ++ h.encode)
  | .cast o depth frm to => some ((opcodeCast o).bytes ++ encodeCast depth frm to)
  | .atomic o ord i => some ((opcodeAtomic o).bytes ++ ord.encode ++ encodeU32 i)
  | .atomic2 o ord i j =>
    some ((opcodeAtomic2 o).bytes ++ ord.encode ++ encodeU32 i ++ encodeU32 j)
  | .i32Const x => some ([0x41] ++ encodeI32 x)
  | .i64Const x => some ([0x42] ++ encodeI64 x)
  | .f32Const bits => some ([0x43] ++ leBytes 4 bits.toNat)
  | .f64Const bits => some ([0x44] ++ leBytes 8 bits.toNat)
  | .v128Const x => some ([0xFD] ++ encodeU32 0x0C ++ leBytes 16 x.toNat)
  | .typedSelect ty => do
    pure ([0x1C] ++ (← encodeVec ValType.encode [ty]))
  | .typedSelectMulti tys => do
    pure ([0x1C] ++ (← encodeVec ValType.encode tys))
  | .resume contType table => do
    pure ([0xE3] ++ encodeU32 contType ++ (← encodeVec Handle.encode table))
  | .resumeThrow contType tag table => do
    pure ([0xE4] ++ encodeU32 contType ++ encodeU32 tag ++ (← encodeVec Handle.encode table))
  | .resumeThrowRef contType table => do
    pure ([0xE5] ++ encodeU32 contType ++ (← encodeVec Handle.encode table))

/-- A sequence of instructions written one after another (`Function::instruction`, code.rs
lines 228-231). -/
def encodeSeq : List Instr → Option (List UInt8)
  | [] => some []
  | i :: is => do pure ((← i.encode) ++ (← encodeSeq is))

end Verif.Instr.Enc
