import Verif.Op.Gate
/-! The arity of an operator: `Operator::operator_arity` (crates/wasmparser/src/arity.rs) with the
table in `for_each_operator` (crates/wasmparser/src/lib.rs lines 69-800), and the check of debug
builds that the validator agrees with it (crates/wasmparser/src/validator/func.rs lines 139-180).

`None` is `.error .error`, a panic is `.error .panic`. The numbers are `u32` in the code; they are
natural numbers here, since types, labels and tables have far fewer than `2^32` entries. -/
namespace Verif.Op
open Verif.Instr (FrameKind BlockType MemArg Catch Handle BrTable Operator)
open Verif.TypeList.Spec (Field Storage Comp SubT)

/-- What `operator_arity` returns. -/
abbrev Ar (α : Type) := Except Fail α

/-- `?` on an `Option`. -/
def Ar.ofOption {α : Type} : Option α → Ar α
  | some a => .ok a
  | none => .error .error

/-- The arities of the operators without immediates in `for_each_operator` (lib.rs lines 73-798);
`none` is `custom`. -/
def plainArity : Instr.Plain → Option (Nat × Nat)
  | .unreachable | .nop => some (0, 0)
  | .return_ => none
  | .throwRef | .drop => some (1, 0)
  | .select | .v128Bitselect | .f32x4RelaxedMadd | .f32x4RelaxedNmadd | .f64x2RelaxedMadd
  | .f64x2RelaxedNmadd | .i8x16RelaxedLaneselect | .i16x8RelaxedLaneselect
  | .i32x4RelaxedLaneselect | .i64x2RelaxedLaneselect | .i32x4RelaxedDotI8x16I7x16AddS
    => some (3, 1)
  | .i32Eqz | .i64Eqz | .i32Clz | .i32Ctz | .i32Popcnt | .i64Clz | .i64Ctz | .i64Popcnt
  | .f32Abs | .f32Neg | .f32Ceil | .f32Floor | .f32Trunc | .f32Nearest | .f32Sqrt | .f64Abs
  | .f64Neg | .f64Ceil | .f64Floor | .f64Trunc | .f64Nearest | .f64Sqrt | .i32WrapI64
  | .i32TruncF32S | .i32TruncF32U | .i32TruncF64S | .i32TruncF64U | .i64ExtendI32S
  | .i64ExtendI32U | .i64TruncF32S | .i64TruncF32U | .i64TruncF64S | .i64TruncF64U
  | .f32ConvertI32S | .f32ConvertI32U | .f32ConvertI64S | .f32ConvertI64U | .f32DemoteF64
  | .f64ConvertI32S | .f64ConvertI32U | .f64ConvertI64S | .f64ConvertI64U | .f64PromoteF32
  | .i32ReinterpretF32 | .i64ReinterpretF64 | .f32ReinterpretI32 | .f64ReinterpretI64
  | .i32Extend8S | .i32Extend16S | .i64Extend8S | .i64Extend16S | .i64Extend32S
  | .i32TruncSatF32S | .i32TruncSatF32U | .i32TruncSatF64S | .i32TruncSatF64U | .i64TruncSatF32S
  | .i64TruncSatF32U | .i64TruncSatF64S | .i64TruncSatF64U | .refIsNull | .refAsNonNull
  | .arrayLen | .anyConvertExtern | .externConvertAny | .refI31 | .i31GetS | .i31GetU
  | .i8x16Splat | .i16x8Splat | .i32x4Splat | .i64x2Splat | .f32x4Splat | .f64x2Splat | .v128Not
  | .v128AnyTrue | .i8x16Abs | .i8x16Neg | .i8x16Popcnt | .i8x16AllTrue | .i8x16Bitmask
  | .i16x8ExtAddPairwiseI8x16S | .i16x8ExtAddPairwiseI8x16U | .i16x8Abs | .i16x8Neg
  | .i16x8AllTrue | .i16x8Bitmask | .i16x8ExtendLowI8x16S | .i16x8ExtendHighI8x16S
  | .i16x8ExtendLowI8x16U | .i16x8ExtendHighI8x16U | .i32x4ExtAddPairwiseI16x8S
  | .i32x4ExtAddPairwiseI16x8U | .i32x4Abs | .i32x4Neg | .i32x4AllTrue | .i32x4Bitmask
  | .i32x4ExtendLowI16x8S | .i32x4ExtendHighI16x8S | .i32x4ExtendLowI16x8U
  | .i32x4ExtendHighI16x8U | .i64x2Abs | .i64x2Neg | .i64x2AllTrue | .i64x2Bitmask
  | .i64x2ExtendLowI32x4S | .i64x2ExtendHighI32x4S | .i64x2ExtendLowI32x4U
  | .i64x2ExtendHighI32x4U | .f32x4Ceil | .f32x4Floor | .f32x4Trunc | .f32x4Nearest | .f32x4Abs
  | .f32x4Neg | .f32x4Sqrt | .f64x2Ceil | .f64x2Floor | .f64x2Trunc | .f64x2Nearest | .f64x2Abs
  | .f64x2Neg | .f64x2Sqrt | .i32x4TruncSatF32x4S | .i32x4TruncSatF32x4U | .f32x4ConvertI32x4S
  | .f32x4ConvertI32x4U | .i32x4TruncSatF64x2SZero | .i32x4TruncSatF64x2UZero
  | .f64x2ConvertLowI32x4S | .f64x2ConvertLowI32x4U | .f32x4DemoteF64x2Zero
  | .f64x2PromoteLowF32x4 | .i32x4RelaxedTruncF32x4S | .i32x4RelaxedTruncF32x4U
  | .i32x4RelaxedTruncF64x2SZero | .i32x4RelaxedTruncF64x2UZero | .refI31Shared => some (1, 1)
  | .i32Eq | .i32Ne | .i32LtS | .i32LtU | .i32GtS | .i32GtU | .i32LeS | .i32LeU | .i32GeS
  | .i32GeU | .i64Eq | .i64Ne | .i64LtS | .i64LtU | .i64GtS | .i64GtU | .i64LeS | .i64LeU
  | .i64GeS | .i64GeU | .f32Eq | .f32Ne | .f32Lt | .f32Gt | .f32Le | .f32Ge | .f64Eq | .f64Ne
  | .f64Lt | .f64Gt | .f64Le | .f64Ge | .i32Add | .i32Sub | .i32Mul | .i32DivS | .i32DivU
  | .i32RemS | .i32RemU | .i32And | .i32Or | .i32Xor | .i32Shl | .i32ShrS | .i32ShrU | .i32Rotl
  | .i32Rotr | .i64Add | .i64Sub | .i64Mul | .i64DivS | .i64DivU | .i64RemS | .i64RemU | .i64And
  | .i64Or | .i64Xor | .i64Shl | .i64ShrS | .i64ShrU | .i64Rotl | .i64Rotr | .f32Add | .f32Sub
  | .f32Mul | .f32Div | .f32Min | .f32Max | .f32Copysign | .f64Add | .f64Sub | .f64Mul | .f64Div
  | .f64Min | .f64Max | .f64Copysign | .refEq | .i8x16Swizzle | .i8x16Eq | .i8x16Ne | .i8x16LtS
  | .i8x16LtU | .i8x16GtS | .i8x16GtU | .i8x16LeS | .i8x16LeU | .i8x16GeS | .i8x16GeU | .i16x8Eq
  | .i16x8Ne | .i16x8LtS | .i16x8LtU | .i16x8GtS | .i16x8GtU | .i16x8LeS | .i16x8LeU | .i16x8GeS
  | .i16x8GeU | .i32x4Eq | .i32x4Ne | .i32x4LtS | .i32x4LtU | .i32x4GtS | .i32x4GtU | .i32x4LeS
  | .i32x4LeU | .i32x4GeS | .i32x4GeU | .i64x2Eq | .i64x2Ne | .i64x2LtS | .i64x2GtS | .i64x2LeS
  | .i64x2GeS | .f32x4Eq | .f32x4Ne | .f32x4Lt | .f32x4Gt | .f32x4Le | .f32x4Ge | .f64x2Eq
  | .f64x2Ne | .f64x2Lt | .f64x2Gt | .f64x2Le | .f64x2Ge | .v128And | .v128AndNot | .v128Or
  | .v128Xor | .i8x16NarrowI16x8S | .i8x16NarrowI16x8U | .i8x16Shl | .i8x16ShrS | .i8x16ShrU
  | .i8x16Add | .i8x16AddSatS | .i8x16AddSatU | .i8x16Sub | .i8x16SubSatS | .i8x16SubSatU
  | .i8x16MinS | .i8x16MinU | .i8x16MaxS | .i8x16MaxU | .i8x16AvgrU | .i16x8Q15MulrSatS
  | .i16x8NarrowI32x4S | .i16x8NarrowI32x4U | .i16x8Shl | .i16x8ShrS | .i16x8ShrU | .i16x8Add
  | .i16x8AddSatS | .i16x8AddSatU | .i16x8Sub | .i16x8SubSatS | .i16x8SubSatU | .i16x8Mul
  | .i16x8MinS | .i16x8MinU | .i16x8MaxS | .i16x8MaxU | .i16x8AvgrU | .i16x8ExtMulLowI8x16S
  | .i16x8ExtMulHighI8x16S | .i16x8ExtMulLowI8x16U | .i16x8ExtMulHighI8x16U | .i32x4Shl
  | .i32x4ShrS | .i32x4ShrU | .i32x4Add | .i32x4Sub | .i32x4Mul | .i32x4MinS | .i32x4MinU
  | .i32x4MaxS | .i32x4MaxU | .i32x4DotI16x8S | .i32x4ExtMulLowI16x8S | .i32x4ExtMulHighI16x8S
  | .i32x4ExtMulLowI16x8U | .i32x4ExtMulHighI16x8U | .i64x2Shl | .i64x2ShrS | .i64x2ShrU
  | .i64x2Add | .i64x2Sub | .i64x2Mul | .i64x2ExtMulLowI32x4S | .i64x2ExtMulHighI32x4S
  | .i64x2ExtMulLowI32x4U | .i64x2ExtMulHighI32x4U | .f32x4Add | .f32x4Sub | .f32x4Mul
  | .f32x4Div | .f32x4Min | .f32x4Max | .f32x4PMin | .f32x4PMax | .f64x2Add | .f64x2Sub
  | .f64x2Mul | .f64x2Div | .f64x2Min | .f64x2Max | .f64x2PMin | .f64x2PMax
  | .i8x16RelaxedSwizzle | .f32x4RelaxedMin | .f32x4RelaxedMax | .f64x2RelaxedMin
  | .f64x2RelaxedMax | .i16x8RelaxedQ15mulrS | .i16x8RelaxedDotI8x16I7x16S => some (2, 1)
  | .i64Add128 | .i64Sub128 => some (4, 2)
  | .i64MulWideS | .i64MulWideU => some (2, 2)

/-- The arities of the operators with one index in `for_each_operator` (lib.rs lines 80-787);
`none` is `custom`. -/
def idxArity : Instr.Idx → Option (Nat × Nat)
  | .br | .brIf | .brOnNull | .brOnNonNull | .call | .callRef | .returnCallRef | .returnCall
  | .throw | .structNew | .structNewDesc | .suspend => none
  | .rethrow | .dataDrop | .elemDrop => some (0, 0)
  | .localGet | .globalGet | .refFunc | .structNewDefault | .tableSize => some (0, 1)
  | .localSet | .globalSet => some (1, 0)
  | .localTee | .structNewDefaultDesc | .arrayNewDefault | .tableGet | .contNew | .refGetDesc
    => some (1, 1)
  | .memoryFill | .arraySet | .tableFill => some (3, 0)
  | .memoryDiscard | .tableSet => some (2, 0)
  | .arrayNew | .arrayGet | .arrayGetS | .arrayGetU | .tableGrow => some (2, 1)
  | .arrayFill => some (4, 0)

/-- The arities of the operators with two indices in `for_each_operator` (lib.rs lines 262-791);
`none` is `custom`. -/
def idx2Arity : Instr.Idx2 → Option (Nat × Nat)
  | .memoryCopy | .tableCopy => some (3, 0)
  | .structGet | .structGetS | .structGetU => some (1, 1)
  | .structSet => some (2, 0)
  | .arrayNewFixed | .contBind | .switch => none
  | .arrayNewData | .arrayNewElem => some (2, 1)
  | .arrayCopy => some (5, 0)
  | .arrayInitData | .arrayInitElem => some (4, 0)

/-- The arities of the operators with only a `MemArg` in `for_each_operator` (lib.rs lines
93-468); none of them is `custom`. -/
def memArity : Instr.Mem → Nat × Nat
  | .i32Load | .i64Load | .f32Load | .f64Load | .i32Load8S | .i32Load8U | .i32Load16S
  | .i32Load16U | .i64Load8S | .i64Load8U | .i64Load16S | .i64Load16U | .i64Load32S
  | .i64Load32U | .v128Load | .v128Load8x8S | .v128Load8x8U | .v128Load16x4S | .v128Load16x4U
  | .v128Load32x2S | .v128Load32x2U | .v128Load8Splat | .v128Load16Splat | .v128Load32Splat
  | .v128Load64Splat | .v128Load32Zero | .v128Load64Zero | .i32AtomicLoad | .i64AtomicLoad
  | .i32AtomicLoad8U | .i32AtomicLoad16U | .i64AtomicLoad8U | .i64AtomicLoad16U
  | .i64AtomicLoad32U => (1, 1)
  | .i32Store | .i64Store | .f32Store | .f64Store | .i32Store8 | .i32Store16 | .i64Store8
  | .i64Store16 | .i64Store32 | .v128Store | .i32AtomicStore | .i64AtomicStore
  | .i32AtomicStore8 | .i32AtomicStore16 | .i64AtomicStore8 | .i64AtomicStore16
  | .i64AtomicStore32 => (2, 0)
  | .memoryAtomicNotify | .i32AtomicRmwAdd | .i64AtomicRmwAdd | .i32AtomicRmw8AddU
  | .i32AtomicRmw16AddU | .i64AtomicRmw8AddU | .i64AtomicRmw16AddU | .i64AtomicRmw32AddU
  | .i32AtomicRmwSub | .i64AtomicRmwSub | .i32AtomicRmw8SubU | .i32AtomicRmw16SubU
  | .i64AtomicRmw8SubU | .i64AtomicRmw16SubU | .i64AtomicRmw32SubU | .i32AtomicRmwAnd
  | .i64AtomicRmwAnd | .i32AtomicRmw8AndU | .i32AtomicRmw16AndU | .i64AtomicRmw8AndU
  | .i64AtomicRmw16AndU | .i64AtomicRmw32AndU | .i32AtomicRmwOr | .i64AtomicRmwOr
  | .i32AtomicRmw8OrU | .i32AtomicRmw16OrU | .i64AtomicRmw8OrU | .i64AtomicRmw16OrU
  | .i64AtomicRmw32OrU | .i32AtomicRmwXor | .i64AtomicRmwXor | .i32AtomicRmw8XorU
  | .i32AtomicRmw16XorU | .i64AtomicRmw8XorU | .i64AtomicRmw16XorU | .i64AtomicRmw32XorU
  | .i32AtomicRmwXchg | .i64AtomicRmwXchg | .i32AtomicRmw8XchgU | .i32AtomicRmw16XchgU
  | .i64AtomicRmw8XchgU | .i64AtomicRmw16XchgU | .i64AtomicRmw32XchgU => (2, 1)
  | .memoryAtomicWait32 | .memoryAtomicWait64 | .i32AtomicRmwCmpxchg | .i64AtomicRmwCmpxchg
  | .i32AtomicRmw8CmpxchgU | .i32AtomicRmw16CmpxchgU | .i64AtomicRmw8CmpxchgU
  | .i64AtomicRmw16CmpxchgU | .i64AtomicRmw32CmpxchgU => (3, 1)

/-- The arities of the operators with a `MemArg` and a lane in `for_each_operator` (lib.rs lines
469-476); none of them is `custom`. -/
def memLaneArity : Instr.MemLane → Nat × Nat
  | .v128Load8Lane | .v128Load16Lane | .v128Load32Lane | .v128Load64Lane => (2, 1)
  | .v128Store8Lane | .v128Store16Lane | .v128Store32Lane | .v128Store64Lane => (2, 0)

/-- The arities of the operators with only a lane in `for_each_operator` (lib.rs lines 479-492);
none of them is `custom`. -/
def laneArity : Instr.Lane → Nat × Nat
  | .i8x16ExtractLaneS | .i8x16ExtractLaneU | .i16x8ExtractLaneS | .i16x8ExtractLaneU
  | .i32x4ExtractLane | .i64x2ExtractLane | .f32x4ExtractLane | .f64x2ExtractLane => (1, 1)
  | .i8x16ReplaceLane | .i16x8ReplaceLane | .i32x4ReplaceLane | .i64x2ReplaceLane
  | .f32x4ReplaceLane | .f64x2ReplaceLane => (2, 1)

/-- The arities of the operators with a heap type in `for_each_operator` (lib.rs lines 280-353);
none of them is `custom`. -/
def heapArity : Instr.Heap → Nat × Nat
  | .refNull => (0, 1)
  | .refTestNonNull | .refTestNullable | .refCastNonNull | .refCastNullable => (1, 1)
  | .refCastDescEqNonNull | .refCastDescEqNullable => (2, 1)

/-- The arities of the atomic operators with one index in `for_each_operator` (lib.rs lines
736-770); none of them is `custom`. -/
def atomicArity : Instr.Atomic → Nat × Nat
  | .globalAtomicGet => (0, 1)
  | .globalAtomicSet => (1, 0)
  | .globalAtomicRmwAdd | .globalAtomicRmwSub | .globalAtomicRmwAnd | .globalAtomicRmwOr
  | .globalAtomicRmwXor | .globalAtomicRmwXchg | .tableAtomicGet => (1, 1)
  | .globalAtomicRmwCmpxchg | .tableAtomicRmwXchg | .arrayAtomicGet | .arrayAtomicGetS
  | .arrayAtomicGetU => (2, 1)
  | .tableAtomicSet => (2, 0)
  | .tableAtomicRmwCmpxchg | .arrayAtomicRmwAdd | .arrayAtomicRmwSub | .arrayAtomicRmwAnd
  | .arrayAtomicRmwOr | .arrayAtomicRmwXor | .arrayAtomicRmwXchg => (3, 1)
  | .arrayAtomicSet => (3, 0)
  | .arrayAtomicRmwCmpxchg => (4, 1)

/-- The arities of the atomic operators with two indices in `for_each_operator` (lib.rs lines
749-759); none of them is `custom`. -/
def atomic2Arity : Instr.Atomic2 → Nat × Nat
  | .structAtomicGet | .structAtomicGetS | .structAtomicGetU => (1, 1)
  | .structAtomicSet => (2, 0)
  | .structAtomicRmwAdd | .structAtomicRmwSub | .structAtomicRmwAnd | .structAtomicRmwOr
  | .structAtomicRmwXor | .structAtomicRmwXchg => (2, 1)
  | .structAtomicRmwCmpxchg => (3, 1)
variable (E : Env)

/-- `func_type_of_cont_type` of `ModuleArity` (operators.rs lines 4812-4814 and 1755-1758). -/
def arFuncTypeOfContType (c : Nat) : Ar FuncTy :=
  match E.R.subTypeAtId c with
  | none => .error .panic
  | some sub => match sub.comp with
    | .func ps rs => .ok ⟨ps, rs⟩
    | _ => .error .panic

/-- `sub_type_at` of `ModuleArity` (operators.rs lines 4808-4810). -/
def arSubTypeAt (i : BitVec 32) : Ar (SubT Nat) := .ofOption (E.R.subTypeAt i)

/-- `tag_type_arity` of `ModuleArity` (operators.rs lines 4797-4802). -/
def tagTypeArity (i : BitVec 32) : Ar (Nat × Nat) := do
  let t ← Ar.ofOption (E.R.tagAt i)
  pure (t.params.length, t.results.length)

/-- `sub_type_arity` (arity.rs lines 49-62). -/
def subTypeArity (t : SubT Nat) : Ar (Nat × Nat) :=
  match t.comp with
  | .func ps rs => .ok (ps.length, rs.length)
  | .struct fs => .ok (fs.length, fs.length)
  | .array _ => .error .error
  | .cont c => do
    let f ← arFuncTypeOfContType E c
    pure (f.params.length, f.results.length)

/-- `sub_type_arity(sub_type_at(i)?)?`. -/
def typeArity (i : BitVec 32) : Ar (Nat × Nat) := do
  let t ← arSubTypeAt E i
  subTypeArity E t

/-- `block_type_arity` (arity.rs lines 65-71) of the block type of a frame. -/
def frameArity : BT → Ar (Nat × Nat)
  | .empty => .ok (0, 0)
  | .type _ => .ok (0, 1)
  | .func i => typeArity E i

/-- `block_type_arity` (arity.rs lines 65-71) of the block type of an operator. -/
def blockTypeArity : BlockType → Ar (Nat × Nat)
  | .empty => .ok (0, 0)
  | .type _ => .ok (0, 1)
  | .funcType i => typeArity E i

/-- `label_block` of `ModuleArity` (operators.rs lines 4825-4827 and 500-505); the innermost frame
is the first of `c`. -/
def labelBlock (c : List Frame) (depth : Nat) : Ar Frame :=
  if c.isEmpty then .error .panic else .ofOption c[depth]?

/-- `visit_block`, `visit_loop`, `visit_try`, `visit_try_table` (arity.rs lines 100-107, 213-216,
223-225). -/
def arBlock (ty : BlockType) : Ar (Nat × Nat) := do
  let (ps, _) ← blockTypeArity E ty
  pure (ps, ps)

/-- `visit_if` (arity.rs lines 109-112). -/
def arIf (ty : BlockType) : Ar (Nat × Nat) := do
  let (ps, rs) ← arBlock E ty
  pure (ps + 1, rs)

/-- `visit_else` (arity.rs lines 114-118). -/
def arElse (c : List Frame) : Ar (Nat × Nat) := do
  let fr ← labelBlock c 0
  let (ps, rs) ← frameArity E fr.blockType
  pure (rs, ps)

/-- `visit_end` and `visit_delegate` (arity.rs lines 120-124, 233-235). -/
def arEnd (c : List Frame) : Ar (Nat × Nat) := do
  let fr ← labelBlock c 0
  let (_, rs) ← frameArity E fr.blockType
  pure (rs, rs)

/-- The match in `visit_br`. -/
def labelCount (k : FrameKind) (ps rs : Nat) : Nat :=
  match k with
  | .loop => ps
  | _ => rs

/-- `visit_br` (arity.rs lines 126-134). -/
def arBr (c : List Frame) (depth : BitVec 32) : Ar (Nat × Nat) := do
  let fr ← labelBlock c depth.toNat
  let (ps, rs) ← frameArity E fr.blockType
  pure (labelCount fr.kind ps rs, 0)

/-- `visit_br_if` (arity.rs lines 136-139). -/
def arBrIf (c : List Frame) (depth : BitVec 32) : Ar (Nat × Nat) := do
  let (ps, _) ← arBr E c depth
  pure (ps + 1, ps)

/-- `visit_br_table` (arity.rs lines 141-144). -/
def arBrTable (c : List Frame) (t : BrTable) : Ar (Nat × Nat) := do
  let (ps, rs) ← arBr E c t.default
  pure (ps + 1, rs)

/-- `visit_return` (arity.rs lines 146-151). -/
def arReturn (c : List Frame) : Ar (Nat × Nat) :=
  if c.length = 0 then .error .error
  else do
    let fr ← labelBlock c (c.length - 1)
    let (_, rs) ← frameArity E fr.blockType
    pure (rs, 0)

/-- `visit_call` (arity.rs lines 153-155). -/
def arCall (i : BitVec 32) : Ar (Nat × Nat) := do
  let t ← Ar.ofOption (E.R.typeIndexOfFunction i)
  typeArity E t

/-- `visit_call_indirect`, `visit_call_ref`, `visit_resume` (arity.rs lines 157-160, 242-245,
272-275). -/
def arCallIndirect (i : BitVec 32) : Ar (Nat × Nat) := do
  let (ps, rs) ← typeArity E i
  pure (ps + 1, rs)

/-- `visit_struct_new` (arity.rs lines 162-166). -/
def arStructNew (i : BitVec 32) : Ar (Nat × Nat) := do
  let (ps, _) ← typeArity E i
  pure (ps, 1)

/-- `visit_struct_new_desc` (arity.rs lines 168-172). -/
def arStructNewDesc (i : BitVec 32) : Ar (Nat × Nat) := do
  let (ps, _) ← typeArity E i
  pure (ps + 1, 1)

/-- `visit_br_on_cast`, `visit_br_on_cast_fail` (arity.rs lines 178-196). -/
def arBrOnCast (c : List Frame) (depth : BitVec 32) : Ar (Nat × Nat) := do
  let (ps, _) ← arBr E c depth
  pure (ps, ps)

/-- `visit_br_on_cast_desc_eq`, `visit_br_on_cast_desc_eq_fail` (arity.rs lines 310-328). -/
def arBrOnCastDescEq (c : List Frame) (depth : BitVec 32) : Ar (Nat × Nat) := do
  let (ps, _) ← arBr E c depth
  pure (ps + 1, ps)

/-- `visit_return_call` (arity.rs lines 203-206). -/
def arReturnCall (i : BitVec 32) : Ar (Nat × Nat) := do
  let (ps, _) ← arCall E i
  pure (ps, 0)

/-- `visit_return_call_indirect`, `visit_return_call_ref` (arity.rs lines 208-211, 247-250). -/
def arReturnCallIndirect (i : BitVec 32) : Ar (Nat × Nat) := do
  let (ps, _) ← arCallIndirect E i
  pure (ps, 0)

/-- `visit_throw` (arity.rs lines 218-221). -/
def arThrow (i : BitVec 32) : Ar (Nat × Nat) := do
  let (ps, _) ← tagTypeArity E i
  pure (ps, 0)

/-- `visit_catch` (arity.rs lines 227-231). -/
def arCatch (c : List Frame) (i : BitVec 32) : Ar (Nat × Nat) := do
  let (ps, _) ← arEnd E c
  let (ts, _) ← tagTypeArity E i
  pure (ps, ts)

/-- `visit_catch_all` (arity.rs lines 237-240). -/
def arCatchAll (c : List Frame) : Ar (Nat × Nat) := do
  let (ps, _) ← arEnd E c
  pure (ps, 0)

/-- `visit_br_on_null` (arity.rs lines 252-255). -/
def arBrOnNull (c : List Frame) (depth : BitVec 32) : Ar (Nat × Nat) := do
  let (ps, _) ← arBr E c depth
  pure (ps + 1, ps + 1)

/-- `checked_sub`. -/
def checkedSub (a b : Nat) : Ar Nat := if b ≤ a then .ok (a - b) else .error .error

/-- `visit_br_on_non_null` (arity.rs lines 257-260). -/
def arBrOnNonNull (c : List Frame) (depth : BitVec 32) : Ar (Nat × Nat) := do
  let (ps, _) ← arBr E c depth
  let n ← checkedSub ps 1
  pure (ps, n)

/-- `visit_cont_bind` (arity.rs lines 262-266). -/
def arContBind (i j : BitVec 32) : Ar (Nat × Nat) := do
  let (a, _) ← typeArity E i
  let (r, _) ← typeArity E j
  let n ← checkedSub a r
  pure (n + 1, 1)

/-- `visit_resume_throw` (arity.rs lines 277-286). -/
def arResumeThrow (i tag : BitVec 32) : Ar (Nat × Nat) := do
  let (ps, _) ← tagTypeArity E tag
  let (_, rs) ← typeArity E i
  pure (ps + 1, rs)

/-- `visit_resume_throw_ref` (arity.rs lines 288-296). -/
def arResumeThrowRef (i : BitVec 32) : Ar (Nat × Nat) := do
  let (_, rs) ← typeArity E i
  pure (2, rs)

/-- The `let .. else` of `visit_switch`. -/
def arContOf (t : SubT Nat) : Ar Nat :=
  match t.comp with
  | .cont c => .ok c
  | _ => .error .error

/-- `sub_type_of_ref_type` of `ModuleArity` (operators.rs lines 4816-4819) of the last type of a
list, if it is a reference. The types of a module are in terms of ids, so that `as_core_type_id`
gives the id. -/
def arSubTypeOfLast (ts : List Val) : Ar (SubT Nat) := do
  let id ← Ar.ofOption (lastRefId ts)
  match E.R.subTypeAtId id with
  | some t => .ok t
  | none => .error .panic

/-- `visit_switch` (arity.rs lines 298-308). -/
def arSwitch (i : BitVec 32) : Ar (Nat × Nat) := do
  let (ps, _) ← typeArity E i
  let t ← arSubTypeAt E i
  let ct ← arContOf t
  let f ← arFuncTypeOfContType E ct
  let last ← arSubTypeOfLast E f.params
  let (cs, _) ← subTypeArity E last
  pure (ps, cs)

/-- The operators without immediates, all. -/
def arPlain (c : List Frame) (o : Instr.Plain) : Ar (Nat × Nat) :=
  match plainArity o with
  | some p => .ok p
  | none => arReturn E c

/-- The `custom` operators among those with one index. -/
def arIdx (c : List Frame) (o : Instr.Idx) (i : BitVec 32) : Ar (Nat × Nat) :=
  match idxArity o with
  | some p => .ok p
  | none => match o with
    | .br => arBr E c i
    | .brIf => arBrIf E c i
    | .brOnNull => arBrOnNull E c i
    | .brOnNonNull => arBrOnNonNull E c i
    | .call => arCall E i
    | .callRef => arCallIndirect E i
    | .returnCallRef => arReturnCallIndirect E i
    | .returnCall => arReturnCall E i
    | .throw => arThrow E i
    | .structNew => arStructNew E i
    | .structNewDesc => arStructNewDesc E i
    | .suspend => tagTypeArity E i
    | _ => .error .error

/-- The `custom` operators among those with two indices. -/
def arIdx2 (o : Instr.Idx2) (i j : BitVec 32) : Ar (Nat × Nat) :=
  match idx2Arity o with
  | some p => .ok p
  | none => match o with
    | .arrayNewFixed => .ok (j.toNat, 1)
    | .contBind => arContBind E i j
    | .switch => arSwitch E i
    | _ => .error .error

/-- `operator_arity` (arity.rs lines 74-98) on a validator with the frames `c`. -/
def operatorArity (c : List Frame) : Operator → Ar (Nat × Nat)
  | .plain o => arPlain E c o
  | .else_ => arElse E c
  | .end_ | .delegate _ => arEnd E c
  | .catchAll => arCatchAll E c
  | .atomicFence => .ok (0, 0)
  | .block .if_ ty => arIf E ty
  | .block _ ty | .tryTable ty _ => arBlock E ty
  | .idx o i => arIdx E c o i
  | .catch_ tag => arCatch E c tag
  | .memorySize _ => .ok (0, 1)
  | .memoryGrow _ => .ok (1, 1)
  | .idx2 o i j => arIdx2 E o i j
  | .callIndirect i _ => arCallIndirect E i
  | .returnCallIndirect i _ => arReturnCallIndirect E i
  | .memoryInit _ _ | .tableInit _ _ => .ok (3, 0)
  | .brTable t => arBrTable E c t
  | .mem o _ => .ok (memArity o)
  | .memLane o _ _ => .ok (memLaneArity o)
  | .lane o _ => .ok (laneArity o)
  | .i8x16Shuffle _ => .ok (2, 1)
  | .heap o _ => .ok (heapArity o)
  | .cast .brOnCast d _ _ | .cast .brOnCastFail d _ _ => arBrOnCast E c d
  | .cast .brOnCastDescEq d _ _ | .cast .brOnCastDescEqFail d _ _ => arBrOnCastDescEq E c d
  | .atomic o _ _ => .ok (atomicArity o)
  | .atomic2 o _ _ _ => .ok (atomic2Arity o)
  | .i32Const _ | .i64Const _ | .f32Const _ | .f64Const _ | .v128Const _ => .ok (0, 1)
  | .typedSelect _ => .ok (3, 1)
  | .typedSelectMulti ts => .ok (1 + 2 * ts.length, ts.length)
  | .resume i _ => arCallIndirect E i
  | .resumeThrow i t _ => arResumeThrow E i t
  | .resumeThrowRef i _ => arResumeThrowRef E i

/-- The loop over `pop_push_log` (func.rs lines 160-168), which counts pops and pushes as seen from
outside; `true` is a push. -/
def countLog : List Bool → Nat × Nat → Nat × Nat
  | [], p => p
  | true :: l, (pops, pushes) => countLog l (pops, pushes + 1)
  | false :: l, (pops, pushes) =>
    if pushes > 0 then countLog l (pops, pushes - 1) else countLog l (pops + 1, pushes)

end Verif.Op
