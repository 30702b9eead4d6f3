import Verif.Op.Model
/-! The `visit_*` methods of `OperatorValidatorTemp`
(crates/wasmparser/src/validator/operators.rs lines 2082-4684, operators/simd.rs lines 82-970).

Line numbers are those of operators.rs unless simd.rs is named. -/
namespace Verif.Op
open Verif.Types (AbsHeap HeapType RefType ValType)
open Verif.Instr (FrameKind BlockType MemArg Catch Handle BrTable Operator)
open Verif.Reader (Reader readVarU32)
open Verif.TypeList.Spec (Field Storage Comp SubT)

variable (E : Env)

/-- What the method of an operator without immediates does; the names are those of the helper
that it calls. -/
inductive PlainBody where
  | nop | unreachable | ret | drop | select
  | eqz (t : Val) | cmp (t : Val) | fcmp (t : Val) | unary (t : Val) | funary (t : Val)
  | binary (t : Val) | fbinary (t : Val) | conversion (into frm : Val)
  | fconversion (into frm : Val) | binop128 | mulWide
  | refEq | refIsNull | refAsNonNull | refI31 | refI31Shared | i31Get | arrayLen
  | anyConvertExtern | externConvertAny | throwRef
  | splat (t : Val) | fsplat (t : Val) | swizzle | bitselect
  | v128Binary | v128Fbinary | v128Unary | v128Funary | v128Bitmask | v128Shift | v128Ternary
  deriving DecidableEq, Repr

/-- The bodies of the `visit_*` methods of the operators without immediates (lines 2096-2102,
2223-2227, 2286-2289, 2320-2360, 2687-3098, 3323-3327, 3356-3360, 3388-3408, 4065-4068,
4228-4261, 4345-4362, 4572-4583; simd.rs lines 103-122, 211-856). -/
def plainBody : Instr.Plain → PlainBody
  | .unreachable => .unreachable
  | .nop => .nop
  | .return_ => .ret
  | .drop => .drop
  | .select => .select
  | .i32Eqz => .eqz .i32
  | .i32Eq | .i32Ne | .i32LtS | .i32LtU | .i32GtS | .i32GtU | .i32LeS | .i32LeU | .i32GeS
  | .i32GeU => .cmp .i32
  | .i64Eqz => .eqz .i64
  | .i64Eq | .i64Ne | .i64LtS | .i64LtU | .i64GtS | .i64GtU | .i64LeS | .i64LeU | .i64GeS
  | .i64GeU => .cmp .i64
  | .f32Eq | .f32Ne | .f32Lt | .f32Gt | .f32Le | .f32Ge => .fcmp .f32
  | .f64Eq | .f64Ne | .f64Lt | .f64Gt | .f64Le | .f64Ge => .fcmp .f64
  | .i32Clz | .i32Ctz | .i32Popcnt | .i32Extend8S | .i32Extend16S => .unary .i32
  | .i32Add | .i32Sub | .i32Mul | .i32DivS | .i32DivU | .i32RemS | .i32RemU | .i32And | .i32Or
  | .i32Xor | .i32Shl | .i32ShrS | .i32ShrU | .i32Rotl | .i32Rotr => .binary .i32
  | .i64Clz | .i64Ctz | .i64Popcnt | .i64Extend8S | .i64Extend16S | .i64Extend32S => .unary .i64
  | .i64Add | .i64Sub | .i64Mul | .i64DivS | .i64DivU | .i64RemS | .i64RemU | .i64And | .i64Or
  | .i64Xor | .i64Shl | .i64ShrS | .i64ShrU | .i64Rotl | .i64Rotr => .binary .i64
  | .f32Abs | .f32Neg | .f32Ceil | .f32Floor | .f32Trunc | .f32Nearest | .f32Sqrt => .funary .f32
  | .f32Add | .f32Sub | .f32Mul | .f32Div | .f32Min | .f32Max | .f32Copysign => .fbinary .f32
  | .f64Abs | .f64Neg | .f64Ceil | .f64Floor | .f64Trunc | .f64Nearest | .f64Sqrt => .funary .f64
  | .f64Add | .f64Sub | .f64Mul | .f64Div | .f64Min | .f64Max | .f64Copysign => .fbinary .f64
  | .i32WrapI64 => .conversion .i32 .i64
  | .i32TruncF32S | .i32TruncF32U | .i32ReinterpretF32 | .i32TruncSatF32S | .i32TruncSatF32U
    => .conversion .i32 .f32
  | .i32TruncF64S | .i32TruncF64U | .i32TruncSatF64S | .i32TruncSatF64U => .conversion .i32 .f64
  | .i64ExtendI32S | .i64ExtendI32U => .conversion .i64 .i32
  | .i64TruncF32S | .i64TruncF32U | .i64TruncSatF32S | .i64TruncSatF32U => .conversion .i64 .f32
  | .i64TruncF64S | .i64TruncF64U | .i64ReinterpretF64 | .i64TruncSatF64S | .i64TruncSatF64U
    => .conversion .i64 .f64
  | .f32ConvertI32S | .f32ConvertI32U | .f32ReinterpretI32 => .fconversion .f32 .i32
  | .f32ConvertI64S | .f32ConvertI64U => .fconversion .f32 .i64
  | .f32DemoteF64 => .fconversion .f32 .f64
  | .f64ConvertI32S | .f64ConvertI32U => .fconversion .f64 .i32
  | .f64ConvertI64S | .f64ConvertI64U | .f64ReinterpretI64 => .fconversion .f64 .i64
  | .f64PromoteF32 => .fconversion .f64 .f32
  | .refEq => .refEq
  | .arrayLen => .arrayLen
  | .anyConvertExtern => .anyConvertExtern
  | .externConvertAny => .externConvertAny
  | .refI31 => .refI31
  | .i31GetS | .i31GetU => .i31Get
  | .refIsNull => .refIsNull
  | .i8x16Swizzle | .i8x16RelaxedSwizzle => .swizzle
  | .i8x16Splat | .i16x8Splat | .i32x4Splat => .splat .i32
  | .i64x2Splat => .splat .i64
  | .f32x4Splat => .fsplat .f32
  | .f64x2Splat => .fsplat .f64
  | .i8x16Eq | .i8x16Ne | .i8x16LtS | .i8x16LtU | .i8x16GtS | .i8x16GtU | .i8x16LeS | .i8x16LeU
  | .i8x16GeS | .i8x16GeU | .i16x8Eq | .i16x8Ne | .i16x8LtS | .i16x8LtU | .i16x8GtS | .i16x8GtU
  | .i16x8LeS | .i16x8LeU | .i16x8GeS | .i16x8GeU | .i32x4Eq | .i32x4Ne | .i32x4LtS | .i32x4LtU
  | .i32x4GtS | .i32x4GtU | .i32x4LeS | .i32x4LeU | .i32x4GeS | .i32x4GeU | .i64x2Eq | .i64x2Ne
  | .i64x2LtS | .i64x2GtS | .i64x2LeS | .i64x2GeS | .v128And | .v128AndNot | .v128Or | .v128Xor
  | .i8x16NarrowI16x8S | .i8x16NarrowI16x8U | .i8x16Add | .i8x16AddSatS | .i8x16AddSatU
  | .i8x16Sub | .i8x16SubSatS | .i8x16SubSatU | .i8x16MinS | .i8x16MinU | .i8x16MaxS
  | .i8x16MaxU | .i8x16AvgrU | .i16x8Q15MulrSatS | .i16x8NarrowI32x4S | .i16x8NarrowI32x4U
  | .i16x8Add | .i16x8AddSatS | .i16x8AddSatU | .i16x8Sub | .i16x8SubSatS | .i16x8SubSatU
  | .i16x8Mul | .i16x8MinS | .i16x8MinU | .i16x8MaxS | .i16x8MaxU | .i16x8AvgrU
  | .i16x8ExtMulLowI8x16S | .i16x8ExtMulHighI8x16S | .i16x8ExtMulLowI8x16U
  | .i16x8ExtMulHighI8x16U | .i32x4Add | .i32x4Sub | .i32x4Mul | .i32x4MinS | .i32x4MinU
  | .i32x4MaxS | .i32x4MaxU | .i32x4DotI16x8S | .i32x4ExtMulLowI16x8S | .i32x4ExtMulHighI16x8S
  | .i32x4ExtMulLowI16x8U | .i32x4ExtMulHighI16x8U | .i64x2Add | .i64x2Sub | .i64x2Mul
  | .i64x2ExtMulLowI32x4S | .i64x2ExtMulHighI32x4S | .i64x2ExtMulLowI32x4U
  | .i64x2ExtMulHighI32x4U | .f32x4RelaxedMin | .f32x4RelaxedMax | .f64x2RelaxedMin
  | .f64x2RelaxedMax | .i16x8RelaxedQ15mulrS | .i16x8RelaxedDotI8x16I7x16S => .v128Binary
  | .f32x4Eq | .f32x4Ne | .f32x4Lt | .f32x4Gt | .f32x4Le | .f32x4Ge | .f64x2Eq | .f64x2Ne
  | .f64x2Lt | .f64x2Gt | .f64x2Le | .f64x2Ge | .f32x4Add | .f32x4Sub | .f32x4Mul | .f32x4Div
  | .f32x4Min | .f32x4Max | .f32x4PMin | .f32x4PMax | .f64x2Add | .f64x2Sub | .f64x2Mul
  | .f64x2Div | .f64x2Min | .f64x2Max | .f64x2PMin | .f64x2PMax => .v128Fbinary
  | .v128Not | .i8x16Abs | .i8x16Neg | .i8x16Popcnt | .i16x8ExtAddPairwiseI8x16S
  | .i16x8ExtAddPairwiseI8x16U | .i16x8Abs | .i16x8Neg | .i16x8ExtendLowI8x16S
  | .i16x8ExtendHighI8x16S | .i16x8ExtendLowI8x16U | .i16x8ExtendHighI8x16U
  | .i32x4ExtAddPairwiseI16x8S | .i32x4ExtAddPairwiseI16x8U | .i32x4Abs | .i32x4Neg
  | .i32x4ExtendLowI16x8S | .i32x4ExtendHighI16x8S | .i32x4ExtendLowI16x8U
  | .i32x4ExtendHighI16x8U | .i64x2Abs | .i64x2Neg | .i64x2ExtendLowI32x4S
  | .i64x2ExtendHighI32x4S | .i64x2ExtendLowI32x4U | .i64x2ExtendHighI32x4U
  | .i32x4RelaxedTruncF32x4S | .i32x4RelaxedTruncF32x4U | .i32x4RelaxedTruncF64x2SZero
  | .i32x4RelaxedTruncF64x2UZero => .v128Unary
  | .v128Bitselect => .bitselect
  | .v128AnyTrue | .i8x16AllTrue | .i8x16Bitmask | .i16x8AllTrue | .i16x8Bitmask
  | .i32x4AllTrue | .i32x4Bitmask | .i64x2AllTrue | .i64x2Bitmask => .v128Bitmask
  | .i8x16Shl | .i8x16ShrS | .i8x16ShrU | .i16x8Shl | .i16x8ShrS | .i16x8ShrU | .i32x4Shl
  | .i32x4ShrS | .i32x4ShrU | .i64x2Shl | .i64x2ShrS | .i64x2ShrU => .v128Shift
  | .f32x4Ceil | .f32x4Floor | .f32x4Trunc | .f32x4Nearest | .f32x4Abs | .f32x4Neg | .f32x4Sqrt
  | .f64x2Ceil | .f64x2Floor | .f64x2Trunc | .f64x2Nearest | .f64x2Abs | .f64x2Neg | .f64x2Sqrt
  | .i32x4TruncSatF32x4S | .i32x4TruncSatF32x4U | .f32x4ConvertI32x4S | .f32x4ConvertI32x4U
  | .i32x4TruncSatF64x2SZero | .i32x4TruncSatF64x2UZero | .f64x2ConvertLowI32x4S
  | .f64x2ConvertLowI32x4U | .f32x4DemoteF64x2Zero | .f64x2PromoteLowF32x4 => .v128Funary
  | .f32x4RelaxedMadd | .f32x4RelaxedNmadd | .f64x2RelaxedMadd | .f64x2RelaxedNmadd
  | .i8x16RelaxedLaneselect | .i16x8RelaxedLaneselect | .i32x4RelaxedLaneselect
  | .i64x2RelaxedLaneselect | .i32x4RelaxedDotI8x16I7x16AddS => .v128Ternary
  | .throwRef => .throwRef
  | .refI31Shared => .refI31Shared
  | .refAsNonNull => .refAsNonNull
  | .i64Add128 | .i64Sub128 => .binop128
  | .i64MulWideS | .i64MulWideU => .mulWide

/-- `ValType::EXNREF`. -/
def exnref : Val := .ref ⟨true, .abs false .exn⟩

/-- The type of the result of `visit_select` (lines 2324-2358). -/
def selectTy : MT → MT → Option MT
  | .unknownRef _, _ => none
  | _, .unknownRef _ => none
  | .known (.ref _), _ => none
  | _, .known (.ref _) => none
  | .bottom, t => some t
  | t, .bottom => some t
  | .known t1, .known t2 => if t1 = t2 then some (.known t1) else none

/-- `visit_select` (lines 2324-2360). -/
def visitSelect : M Unit := do
  popT E .i32
  let ty1 ← pop E none
  let ty2 ← pop E none
  let ty ← orError (selectTy ty1 ty2)
  pushMT ty

/-- The comparison of sharedness in `visit_ref_eq`. -/
def sharedMatches : Option Bool → Option Bool → Bool
  | some a, some b => a == b
  | _, _ => true

/-- `visit_ref_eq` (lines 3388-3408). -/
def visitRefEq : M Unit := do
  let a ← popMaybeSharedRef E .eq
  let b ← popMaybeSharedRef E .eq
  require (sharedMatches (a.isMaybeShared E.R) (b.isMaybeShared E.R))
  push .i32

/-- The results of `visit_any_convert_extern` and `visit_extern_convert_any`. -/
def convertTy (h : AbsHeap) : MR → MR
  | .bottom => .unknownRef (some h)
  | .unknownRef _ => .unknownRef (some h)
  | .known r => .known ⟨r.nullable, .abs (E.R.isShared r) h⟩

/-- `visit_any_convert_extern` and `visit_extern_convert_any` (lines 4228-4261). -/
def visitConvert (frm into : AbsHeap) : M Unit := do
  let r ← popMaybeSharedRef E frm
  pushMT (convertTy E into r).toMT

/-- `visit_ref_is_null` (lines 3356-3360). -/
def visitRefIsNull : M Unit := do
  let _ ← popRef E none
  push .i32

/-- `visit_ref_as_non_null` (lines 3323-3327). -/
def visitRefAsNonNull : M Unit := do
  let r ← popRef E none
  pushMT r.asNonNull.toMT

/-- `visit_i31_get_s`, `visit_i31_get_u`, `visit_array_len` (lines 4353-4362, 4065-4068). -/
def visitMaybeSharedToI32 (h : AbsHeap) : M Unit := do
  let _ ← popMaybeSharedRef E h
  push .i32

/-- Running the body of an operator without immediates. -/
def runPlain : PlainBody → M Unit
  | .nop => pure ()
  | .unreachable => unreachable
  | .ret => checkReturn E
  | .drop => do let _ ← pop E none
  | .select => visitSelect E
  | .eqz t => do popT E t; push .i32
  | .cmp t => checkCmpOp E t
  | .fcmp t => checkFcmpOp E t
  | .unary t => checkUnaryOp E t
  | .funary t => checkFunaryOp E t
  | .binary t => checkBinaryOp E t
  | .fbinary t => checkFbinaryOp E t
  | .conversion t f => checkConversionOp E t f
  | .fconversion t f => checkFconversionOp E t f
  | .binop128 => checkBinop128 E
  | .mulWide => checkI64MulWide E
  | .refEq => visitRefEq E
  | .refIsNull => visitRefIsNull E
  | .refAsNonNull => visitRefAsNonNull E
  | .refI31 => do popT E .i32; push (.ref ⟨false, .abs false .i31⟩)
  | .refI31Shared => do popT E .i32; push (.ref ⟨false, .abs true .i31⟩)
  | .i31Get => visitMaybeSharedToI32 E .i31
  | .arrayLen => visitMaybeSharedToI32 E .array
  | .anyConvertExtern => visitConvert E .extern .any
  | .externConvertAny => visitConvert E .any .extern
  | .throwRef => do popT E exnref; unreachable
  | .splat t => checkV128Splat E t
  | .fsplat t => do checkFloatsEnabled E; checkV128Splat E t
  | .swizzle => do popT E .v128; popT E .v128; push .v128
  | .bitselect => do popT E .v128; popT E .v128; popT E .v128; push .v128
  | .v128Binary => checkV128BinaryOp E
  | .v128Fbinary => checkV128FbinaryOp E
  | .v128Unary => checkV128UnaryOp E
  | .v128Funary => checkV128FunaryOp E
  | .v128Bitmask => checkV128BitmaskOp E
  | .v128Shift => checkV128ShiftOp E
  | .v128Ternary => checkV128TernaryOp E

/-- What the method of an operator with only a `MemArg` does. -/
inductive MemBody where
  | load (t : Val) | fload (t : Val) | store (t : Val) | fstore (t : Val) | v128Load
  | atomicLoad (t : Val) | atomicStore (t : Val) | rmw (t : Val) | cmpxchg (t : Val)
  | wait (t : Val)
  deriving DecidableEq, Repr

/-- The bodies of the `visit_*` methods of the operators with only a `MemArg` (lines 2531-2657,
3099-3306; simd.rs lines 87-98, 866-910). -/
def memBody : Instr.Mem → MemBody
  | .i32Load | .i32Load8S | .i32Load8U | .i32Load16S | .i32Load16U => .load .i32
  | .i64Load | .i64Load8S | .i64Load8U | .i64Load16S | .i64Load16U | .i64Load32S | .i64Load32U
    => .load .i64
  | .f32Load => .fload .f32
  | .f64Load => .fload .f64
  | .i32Store | .i32Store8 | .i32Store16 => .store .i32
  | .i64Store | .i64Store8 | .i64Store16 | .i64Store32 => .store .i64
  | .f32Store => .fstore .f32
  | .f64Store => .fstore .f64
  | .memoryAtomicNotify | .i32AtomicRmwAdd | .i32AtomicRmw8AddU | .i32AtomicRmw16AddU
  | .i32AtomicRmwSub | .i32AtomicRmw8SubU | .i32AtomicRmw16SubU | .i32AtomicRmwAnd
  | .i32AtomicRmw8AndU | .i32AtomicRmw16AndU | .i32AtomicRmwOr | .i32AtomicRmw8OrU
  | .i32AtomicRmw16OrU | .i32AtomicRmwXor | .i32AtomicRmw8XorU | .i32AtomicRmw16XorU
  | .i32AtomicRmwXchg | .i32AtomicRmw8XchgU | .i32AtomicRmw16XchgU => .rmw .i32
  | .memoryAtomicWait32 => .wait .i32
  | .memoryAtomicWait64 => .wait .i64
  | .i32AtomicLoad | .i32AtomicLoad8U | .i32AtomicLoad16U => .atomicLoad .i32
  | .i64AtomicLoad | .i64AtomicLoad8U | .i64AtomicLoad16U | .i64AtomicLoad32U => .atomicLoad .i64
  | .i32AtomicStore | .i32AtomicStore8 | .i32AtomicStore16 => .atomicStore .i32
  | .i64AtomicStore | .i64AtomicStore8 | .i64AtomicStore16 | .i64AtomicStore32
    => .atomicStore .i64
  | .i64AtomicRmwAdd | .i64AtomicRmw8AddU | .i64AtomicRmw16AddU | .i64AtomicRmw32AddU
  | .i64AtomicRmwSub | .i64AtomicRmw8SubU | .i64AtomicRmw16SubU | .i64AtomicRmw32SubU
  | .i64AtomicRmwAnd | .i64AtomicRmw8AndU | .i64AtomicRmw16AndU | .i64AtomicRmw32AndU
  | .i64AtomicRmwOr | .i64AtomicRmw8OrU | .i64AtomicRmw16OrU | .i64AtomicRmw32OrU
  | .i64AtomicRmwXor | .i64AtomicRmw8XorU | .i64AtomicRmw16XorU | .i64AtomicRmw32XorU
  | .i64AtomicRmwXchg | .i64AtomicRmw8XchgU | .i64AtomicRmw16XchgU | .i64AtomicRmw32XchgU
    => .rmw .i64
  | .i32AtomicRmwCmpxchg | .i32AtomicRmw8CmpxchgU | .i32AtomicRmw16CmpxchgU => .cmpxchg .i32
  | .i64AtomicRmwCmpxchg | .i64AtomicRmw8CmpxchgU | .i64AtomicRmw16CmpxchgU
  | .i64AtomicRmw32CmpxchgU => .cmpxchg .i64
  | .v128Load | .v128Load8Splat | .v128Load16Splat | .v128Load32Splat | .v128Load32Zero
    => .load .v128
  | .v128Load8x8S | .v128Load8x8U | .v128Load16x4S | .v128Load16x4U | .v128Load32x2S
  | .v128Load32x2U | .v128Load64Splat | .v128Load64Zero => .v128Load
  | .v128Store => .store .v128

/-- Running the body of an operator with only a `MemArg`. -/
def runMem (m : MemArg) : MemBody → M Unit
  | .load t => do let ty ← checkMemarg E m; popT E ty; push t
  | .fload t => do checkFloatsEnabled E; let ty ← checkMemarg E m; popT E ty; push t
  | .store t => do let ty ← checkMemarg E m; popT E t; popT E ty
  | .fstore t => do checkFloatsEnabled E; let ty ← checkMemarg E m; popT E t; popT E ty
  | .v128Load => checkV128LoadOp E m
  | .atomicLoad t => checkAtomicLoad E m t
  | .atomicStore t => checkAtomicStore E m t
  | .rmw t => checkAtomicBinaryMemoryOp E m t
  | .cmpxchg t => checkAtomicBinaryMemoryCmpxchg E m t
  | .wait t => do
    let ty ← checkSharedMemarg E m
    popT E .i64; popT E t; popT E ty
    push .i32

/-- What the method of an operator with a `MemArg` and a lane does. -/
inductive MemLaneBody where
  | load (lanes : UInt8) | store (lanes : UInt8)
  deriving DecidableEq, Repr

/-- The bodies of the `visit_*` methods of the operators with a `MemArg` and a lane (simd.rs
lines 911-970). -/
def memLaneBody : Instr.MemLane → MemLaneBody
  | .v128Load8Lane => .load 16
  | .v128Load16Lane => .load 8
  | .v128Load32Lane => .load 4
  | .v128Load64Lane => .load 2
  | .v128Store8Lane => .store 16
  | .v128Store16Lane => .store 8
  | .v128Store32Lane => .store 4
  | .v128Store64Lane => .store 2

/-- Running the body of an operator with a `MemArg` and a lane. -/
def runMemLane (m : MemArg) (lane : UInt8) : MemLaneBody → M Unit
  | .load n => do
    let ty ← checkMemarg E m
    checkSimdLaneIndex lane n
    popT E .v128; popT E ty
    push .v128
  | .store n => do
    let ty ← checkMemarg E m
    checkSimdLaneIndex lane n
    popT E .v128; popT E ty

/-- What the method of an operator with only a lane does. -/
inductive LaneBody where
  | extract (lanes : UInt8) (t : Val) | fextract (lanes : UInt8) (t : Val)
  | replace (lanes : UInt8) (t : Val) | freplace (lanes : UInt8) (t : Val)
  deriving DecidableEq, Repr

/-- The bodies of the `visit_*` methods of the operators with only a lane (simd.rs lines
123-210). -/
def laneBody : Instr.Lane → LaneBody
  | .i8x16ExtractLaneS => .extract 16 .i32
  | .i8x16ExtractLaneU => .extract 16 .i32
  | .i8x16ReplaceLane => .replace 16 .i32
  | .i16x8ExtractLaneS => .extract 8 .i32
  | .i16x8ExtractLaneU => .extract 8 .i32
  | .i16x8ReplaceLane => .replace 8 .i32
  | .i32x4ExtractLane => .extract 4 .i32
  | .i32x4ReplaceLane => .replace 4 .i32
  | .i64x2ExtractLane => .extract 2 .i64
  | .i64x2ReplaceLane => .replace 2 .i64
  | .f32x4ExtractLane => .fextract 4 .f32
  | .f32x4ReplaceLane => .freplace 4 .f32
  | .f64x2ExtractLane => .fextract 2 .f64
  | .f64x2ReplaceLane => .freplace 2 .f64

/-- Running the body of an operator with only a lane. -/
def runLane (lane : UInt8) : LaneBody → M Unit
  | .extract n t => do checkSimdLaneIndex lane n; popT E .v128; push t
  | .fextract n t => do
    checkFloatsEnabled E; checkSimdLaneIndex lane n; popT E .v128; push t
  | .replace n t => do checkSimdLaneIndex lane n; popT E t; popT E .v128; push .v128
  | .freplace n t => do
    checkFloatsEnabled E; checkSimdLaneIndex lane n; popT E t; popT E .v128; push .v128

/-- `visit_block`, `visit_loop`, `visit_try` (lines 2103-2118, 4363-4370). -/
def visitBlock (kind : FrameKind) (ty : BlockType) : M Unit := do
  let bt ← checkBlockType E ty
  let ps ← params E bt
  popAll E ps
  pushCtrl E kind bt

/-- `visit_if` (lines 2119-2127). -/
def visitIf (ty : BlockType) : M Unit := do
  let bt ← checkBlockType E ty
  popT E .i32
  let ps ← params E bt
  popAll E ps
  pushCtrl E .if_ bt

/-- The method for an operator with a block type. -/
def visitBlk : Instr.Blk → BlockType → M Unit
  | .block => visitBlock E .block
  | .loop => visitBlock E .loop
  | .if_ => visitIf E
  | .try_ => visitBlock E .legacyTry

/-- `visit_else` (lines 2128-2133). -/
def visitElse : M Unit := do
  let fr ← popCtrl E
  pushCtrl E .else_ fr.blockType

/-- `ValType::from(RefType::EXN)`. -/
def exnTy : Val := .ref ⟨false, .abs false .exn⟩

/-- `for (expected, actual) in types.zip(params) { match_operand(actual, expected)? }`. -/
def matchAll (expected actual : List Val) : M Unit :=
  each (fun p => matchOperand E p.2 p.1) (expected.zip actual)

/-- One `Catch` in `visit_try_table` (lines 2141-2207). -/
def checkCatch : Catch → M Unit
  | .one tag label => do
    let tag ← exceptionTagAt E tag
    let types ← jumpTypes E label
    require (tag.params.length == types.length)
    matchAll E types tag.params
  | .oneRef tag label => do
    let tag ← exceptionTagAt E tag
    let types ← jumpTypes E label
    require (tag.params.length + 1 == types.length)
    matchAll E types (tag.params ++ [exnTy])
  | .all label => do
    let types ← jumpTypes E label
    require (types.length == 0)
  | .allRef label => do
    let types ← jumpTypes E label
    match types with
    | [ty] => require (E.R.isSubtype exnTy ty)
    | _ => fail .error

/-- `visit_try_table` (lines 2134-2211). -/
def visitTryTable (ty : BlockType) (catches : List Catch) : M Unit := do
  let bt ← checkBlockType E ty
  let ps ← params E bt
  popAll E ps
  each (checkCatch E) catches
  pushCtrl E .tryTable bt

/-- The part of `visit_end` for an `if` without `else`. -/
def endIf (fr : Frame) : M Frame := do
  pushCtrl E .else_ fr.blockType
  popCtrl E

/-- `visit_end` (lines 2228-2248); the offset that it asserts to be nonzero is left out. -/
def visitEnd : M Unit := do
  let fr ← popCtrl E
  let fr ← if fr.kind = .if_ then endIf E fr else pure fr
  let rs ← results E fr.blockType
  pushAll rs

/-- `visit_catch` (lines 4371-4381). -/
def visitCatch (tag : BitVec 32) : M Unit := do
  let fr ← popCtrl E
  pushBareCtrl .legacyCatch fr.blockType
  let ty ← exceptionTagAt E tag
  pushAll ty.params

/-- `visit_catch_all` (lines 4406-4411). -/
def visitCatchAll : M Unit := do
  let fr ← popCtrl E
  pushBareCtrl .legacyCatchAll fr.blockType

/-- `visit_delegate` (lines 4395-4405). -/
def visitDelegate (depth : BitVec 32) : M Unit := do
  let fr ← popCtrl E
  let _ ← jump depth
  let rs ← results E fr.blockType
  pushAll rs

/-- `visit_br` (lines 2249-2256). -/
def visitBr (depth : BitVec 32) : M Unit := do
  let ts ← jumpTypes E depth
  popAll E ts
  unreachable

/-- `visit_br_if` (lines 2257-2263). -/
def visitBrIf (depth : BitVec 32) : M Unit := do
  popT E .i32
  let ts ← jumpTypes E depth
  popPushLabelTypes E ts

/-- What the iterator over the targets of a `br_table` yields (readers/core/operators.rs lines
172-199); `none` is an error, after which nothing is read. -/
def brItems (r : Reader) : Nat → List (Option (BitVec 32))
  | 0 => if r.eof then [] else [none]
  | n + 1 => match readVarU32 r with
    | .error _ => [none]
    | .ok (t, r') => some t :: brItems r' n

/-- One round of the loop in `visit_br_table` (lines 2268-2279). -/
def checkBrTarget (n : Nat) (item : Option (BitVec 32)) : M Unit := do
  let depth ← orError item
  let ts ← jumpTypes E depth
  require (ts.length == n)
  matchStackOperands E ts

/-- `visit_br_table` (lines 2264-2285). -/
def visitBrTable (t : BrTable) : M Unit := do
  popT E .i32
  let ds ← jumpTypes E t.default
  each (checkBrTarget E ds.length) (brItems t.reader t.cnt)
  popAll E ds
  unreachable

/-- `visit_br_on_null` (lines 3328-3335). -/
def visitBrOnNull (depth : BitVec 32) : M Unit := do
  let r ← popRef E none
  let ts ← jumpTypes E depth
  popPushLabelTypes E ts
  pushMT r.asNonNull.toMT

/-- The reference type at the end of the types of a label. -/
def lastRef (ts : List Val) : Option Ref :=
  match ts.getLast? with
  | some (.ref r) => some r
  | _ => none

/-- `visit_br_on_non_null` (lines 3336-3355). -/
def visitBrOnNonNull (depth : BitVec 32) : M Unit := do
  let ts ← jumpTypes E depth
  let expected ← orError (lastRef ts)
  let _ ← popRef E (some (asNullable expected))
  popPushLabelTypes E ts.dropLast

/-- `visit_call` (lines 2290-2294). -/
def visitCall (i : BitVec 32) : M Unit := do
  let ty ← typeOfFunction E i
  checkCallTy E ty
/-- `visit_return_call` (lines 2295-2299). -/
def visitReturnCall (i : BitVec 32) : M Unit := do
  let ty ← typeOfFunction E i
  checkReturnCallTy E ty
/-- `visit_call_ref` (lines 2300-2304). -/
def visitCallRef (i : BitVec 32) : M Unit := do
  let ty ← checkCallRefTy E i
  checkCallTy E ty
/-- `visit_return_call_ref` (lines 2305-2309). -/
def visitReturnCallRef (i : BitVec 32) : M Unit := do
  let ty ← checkCallRefTy E i
  checkReturnCallTy E ty
/-- `visit_call_indirect` (lines 2310-2314). -/
def visitCallIndirect (i j : BitVec 32) : M Unit := do
  let ty ← checkCallIndirectTy E i j
  checkCallTy E ty
/-- `visit_return_call_indirect` (lines 2315-2319). -/
def visitReturnCallIndirect (i j : BitVec 32) : M Unit := do
  let ty ← checkCallIndirectTy E i j
  checkReturnCallTy E ty

/-- `visit_throw` (lines 2212-2222). -/
def visitThrow (i : BitVec 32) : M Unit := do
  let ty ← exceptionTagAt E i
  popAll E ty.params
  unreachable

/-- `visit_rethrow` (lines 4382-4394). -/
def visitRethrow (depth : BitVec 32) : M Unit := do
  let (_, kind) ← jump depth
  require (kind == .legacyCatch || kind == .legacyCatchAll)
  unreachable

/-- `visit_local_get` (lines 2374-2382). -/
def visitLocalGet (i : BitVec 32) : M Unit := do
  let ty ← localTy E i
  let S ← getS
  let u ← orPanic (S.inits.isUninit i)
  require (!u)
  push ty

/-- `self.local_inits.set_init(i)`. -/
def setInit (i : BitVec 32) : M Unit := fun S =>
  match S.inits.setInit i with
  | some l => (.ok (), { S with inits := l })
  | none => (.error .panic, S)

/-- `visit_local_set` (lines 2383-2388). -/
def visitLocalSet (i : BitVec 32) : M Unit := do
  let ty ← localTy E i
  popT E ty
  setInit i

/-- `visit_local_tee` (lines 2389-2395). -/
def visitLocalTee (i : BitVec 32) : M Unit := do
  let ty ← localTy E i
  popT E ty
  setInit i
  push ty

/-- `visit_global_get` (lines 2396-2401). -/
def visitGlobalGet (i : BitVec 32) : M Unit := do
  let g ← globalTypeAt E i
  push g.content

/-- `visit_global_set` (lines 2417-2427). -/
def visitGlobalSet (i : BitVec 32) : M Unit := do
  let g ← globalTypeAt E i
  require g.mutable
  popT E g.content

/-- `visit_memory_size` (lines 2658-2662). -/
def visitMemorySize (i : BitVec 32) : M Unit := do
  let ty ← checkMemoryIndex E i
  push ty
/-- `visit_memory_grow` (lines 2663-2668). -/
def visitMemoryGrow (i : BitVec 32) : M Unit := do
  let ty ← checkMemoryIndex E i
  popT E ty
  push ty
/-- `visit_memory_fill` (lines 3443-3454). -/
def visitMemoryFill (i : BitVec 32) : M Unit := do
  require E.f.bulkMemoryOpt
  let ty ← checkMemoryIndex E i
  popT E ty; popT E .i32; popT E ty
/-- `visit_memory_discard` (lines 3455-3460). -/
def visitMemoryDiscard (i : BitVec 32) : M Unit := do
  let ty ← checkMemoryIndex E i
  popT E ty; popT E ty
/-- The type of a length between `src` and `dst`: the smaller of the two. -/
def lenType (src dst : Val) : Val := match src with
  | .i32 => .i32
  | _ => dst
/-- `visit_memory_copy` (lines 3421-3442). -/
def visitMemoryCopy (dst src : BitVec 32) : M Unit := do
  require E.f.bulkMemoryOpt
  let dstTy ← checkMemoryIndex E dst
  let srcTy ← checkMemoryIndex E src
  popT E (lenType srcTy dstTy)
  popT E srcTy; popT E dstTy
/-- `visit_memory_init` (lines 3409-3416). -/
def visitMemoryInit (segment mem : BitVec 32) : M Unit := do
  let ty ← checkMemoryIndex E mem
  checkDataSegment E segment
  popT E .i32; popT E .i32; popT E ty

/-- `visit_table_init` (lines 3461-3474). -/
def visitTableInit (segment table : BitVec 32) : M Unit := do
  let t ← tableTypeAt E table
  let seg ← elementTypeAt E segment
  require (E.R.isSubtype (.ref seg) (.ref t.elem))
  popT E .i32; popT E .i32; popT E (indexType t.table64)
/-- `visit_table_copy` (lines 3479-3501). -/
def visitTableCopy (dst src : BitVec 32) : M Unit := do
  let s ← tableTypeAt E src
  let d ← tableTypeAt E dst
  require (E.R.isSubtype (.ref s.elem) (.ref d.elem))
  popT E (lenType (indexType s.table64) (indexType d.table64))
  popT E (indexType s.table64); popT E (indexType d.table64)
/-- `visit_table_get` (lines 3502-3508). -/
def visitTableGet (i : BitVec 32) : M Unit := do
  let t ← tableTypeAt E i
  popT E (indexType t.table64)
  pushRef t.elem
/-- `visit_table_set` (lines 3524-3530). -/
def visitTableSet (i : BitVec 32) : M Unit := do
  let t ← tableTypeAt E i
  popT E (.ref t.elem)
  popT E (indexType t.table64)
/-- `visit_table_grow` (lines 3546-3553). -/
def visitTableGrow (i : BitVec 32) : M Unit := do
  let t ← tableTypeAt E i
  popT E (indexType t.table64)
  popT E (.ref t.elem)
  push (indexType t.table64)
/-- `visit_table_size` (lines 3554-3558). -/
def visitTableSize (i : BitVec 32) : M Unit := do
  let t ← tableTypeAt E i
  push (indexType t.table64)
/-- `visit_table_fill` (lines 3559-3566). -/
def visitTableFill (i : BitVec 32) : M Unit := do
  let t ← tableTypeAt E i
  popT E (indexType t.table64)
  popT E (.ref t.elem)
  popT E (indexType t.table64)

/-- `visit_ref_func` (lines 3361-3387). -/
def visitRefFunc (i : BitVec 32) : M Unit := do
  let id ← orError (E.R.typeIdOfFunction i)
  require (E.R.isFunctionReferenced i)
  let h := if E.f.customDescriptors && E.R.hasFunctionExactType i then .exact id else .concrete id
  let r ← orError (mkRef false h)
  pushRef r

/-- `visit_ref_null` (lines 3310-3321). -/
def visitRefNull (h : HeapType) : M Unit := do
  match RefType.new true h with
  | some ty => featuresCheck (TypeList.checkRefType E.f.types ty)
  | none => pure ()
  let h ← lift (E.R.checkHeapType h)
  let r ← orPanic (mkRef true h)
  pushRef r

/-- `StorageType::unpack` (readers/core/types.rs lines 818-823). -/
def unpack : Storage Nat → Val
  | .i8 | .i16 => .i32
  | .val v => v
/-- `StorageType::is_packed` (readers/core/types.rs lines 809-814). -/
def isPacked : Storage Nat → Bool
  | .i8 | .i16 => true
  | .val _ => false

/-- The loop of `struct.new_default`. -/
def allDefaultable (fs : List (Field Nat)) : Bool := fs.all fun f => isDefaultable (unpack f.storage)

/-- `visit_struct_new` (lines 3600-3618). -/
def visitStructNew (i : BitVec 32) : M Unit := do
  let sub ← subTypeAt E i
  require sub.descriptor.isNone
  let fs ← structTypeAt E i
  popAll E (fs.map fun f => unpack f.storage)
  pushExactRefIfAvailable E false i
/-- `visit_struct_new_default` (lines 3619-3639). -/
def visitStructNewDefault (i : BitVec 32) : M Unit := do
  let sub ← subTypeAt E i
  require sub.descriptor.isNone
  let fs ← structTypeAt E i
  require (allDefaultable fs)
  pushExactRefIfAvailable E false i
/-- `visit_struct_new_desc` (lines 3640-3660). -/
def visitStructNewDesc (i : BitVec 32) : M Unit := do
  let sub ← subTypeAt E i
  let d ← orError sub.descriptor
  popT E (.ref ⟨true, .exact d⟩)
  let fs ← structTypeAt E i
  popAll E (fs.map fun f => unpack f.storage)
  pushExactRefIfAvailable E false i
/-- `visit_struct_new_default_desc` (lines 3661-3683). -/
def visitStructNewDefaultDesc (i : BitVec 32) : M Unit := do
  let sub ← subTypeAt E i
  let d ← orError sub.descriptor
  popT E (.ref ⟨true, .exact d⟩)
  let fs ← structTypeAt E i
  require (allDefaultable fs)
  pushExactRefIfAvailable E false i
/-- `visit_struct_get` (`packed` false), `visit_struct_get_s` and `visit_struct_get_u` (lines
3684-3694, 3721-3731, 3747-3757). -/
def visitStructGet (packed : Bool) (i j : BitVec 32) : M Unit := do
  let f ← structFieldAt E i j
  require (isPacked f.storage == packed)
  let _ ← popConcreteRef E true i
  push (unpack f.storage)
/-- `visit_struct_set` (lines 3773-3778). -/
def visitStructSet (i j : BitVec 32) : M Unit := do
  let f ← mutableStructFieldAt E i j
  popT E (unpack f.storage)
  let _ ← popConcreteRef E true i

/-- `visit_array_new` (lines 3898-3903). -/
def visitArrayNew (i : BitVec 32) : M Unit := do
  let f ← arrayTypeAt E i
  popT E .i32
  popT E (unpack f.storage)
  pushExactRefIfAvailable E false i
/-- `visit_array_new_default` (lines 3904-3915). -/
def visitArrayNewDefault (i : BitVec 32) : M Unit := do
  let f ← arrayTypeAt E i
  require (isDefaultable (unpack f.storage))
  popT E .i32
  pushExactRefIfAvailable E false i
/-- `visit_array_new_fixed` (lines 3916-3923). -/
def visitArrayNewFixed (i n : BitVec 32) : M Unit := do
  let f ← arrayTypeAt E i
  each (popT E) (List.replicate n.toNat (unpack f.storage))
  pushExactRefIfAvailable E false i
/-- Whether a type is numeric or a vector. -/
def isNumericOrVector : Val → Bool
  | .i32 | .i64 | .f32 | .f64 | .v128 => true
  | .ref _ => false
/-- `visit_array_new_data` (lines 3924-3938). -/
def visitArrayNewData (i d : BitVec 32) : M Unit := do
  let f ← arrayTypeAt E i
  require (isNumericOrVector (unpack f.storage))
  checkDataSegment E d
  popT E .i32; popT E .i32
  pushExactRefIfAvailable E false i
/-- The reference type of elements. -/
def asRef : Val → Option Ref
  | .ref r => some r
  | _ => none
/-- `visit_array_new_elem` (lines 3939-3962). -/
def visitArrayNewElem (i e : BitVec 32) : M Unit := do
  let f ← arrayTypeAt E i
  let r ← orError (asRef (unpack f.storage))
  let er ← elementTypeAt E e
  require (E.R.isSubtype (.ref er) (.ref r))
  popT E .i32; popT E .i32
  pushExactRefIfAvailable E false i
/-- `visit_array_get` (`packed` false), `visit_array_get_s` and `visit_array_get_u` (lines
3963-3975, 3995-4007, 4017-4029). -/
def visitArrayGet (packed : Bool) (i : BitVec 32) : M Unit := do
  let f ← arrayTypeAt E i
  require (isPacked f.storage == packed)
  popT E .i32
  let _ ← popConcreteRef E true i
  push (unpack f.storage)
/-- `visit_array_set` (lines 4039-4045). -/
def visitArraySet (i : BitVec 32) : M Unit := do
  let f ← mutableArrayTypeAt E i
  popT E (unpack f.storage)
  popT E .i32
  let _ ← popConcreteRef E true i
/-- `visit_array_fill` (lines 4069-4076). -/
def visitArrayFill (i : BitVec 32) : M Unit := do
  let f ← mutableArrayTypeAt E i
  popT E .i32
  popT E (unpack f.storage)
  popT E .i32
  let _ ← popConcreteRef E true i
/-- The comparison of element types in `visit_array_copy`. -/
def copyMatches (dst src : Storage Nat) : Bool :=
  match dst, src with
  | .i8, .i8 => true
  | .i16, .i16 => true
  | .val d, .val s => E.R.isSubtype s d
  | _, _ => false
/-- `visit_array_copy` (lines 4077-4112). -/
def visitArrayCopy (dst src : BitVec 32) : M Unit := do
  let d ← mutableArrayTypeAt E dst
  let s ← arrayTypeAt E src
  require (copyMatches E d.storage s.storage)
  popT E .i32; popT E .i32
  let _ ← popConcreteRef E true src
  popT E .i32
  let _ ← popConcreteRef E true dst
/-- `visit_array_init_data` (lines 4113-4133). -/
def visitArrayInitData (i d : BitVec 32) : M Unit := do
  let f ← mutableArrayTypeAt E i
  require (isNumericOrVector (unpack f.storage))
  checkDataSegment E d
  popT E .i32; popT E .i32; popT E .i32
  let _ ← popConcreteRef E true i
/-- `visit_array_init_elem` (lines 4134-4159). -/
def visitArrayInitElem (i e : BitVec 32) : M Unit := do
  let f ← mutableArrayTypeAt E i
  let r ← orError (asRef (unpack f.storage))
  let er ← elementTypeAt E e
  require (E.R.isSubtype (.ref er) (.ref r))
  popT E .i32; popT E .i32; popT E .i32
  let _ ← popConcreteRef E true i

/-- `visit_ref_get_desc` (lines 4585-4598). -/
def visitRefGetDesc (i : BitVec 32) : M Unit := do
  let (_, isExact) ← popConcreteOrExactRef E true i
  let sub ← subTypeAt E i
  let d ← orError sub.descriptor
  pushRef ⟨false, if isExact then .exact d else .concrete d⟩

/-- `visit_cont_new` (lines 4412-4418). -/
def visitContNew (i : BitVec 32) : M Unit := do
  let c ← contTypeAt E i
  let _ ← popRef E (some ⟨true, .concrete c⟩)
  pushConcreteRef E false i
/-- `visit_cont_bind` (lines 4419-4455). -/
def visitContBind (i j : BitVec 32) : M Unit := do
  let argCont ← contTypeAt E i
  let arg ← funcTypeOfContType E argCont
  let resCont ← contTypeAt E j
  let res ← funcTypeOfContType E resCont
  require (decide (res.params.length ≤ arg.params.length))
  let n := arg.params.length - res.params.length
  require (isFuncSubtype E (arg.params.drop n) arg.results res.params res.results)
  let _ ← popConcreteRef E true i
  popAll E (arg.params.take n)
  pushConcreteRef E false j
/-- `visit_suspend` (lines 4456-4465). -/
def visitSuspend (i : BitVec 32) : M Unit := do
  let ty ← tagAt E i
  checkCallTy E ty
/-- `visit_resume` (lines 4466-4480). -/
def visitResume (i : BitVec 32) (table : List Handle) : M Unit := do
  let ft ← checkResumeTable E table i
  let _ ← popConcreteRef E true i
  popAll E ft.params
  pushAll ft.results
/-- `visit_resume_throw` (lines 4481-4502). -/
def visitResumeThrow (i tag : BitVec 32) (table : List Handle) : M Unit := do
  let ft ← checkResumeTable E table i
  let tagTy ← exceptionTagAt E tag
  let _ ← popConcreteRef E true i
  popAll E tagTy.params
  pushAll ft.results
/-- `visit_resume_throw_ref` (lines 4503-4512). -/
def visitResumeThrowRef (i : BitVec 32) (table : List Handle) : M Unit := do
  let ft ← checkResumeTable E table i
  let _ ← popConcreteRef E true i
  popT E exnref
  pushAll ft.results
/-- `visit_switch` (lines 4513-4571). -/
def visitSwitch (i tag : BitVec 32) : M Unit := do
  let c ← contTypeAt E i
  let ft ← funcTypeOfContType E c
  let tagTy ← tagAt E tag
  require (tagTy.params.length == 0)
  let other ← orError (lastRefId ft.params)
  let oc ← contAtId E other
  let otherFt ← funcTypeOfContType E oc
  require (isFuncSubtype E tagTy.results tagTy.results ft.results otherFt.results)
  let _ ← popConcreteRef E true i
  popAll E ft.params.dropLast
  pushAll otherFt.params

/-- The method for an operator with one index. -/
def visitIdx : Instr.Idx → BitVec 32 → M Unit
  | .br => visitBr E
  | .brIf => visitBrIf E
  | .brOnNull => visitBrOnNull E
  | .brOnNonNull => visitBrOnNonNull E
  | .call => visitCall E
  | .callRef => visitCallRef E
  | .returnCallRef => visitReturnCallRef E
  | .returnCall => visitReturnCall E
  | .throw => visitThrow E
  | .rethrow => visitRethrow
  | .localGet => visitLocalGet E
  | .localSet => visitLocalSet E
  | .localTee => visitLocalTee E
  | .globalGet => visitGlobalGet E
  | .globalSet => visitGlobalSet E
  | .dataDrop => checkDataSegment E
  | .memoryFill => visitMemoryFill E
  | .memoryDiscard => visitMemoryDiscard E
  | .refFunc => visitRefFunc E
  | .structNew => visitStructNew E
  | .structNewDefault => visitStructNewDefault E
  | .structNewDesc => visitStructNewDesc E
  | .structNewDefaultDesc => visitStructNewDefaultDesc E
  | .arrayNew => visitArrayNew E
  | .arrayNewDefault => visitArrayNewDefault E
  | .arrayGet => visitArrayGet E false
  | .arrayGetS => visitArrayGet E true
  | .arrayGetU => visitArrayGet E true
  | .arraySet => visitArraySet E
  | .arrayFill => visitArrayFill E
  | .elemDrop => fun i => do let _ ← elementTypeAt E i
  | .tableFill => visitTableFill E
  | .tableSet => visitTableSet E
  | .tableGet => visitTableGet E
  | .tableGrow => visitTableGrow E
  | .tableSize => visitTableSize E
  | .contNew => visitContNew E
  | .suspend => visitSuspend E
  | .refGetDesc => visitRefGetDesc E

/-- The method for an operator with two indices. -/
def visitIdx2 : Instr.Idx2 → BitVec 32 → BitVec 32 → M Unit
  | .memoryCopy => visitMemoryCopy E
  | .structGet => visitStructGet E false
  | .structGetS => visitStructGet E true
  | .structGetU => visitStructGet E true
  | .structSet => visitStructSet E
  | .arrayNewFixed => visitArrayNewFixed E
  | .arrayNewData => visitArrayNewData E
  | .arrayNewElem => visitArrayNewElem E
  | .arrayCopy => visitArrayCopy E
  | .arrayInitData => visitArrayInitData E
  | .arrayInitElem => visitArrayInitElem E
  | .tableCopy => visitTableCopy E
  | .contBind => visitContBind E
  | .switch => visitSwitch E

/-- The method for an operator with a heap type (lines 3310-3321, 4262-4273, 4600-4605). -/
def visitHeap : Instr.Heap → HeapType → M Unit
  | .refNull => visitRefNull E
  | .refTestNonNull => checkRefTest E false
  | .refTestNullable => checkRefTest E true
  | .refCastNonNull => checkRefCast E false
  | .refCastNullable => checkRefCast E true
  | .refCastDescEqNonNull => checkRefCastDescEq E false
  | .refCastDescEqNullable => checkRefCastDescEq E true

/-- `RefType::difference` (readers/core/types.rs lines 1300-1310). -/
def difference (a b : Ref) : Ref := ⟨if b.nullable then false else a.nullable, a.heap⟩

/-- The common part of the four branching casts: the types in canonical form, checked. -/
def castTypes (frm target : RefType) : M (Ref × Ref) := do
  let f ← checkRefType E frm
  let t ← checkRefType E target
  checkBrOnCastTypeHierarchy E f t
  pure (f, t)

/-- The rest of the four branching casts: `sent` goes to the label, `kept` stays. -/
def castBranch (depth : BitVec 32) (frm sent kept : Ref) : M Unit := do
  let ts ← jumpTypes E depth
  let last ← orError ts.getLast?
  require (E.R.isSubtype (.ref sent) last)
  popT E (.ref frm)
  popPushLabelTypes E ts.dropLast
  pushRef kept

/-- `visit_br_on_cast` (lines 4274-4309). -/
def visitBrOnCast (depth : BitVec 32) (frm target : RefType) : M Unit := do
  let (f, t) ← castTypes E frm target
  castBranch E depth f t (difference f t)
/-- `visit_br_on_cast_fail` (lines 4310-4344). -/
def visitBrOnCastFail (depth : BitVec 32) (frm target : RefType) : M Unit := do
  let (f, t) ← castTypes E frm target
  castBranch E depth f (difference f t) t
/-- `visit_br_on_cast_desc_eq` (lines 4606-4645). -/
def visitBrOnCastDescEq (depth : BitVec 32) (frm target : RefType) : M Unit := do
  let described ← orPanic target.heapType
  let (f, t) ← castTypes E frm target
  let _ ← checkMaybeExactDescriptorRef E described
  castBranch E depth f t (difference f t)
/-- `visit_br_on_cast_desc_eq_fail` (lines 4646-4684). -/
def visitBrOnCastDescEqFail (depth : BitVec 32) (frm target : RefType) : M Unit := do
  let described ← orPanic target.heapType
  let (f, t) ← castTypes E frm target
  let _ ← checkMaybeExactDescriptorRef E described
  castBranch E depth f (difference f t) t

/-- The method for a branching cast. -/
def visitCast : Instr.Cast → BitVec 32 → RefType → RefType → M Unit
  | .brOnCast => visitBrOnCast E
  | .brOnCastFail => visitBrOnCastFail E
  | .brOnCastDescEq => visitBrOnCastDescEq E
  | .brOnCastDescEqFail => visitBrOnCastDescEqFail E

/-- `RefType::ANYREF`, or its shared form. -/
def anyref (shared : Bool) : Val := .ref ⟨true, .abs shared .any⟩
/-- `RefType::EQREF`, or its shared form. -/
def eqref (shared : Bool) : Val := .ref ⟨true, .abs shared .eq⟩

/-- The types that atomic accesses allow: `i32`, `i64` and subtypes of `sup`. -/
def atomicTy (sup : Val) (t : Val) : Bool := t == .i32 || t == .i64 || E.R.isSubtype t sup
/-- The same for storage types that may not be packed. -/
def atomicStorage (sup : Val) : Storage Nat → Bool
  | .val v => atomicTy E sup v
  | _ => false
/-- The same for storage types that may be packed. -/
def atomicStorageSet (sup : Val) : Storage Nat → Bool
  | .val v => atomicTy E sup v
  | _ => true

/-- `visit_global_atomic_get` (lines 2402-2416). -/
def visitGlobalAtomicGet (i : BitVec 32) : M Unit := do
  visitGlobalGet E i
  let g ← globalTypeAt E i
  require (atomicTy E (anyref false) g.content)
/-- `visit_global_atomic_set` (lines 2428-2441). -/
def visitGlobalAtomicSet (i : BitVec 32) : M Unit := do
  visitGlobalSet E i
  let g ← globalTypeAt E i
  require (atomicTy E (anyref false) g.content)
/-- `visit_global_atomic_rmw_add` and four others (lines 2442-2481). -/
def visitGlobalAtomicRmw (i : BitVec 32) : M Unit := do
  let t ← checkAtomicGlobalRmwTy E i
  checkUnaryOp E t
/-- `visit_global_atomic_rmw_xchg` (lines 2482-2505). -/
def visitGlobalAtomicXchg (i : BitVec 32) : M Unit := do
  let g ← globalTypeAt E i
  require g.mutable
  require (atomicTy E (anyref false) g.content)
  checkUnaryOp E g.content
/-- `visit_global_atomic_rmw_cmpxchg` (lines 2506-2529). -/
def visitGlobalAtomicCmpxchg (i : BitVec 32) : M Unit := do
  let g ← globalTypeAt E i
  require g.mutable
  require (atomicTy E (eqref false) g.content)
  checkBinaryOp E g.content
/-- `visit_table_atomic_get` (lines 3509-3523). -/
def visitTableAtomicGet (i : BitVec 32) : M Unit := do
  visitTableGet E i
  let t ← tableTypeAt E i
  require (E.R.isSubtype (.ref t.elem) (anyref true))
/-- `visit_table_atomic_set` (lines 3531-3545). -/
def visitTableAtomicSet (i : BitVec 32) : M Unit := do
  visitTableSet E i
  let t ← tableTypeAt E i
  require (E.R.isSubtype (.ref t.elem) (anyref true))
/-- `visit_table_atomic_rmw_xchg` (lines 3567-3582). -/
def visitTableAtomicXchg (i : BitVec 32) : M Unit := do
  let t ← tableTypeAt E i
  require (E.R.isSubtype (.ref t.elem) (anyref true))
  popT E (.ref t.elem)
  popT E (indexType t.table64)
  push (.ref t.elem)
/-- `visit_table_atomic_rmw_cmpxchg` (lines 3583-3599). -/
def visitTableAtomicCmpxchg (i : BitVec 32) : M Unit := do
  let t ← tableTypeAt E i
  require (E.R.isSubtype (.ref t.elem) (eqref true))
  popT E (.ref t.elem)
  popT E (.ref t.elem)
  popT E (indexType t.table64)
  push (.ref t.elem)
/-- `visit_array_atomic_get` (lines 3976-3994). -/
def visitArrayAtomicGet (i : BitVec 32) : M Unit := do
  visitArrayGet E false i
  let f ← arrayTypeAt E i
  require (atomicStorage E (anyref true) f.storage)
/-- `visit_array_atomic_set` (lines 4046-4064). -/
def visitArrayAtomicSet (i : BitVec 32) : M Unit := do
  visitArraySet E i
  let f ← arrayTypeAt E i
  require (atomicStorageSet E (anyref true) f.storage)
/-- `visit_array_atomic_rmw_xchg` (lines 4175-4200). -/
def visitArrayAtomicXchg (i : BitVec 32) : M Unit := do
  let f ← mutableArrayTypeAt E i
  require (atomicStorage E (anyref true) f.storage)
  popT E (unpack f.storage)
  popT E .i32
  let _ ← popConcreteRef E true i
  push (unpack f.storage)
/-- `visit_array_atomic_rmw_cmpxchg` (lines 4201-4227). -/
def visitArrayAtomicCmpxchg (i : BitVec 32) : M Unit := do
  let f ← mutableArrayTypeAt E i
  require (atomicStorage E (eqref true) f.storage)
  popT E (unpack f.storage)
  popT E (unpack f.storage)
  popT E .i32
  let _ ← popConcreteRef E true i
  push (unpack f.storage)
/-- `visit_struct_atomic_get` (lines 3695-3720). -/
def visitStructAtomicGet (i j : BitVec 32) : M Unit := do
  visitStructGet E false i j
  let f ← structFieldAt E i j
  require (atomicStorage E (anyref true) f.storage)
/-- `visit_struct_atomic_set` (lines 3779-3804). -/
def visitStructAtomicSet (i j : BitVec 32) : M Unit := do
  visitStructSet E i j
  let f ← structFieldAt E i j
  require (atomicStorageSet E (anyref true) f.storage)
/-- `visit_struct_atomic_rmw_xchg` (lines 3845-3870). -/
def visitStructAtomicXchg (i j : BitVec 32) : M Unit := do
  let f ← mutableStructFieldAt E i j
  require (atomicStorage E (anyref true) f.storage)
  popT E (unpack f.storage)
  let _ ← popConcreteRef E true i
  push (unpack f.storage)
/-- `visit_struct_atomic_rmw_cmpxchg` (lines 3871-3897). -/
def visitStructAtomicCmpxchg (i j : BitVec 32) : M Unit := do
  let f ← mutableStructFieldAt E i j
  require (atomicStorage E (eqref true) f.storage)
  popT E (unpack f.storage)
  popT E (unpack f.storage)
  let _ ← popConcreteRef E true i
  push (unpack f.storage)

/-- The method for an atomic operator with one index; none of them looks at the ordering
(also lines 4008-4016, 4030-4038, 4160-4174). -/
def visitAtomic : Instr.Atomic → BitVec 32 → M Unit
  | .globalAtomicGet => visitGlobalAtomicGet E
  | .globalAtomicSet => visitGlobalAtomicSet E
  | .globalAtomicRmwAdd => visitGlobalAtomicRmw E
  | .globalAtomicRmwSub => visitGlobalAtomicRmw E
  | .globalAtomicRmwAnd => visitGlobalAtomicRmw E
  | .globalAtomicRmwOr => visitGlobalAtomicRmw E
  | .globalAtomicRmwXor => visitGlobalAtomicRmw E
  | .globalAtomicRmwXchg => visitGlobalAtomicXchg E
  | .globalAtomicRmwCmpxchg => visitGlobalAtomicCmpxchg E
  | .tableAtomicGet => visitTableAtomicGet E
  | .tableAtomicSet => visitTableAtomicSet E
  | .tableAtomicRmwXchg => visitTableAtomicXchg E
  | .tableAtomicRmwCmpxchg => visitTableAtomicCmpxchg E
  | .arrayAtomicGet => visitArrayAtomicGet E
  | .arrayAtomicGetS => visitArrayGet E true
  | .arrayAtomicGetU => visitArrayGet E true
  | .arrayAtomicSet => visitArrayAtomicSet E
  | .arrayAtomicRmwAdd => checkArrayAtomicRmw E
  | .arrayAtomicRmwSub => checkArrayAtomicRmw E
  | .arrayAtomicRmwAnd => checkArrayAtomicRmw E
  | .arrayAtomicRmwOr => checkArrayAtomicRmw E
  | .arrayAtomicRmwXor => checkArrayAtomicRmw E
  | .arrayAtomicRmwXchg => visitArrayAtomicXchg E
  | .arrayAtomicRmwCmpxchg => visitArrayAtomicCmpxchg E

/-- The method for an atomic operator with two indices (also lines 3732-3746, 3758-3772,
3805-3844). -/
def visitAtomic2 : Instr.Atomic2 → BitVec 32 → BitVec 32 → M Unit
  | .structAtomicGet => visitStructAtomicGet E
  | .structAtomicGetS => visitStructGet E true
  | .structAtomicGetU => visitStructGet E true
  | .structAtomicSet => visitStructAtomicSet E
  | .structAtomicRmwAdd => checkStructAtomicRmw E
  | .structAtomicRmwSub => checkStructAtomicRmw E
  | .structAtomicRmwAnd => checkStructAtomicRmw E
  | .structAtomicRmwOr => checkStructAtomicRmw E
  | .structAtomicRmwXor => checkStructAtomicRmw E
  | .structAtomicRmwXchg => visitStructAtomicXchg E
  | .structAtomicRmwCmpxchg => visitStructAtomicCmpxchg E

/-- `visit_i8x16_shuffle` (simd.rs lines 857-865). -/
def visitShuffle (lanes : List UInt8) : M Unit := do
  popT E .v128; popT E .v128
  each (fun i => checkSimdLaneIndex i 32) lanes
  push .v128

/-- `visit_typed_select` (lines 2361-2369). -/
def visitTypedSelect (ty : ValType) : M Unit := do
  let t ← checkValueType E ty
  popT E .i32
  popT E t; popT E t
  push t

/-- The `visit_*` method of an operator (constants at lines 2669-2686 and simd.rs 99-102,
`atomic.fence` at lines 3307-3309, `typed_select_multi` at lines 2370-2373). -/
def visit : Operator → M Unit
  | .plain o => runPlain E (plainBody o)
  | .else_ => visitElse E
  | .end_ => visitEnd E
  | .catchAll => visitCatchAll E
  | .atomicFence => pure ()
  | .block o ty => visitBlk E o ty
  | .tryTable ty cs => visitTryTable E ty cs
  | .idx o i => visitIdx E o i
  | .catch_ tag => visitCatch E tag
  | .delegate d => visitDelegate E d
  | .memorySize i => visitMemorySize E i
  | .memoryGrow i => visitMemoryGrow E i
  | .idx2 o i j => visitIdx2 E o i j
  | .callIndirect i j => visitCallIndirect E i j
  | .returnCallIndirect i j => visitReturnCallIndirect E i j
  | .memoryInit i j => visitMemoryInit E i j
  | .tableInit i j => visitTableInit E i j
  | .brTable t => visitBrTable E t
  | .mem o m => runMem E m (memBody o)
  | .memLane o m l => runMemLane E m l (memLaneBody o)
  | .lane o l => runLane E l (laneBody o)
  | .i8x16Shuffle ls => visitShuffle E ls
  | .heap o h => visitHeap E o h
  | .cast o d f t => visitCast E o d f t
  | .atomic o _ i => visitAtomic E o i
  | .atomic2 o _ i j => visitAtomic2 E o i j
  | .i32Const _ => push .i32
  | .i64Const _ => push .i64
  | .f32Const _ => do checkFloatsEnabled E; push .f32
  | .f64Const _ => do checkFloatsEnabled E; push .f64
  | .v128Const _ => push .v128
  | .typedSelect t => visitTypedSelect E t
  | .typedSelectMulti _ => fail .error
  | .resume i hs => visitResume E i hs
  | .resumeThrow i t hs => visitResumeThrow E i t hs
  | .resumeThrowRef i hs => visitResumeThrowRef E i hs

end Verif.Op
