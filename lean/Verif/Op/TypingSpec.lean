import Verif.Instr.Spec
import Verif.Op.InitSpec
/-! The typing rules of instructions and of instruction sequences, in the manner of the
WebAssembly specification: an instruction has a type `ins → outs`, sequences are typed by
composition, a frame below, and subsumption. Nothing here computes a type.

The rules are those of the specification (version 3.0) with the proposals that the operators of
wasmparser belong to, except custom descriptors. Instruction sequences are lists of operators
with explicit `end`s; lists of types have the top of the stack last. -/
namespace Verif.Op.Typing
open Verif.TypeList.Spec (Val Ref Heap Field Storage Comp SubT Decls HeapSub RefSub ValSub
  StorageSub Comp.kind)
open Verif.Types (AbsHeap HeapType UnpackedIndex RefType ValType)
open Verif.Instr (Operator Plain Idx Idx2 Mem MemLane Lane Cast Atomic Atomic2 MemArg Catch Handle
  BlockType)
open Verif.Instr.Spec (accessBits laneBits)
open Verif.Op.InitSpec (HasDefault)

abbrev V := Val Nat

/-! ## Contexts -/

structure TableT where
  elem : Ref Nat
  is64 : Bool
  shared : Bool

structure GlobalT where
  content : V
  mutable : Bool
  shared : Bool

/-- A module, as far as function bodies depend on it. Defined types have identifiers (see C23);
`types` has those of the type indices of the module and `defs` what they stand for. `funcs` has
the type indices of the functions, `mems` whether the memories have 64 bit addresses, `datas` is
the number of data segments and `refs` are the functions that may be used in `ref.func`. -/
structure Ctx where
  types : List Nat
  defs : Nat → Option (SubT Nat)
  funcs : List (BitVec 32)
  tables : List TableT
  mems : List Bool
  tags : List (List V × List V)
  globals : List GlobalT
  elems : List (Ref Nat)
  datas : Nat
  refs : List (BitVec 32)

/-- The declarations that subtyping depends on. -/
def Ctx.decls (C : Ctx) : Decls where
  info i := (C.defs i).map fun x => (x.shared, x.comp.kind)
  super i := (C.defs i).bind (·.supertype)

/-- The type with an index. -/
def Ctx.type (C : Ctx) (i : BitVec 32) : Option (SubT Nat) := (C.types[i.toNat]?).bind C.defs

/-- Whether references to a heap type are shared. -/
def Ctx.sharedHeap (C : Ctx) : Heap Nat → Bool
  | .abs s _ => s
  | .concrete i | .exact i => (C.defs i).any (·.shared)

/-- A heap type in the code stands for this one. -/
def Ctx.HeapTy (C : Ctx) : HeapType → Heap Nat → Prop
  | .abstract s a, h => h = .abs s a
  | .concrete (.module i), h => ∃ id, C.types[i.toNat]? = some id ∧ h = .concrete id
  | .exact (.module i), h => ∃ id, C.types[i.toNat]? = some id ∧ h = .exact id
  | _, _ => False

def Ctx.RefTy (C : Ctx) (r : RefType) (r' : Ref Nat) : Prop :=
  ∃ h, r.heapType = some h ∧ C.HeapTy h r'.heap ∧ r'.nullable = r.isNullable

def Ctx.ValTy (C : Ctx) : ValType → V → Prop
  | .i32, v => v = .i32
  | .i64, v => v = .i64
  | .f32, v => v = .f32
  | .f64, v => v = .f64
  | .v128, v => v = .v128
  | .ref r, v => ∃ r', C.RefTy r r' ∧ v = .ref r'

/-- The target of branches: the types of their operands, and whether it is the label of a legacy
`catch`. -/
structure Label where
  types : List V
  isCatch : Bool

/-- The context of an instruction; the innermost label comes first. -/
structure Fn where
  C : Ctx
  locals : List V
  params : Nat
  labels : List Label
  results : List V
  shared : Bool

def Fn.label (F : Fn) (ts : List V) (isCatch : Bool := false) : Fn :=
  { F with labels := ⟨ts, isCatch⟩ :: F.labels }

/-- A shared function may only use what is shared. -/
def Fn.Access (F : Fn) (shared : Bool) : Prop := F.shared = true → shared = true

def Fn.Comp (F : Fn) (i : BitVec 32) (c : Comp Nat) : Prop :=
  ∃ x, F.C.type i = some x ∧ x.comp = c ∧ F.Access x.shared

def Fn.Func (F : Fn) (i : BitVec 32) (ps rs : List V) : Prop := F.Comp i (.func ps rs)

/-- The type `i` is a continuation of functions of this type. -/
def Ctx.ContAt (C : Ctx) (c : Nat) (ps rs : List V) : Prop :=
  ∃ y, C.defs c = some y ∧ y.comp = .func ps rs
def Fn.Cont (F : Fn) (i : BitVec 32) (ps rs : List V) : Prop :=
  ∃ c, F.Comp i (.cont c) ∧ F.C.ContAt c ps rs

def Fn.Field (F : Fn) (i j : BitVec 32) (f : Field Nat) : Prop :=
  ∃ fs, F.Comp i (.struct fs) ∧ fs[j.toNat]? = some f

def Fn.Table (F : Fn) (i : BitVec 32) (t : TableT) : Prop :=
  F.C.tables[i.toNat]? = some t ∧ F.Access t.shared
def Fn.Global (F : Fn) (i : BitVec 32) (g : GlobalT) : Prop :=
  F.C.globals[i.toNat]? = some g ∧ F.Access g.shared

/-- The type of addresses. -/
def addr (is64 : Bool) : V := if is64 then .i64 else .i32

/-- The reference type for a type index. -/
def Ctx.IdxRef (C : Ctx) (nullable : Bool) (i : BitVec 32) (t : V) : Prop :=
  ∃ id, C.types[i.toNat]? = some id ∧ t = .ref ⟨nullable, .concrete id⟩

/-- The type of values in a field. -/
def unpacked : Storage Nat → V
  | .i8 | .i16 => .i32
  | .val v => v
def Packed : Storage Nat → Prop
  | .i8 | .i16 => True
  | .val _ => False
def NumOrVec : V → Prop
  | .ref _ => False
  | _ => True

def exnref : V := .ref ⟨true, .abs false .exn⟩

/-- A block type stands for this function type. -/
def Fn.Block (F : Fn) : BlockType → List V → List V → Prop
  | .empty, ps, rs => ps = [] ∧ rs = []
  | .type t, ps, rs => ps = [] ∧ ∃ v, F.C.ValTy t v ∧ rs = [v]
  | .funcType i, ps, rs => F.Func i ps rs

/-- A tag of exceptions. -/
def Ctx.Exn (C : Ctx) (tag : BitVec 32) (ts : List V) : Prop := C.tags[tag.toNat]? = some (ts, [])

/-! ## Instructions without operands of unknown type -/

/-- The operators that have one type, read off their names. -/
def plainSig : Plain → Option (List V × List V)
  | .unreachable | .return_ | .throwRef | .drop | .select | .refIsNull | .refEq | .refAsNonNull
  | .arrayLen | .anyConvertExtern | .externConvertAny | .i31GetS | .i31GetU => none
  | .nop => some ([], [])
  | .i32Eqz | .i32Clz | .i32Ctz | .i32Popcnt | .i32Extend8S | .i32Extend16S
    => some ([.i32], [.i32])
  | .i32Eq | .i32Ne | .i32LtS | .i32LtU | .i32GtS | .i32GtU | .i32LeS | .i32LeU | .i32GeS
  | .i32GeU | .i32Add | .i32Sub | .i32Mul | .i32DivS | .i32DivU | .i32RemS | .i32RemU | .i32And
  | .i32Or | .i32Xor | .i32Shl | .i32ShrS | .i32ShrU | .i32Rotl | .i32Rotr
    => some ([.i32, .i32], [.i32])
  | .i64Eqz | .i32WrapI64 => some ([.i64], [.i32])
  | .i64Eq | .i64Ne | .i64LtS | .i64LtU | .i64GtS | .i64GtU | .i64LeS | .i64LeU | .i64GeS
  | .i64GeU => some ([.i64, .i64], [.i32])
  | .f32Eq | .f32Ne | .f32Lt | .f32Gt | .f32Le | .f32Ge => some ([.f32, .f32], [.i32])
  | .f64Eq | .f64Ne | .f64Lt | .f64Gt | .f64Le | .f64Ge => some ([.f64, .f64], [.i32])
  | .i64Clz | .i64Ctz | .i64Popcnt | .i64Extend8S | .i64Extend16S | .i64Extend32S
    => some ([.i64], [.i64])
  | .i64Add | .i64Sub | .i64Mul | .i64DivS | .i64DivU | .i64RemS | .i64RemU | .i64And | .i64Or
  | .i64Xor | .i64Shl | .i64ShrS | .i64ShrU | .i64Rotl | .i64Rotr => some ([.i64, .i64], [.i64])
  | .f32Abs | .f32Neg | .f32Ceil | .f32Floor | .f32Trunc | .f32Nearest | .f32Sqrt
    => some ([.f32], [.f32])
  | .f32Add | .f32Sub | .f32Mul | .f32Div | .f32Min | .f32Max | .f32Copysign
    => some ([.f32, .f32], [.f32])
  | .f64Abs | .f64Neg | .f64Ceil | .f64Floor | .f64Trunc | .f64Nearest | .f64Sqrt
    => some ([.f64], [.f64])
  | .f64Add | .f64Sub | .f64Mul | .f64Div | .f64Min | .f64Max | .f64Copysign
    => some ([.f64, .f64], [.f64])
  | .i32TruncF32S | .i32TruncF32U | .i32ReinterpretF32 | .i32TruncSatF32S | .i32TruncSatF32U
    => some ([.f32], [.i32])
  | .i32TruncF64S | .i32TruncF64U | .i32TruncSatF64S | .i32TruncSatF64U => some ([.f64], [.i32])
  | .i64ExtendI32S | .i64ExtendI32U => some ([.i32], [.i64])
  | .i64TruncF32S | .i64TruncF32U | .i64TruncSatF32S | .i64TruncSatF32U => some ([.f32], [.i64])
  | .i64TruncF64S | .i64TruncF64U | .i64ReinterpretF64 | .i64TruncSatF64S | .i64TruncSatF64U
    => some ([.f64], [.i64])
  | .f32ConvertI32S | .f32ConvertI32U | .f32ReinterpretI32 => some ([.i32], [.f32])
  | .f32ConvertI64S | .f32ConvertI64U => some ([.i64], [.f32])
  | .f32DemoteF64 => some ([.f64], [.f32])
  | .f64ConvertI32S | .f64ConvertI32U => some ([.i32], [.f64])
  | .f64ConvertI64S | .f64ConvertI64U | .f64ReinterpretI64 => some ([.i64], [.f64])
  | .f64PromoteF32 => some ([.f32], [.f64])
  | .refI31 => some ([.i32], [.ref ⟨false, .abs false .i31⟩])
  | .i8x16Swizzle | .i8x16Eq | .i8x16Ne | .i8x16LtS | .i8x16LtU | .i8x16GtS | .i8x16GtU
  | .i8x16LeS | .i8x16LeU | .i8x16GeS | .i8x16GeU | .i16x8Eq | .i16x8Ne | .i16x8LtS | .i16x8LtU
  | .i16x8GtS | .i16x8GtU | .i16x8LeS | .i16x8LeU | .i16x8GeS | .i16x8GeU | .i32x4Eq | .i32x4Ne
  | .i32x4LtS | .i32x4LtU | .i32x4GtS | .i32x4GtU | .i32x4LeS | .i32x4LeU | .i32x4GeS | .i32x4GeU
  | .i64x2Eq | .i64x2Ne | .i64x2LtS | .i64x2GtS | .i64x2LeS | .i64x2GeS | .f32x4Eq | .f32x4Ne
  | .f32x4Lt | .f32x4Gt | .f32x4Le | .f32x4Ge | .f64x2Eq | .f64x2Ne | .f64x2Lt | .f64x2Gt
  | .f64x2Le | .f64x2Ge | .v128And | .v128AndNot | .v128Or | .v128Xor | .i8x16NarrowI16x8S
  | .i8x16NarrowI16x8U | .i8x16Add | .i8x16AddSatS | .i8x16AddSatU | .i8x16Sub | .i8x16SubSatS
  | .i8x16SubSatU | .i8x16MinS | .i8x16MinU | .i8x16MaxS | .i8x16MaxU | .i8x16AvgrU
  | .i16x8Q15MulrSatS | .i16x8NarrowI32x4S | .i16x8NarrowI32x4U | .i16x8Add | .i16x8AddSatS
  | .i16x8AddSatU | .i16x8Sub | .i16x8SubSatS | .i16x8SubSatU | .i16x8Mul | .i16x8MinS
  | .i16x8MinU | .i16x8MaxS | .i16x8MaxU | .i16x8AvgrU | .i16x8ExtMulLowI8x16S
  | .i16x8ExtMulHighI8x16S | .i16x8ExtMulLowI8x16U | .i16x8ExtMulHighI8x16U | .i32x4Add
  | .i32x4Sub | .i32x4Mul | .i32x4MinS | .i32x4MinU | .i32x4MaxS | .i32x4MaxU | .i32x4DotI16x8S
  | .i32x4ExtMulLowI16x8S | .i32x4ExtMulHighI16x8S | .i32x4ExtMulLowI16x8U
  | .i32x4ExtMulHighI16x8U | .i64x2Add | .i64x2Sub | .i64x2Mul | .i64x2ExtMulLowI32x4S
  | .i64x2ExtMulHighI32x4S | .i64x2ExtMulLowI32x4U | .i64x2ExtMulHighI32x4U | .f32x4Add
  | .f32x4Sub | .f32x4Mul | .f32x4Div | .f32x4Min | .f32x4Max | .f32x4PMin | .f32x4PMax
  | .f64x2Add | .f64x2Sub | .f64x2Mul | .f64x2Div | .f64x2Min | .f64x2Max | .f64x2PMin
  | .f64x2PMax | .i8x16RelaxedSwizzle | .f32x4RelaxedMin | .f32x4RelaxedMax | .f64x2RelaxedMin
  | .f64x2RelaxedMax | .i16x8RelaxedQ15mulrS | .i16x8RelaxedDotI8x16I7x16S
    => some ([.v128, .v128], [.v128])
  | .i8x16Splat | .i16x8Splat | .i32x4Splat => some ([.i32], [.v128])
  | .i64x2Splat => some ([.i64], [.v128])
  | .f32x4Splat => some ([.f32], [.v128])
  | .f64x2Splat => some ([.f64], [.v128])
  | .v128Not | .i8x16Abs | .i8x16Neg | .i8x16Popcnt | .i16x8ExtAddPairwiseI8x16S
  | .i16x8ExtAddPairwiseI8x16U | .i16x8Abs | .i16x8Neg | .i16x8ExtendLowI8x16S
  | .i16x8ExtendHighI8x16S | .i16x8ExtendLowI8x16U | .i16x8ExtendHighI8x16U
  | .i32x4ExtAddPairwiseI16x8S | .i32x4ExtAddPairwiseI16x8U | .i32x4Abs | .i32x4Neg
  | .i32x4ExtendLowI16x8S | .i32x4ExtendHighI16x8S | .i32x4ExtendLowI16x8U
  | .i32x4ExtendHighI16x8U | .i64x2Abs | .i64x2Neg | .i64x2ExtendLowI32x4S
  | .i64x2ExtendHighI32x4S | .i64x2ExtendLowI32x4U | .i64x2ExtendHighI32x4U | .f32x4Ceil
  | .f32x4Floor | .f32x4Trunc | .f32x4Nearest | .f32x4Abs | .f32x4Neg | .f32x4Sqrt | .f64x2Ceil
  | .f64x2Floor | .f64x2Trunc | .f64x2Nearest | .f64x2Abs | .f64x2Neg | .f64x2Sqrt
  | .i32x4TruncSatF32x4S | .i32x4TruncSatF32x4U | .f32x4ConvertI32x4S | .f32x4ConvertI32x4U
  | .i32x4TruncSatF64x2SZero | .i32x4TruncSatF64x2UZero | .f64x2ConvertLowI32x4S
  | .f64x2ConvertLowI32x4U | .f32x4DemoteF64x2Zero | .f64x2PromoteLowF32x4
  | .i32x4RelaxedTruncF32x4S | .i32x4RelaxedTruncF32x4U | .i32x4RelaxedTruncF64x2SZero
  | .i32x4RelaxedTruncF64x2UZero => some ([.v128], [.v128])
  | .v128Bitselect | .f32x4RelaxedMadd | .f32x4RelaxedNmadd | .f64x2RelaxedMadd
  | .f64x2RelaxedNmadd | .i8x16RelaxedLaneselect | .i16x8RelaxedLaneselect
  | .i32x4RelaxedLaneselect | .i64x2RelaxedLaneselect | .i32x4RelaxedDotI8x16I7x16AddS
    => some ([.v128, .v128, .v128], [.v128])
  | .v128AnyTrue | .i8x16AllTrue | .i8x16Bitmask | .i16x8AllTrue | .i16x8Bitmask | .i32x4AllTrue
  | .i32x4Bitmask | .i64x2AllTrue | .i64x2Bitmask => some ([.v128], [.i32])
  | .i8x16Shl | .i8x16ShrS | .i8x16ShrU | .i16x8Shl | .i16x8ShrS | .i16x8ShrU | .i32x4Shl
  | .i32x4ShrS | .i32x4ShrU | .i64x2Shl | .i64x2ShrS | .i64x2ShrU => some ([.v128, .i32], [.v128])
  | .refI31Shared => some ([.i32], [.ref ⟨false, .abs true .i31⟩])
  | .i64Add128 | .i64Sub128 => some ([.i64, .i64, .i64, .i64], [.i64, .i64])
  | .i64MulWideS | .i64MulWideU => some ([.i64, .i64], [.i64, .i64])

/-- The kinds of accesses to memory. -/
inductive Kind where
  | load | store | rmw | cmpxchg | wait

/-- What an operator that accesses memory does, the type of the value, and whether it is
atomic. -/
structure MemOp where
  kind : Kind
  ty : V
  atomic : Bool

def memOp : Mem → MemOp
  | .i32Load | .i32Load8S | .i32Load8U | .i32Load16S | .i32Load16U => ⟨.load, .i32, false⟩
  | .i64Load | .i64Load8S | .i64Load8U | .i64Load16S | .i64Load16U | .i64Load32S | .i64Load32U
    => ⟨.load, .i64, false⟩
  | .f32Load => ⟨.load, .f32, false⟩
  | .f64Load => ⟨.load, .f64, false⟩
  | .i32Store | .i32Store8 | .i32Store16 => ⟨.store, .i32, false⟩
  | .i64Store | .i64Store8 | .i64Store16 | .i64Store32 => ⟨.store, .i64, false⟩
  | .f32Store => ⟨.store, .f32, false⟩
  | .f64Store => ⟨.store, .f64, false⟩
  | .v128Load | .v128Load8x8S | .v128Load8x8U | .v128Load16x4S | .v128Load16x4U | .v128Load32x2S
  | .v128Load32x2U | .v128Load8Splat | .v128Load16Splat | .v128Load32Splat | .v128Load64Splat
  | .v128Load32Zero | .v128Load64Zero => ⟨.load, .v128, false⟩
  | .v128Store => ⟨.store, .v128, false⟩
  | .memoryAtomicNotify | .i32AtomicRmwAdd | .i32AtomicRmw8AddU | .i32AtomicRmw16AddU
  | .i32AtomicRmwSub | .i32AtomicRmw8SubU | .i32AtomicRmw16SubU | .i32AtomicRmwAnd
  | .i32AtomicRmw8AndU | .i32AtomicRmw16AndU | .i32AtomicRmwOr | .i32AtomicRmw8OrU
  | .i32AtomicRmw16OrU | .i32AtomicRmwXor | .i32AtomicRmw8XorU | .i32AtomicRmw16XorU
  | .i32AtomicRmwXchg | .i32AtomicRmw8XchgU | .i32AtomicRmw16XchgU => ⟨.rmw, .i32, true⟩
  | .memoryAtomicWait32 => ⟨.wait, .i32, true⟩
  | .memoryAtomicWait64 => ⟨.wait, .i64, true⟩
  | .i32AtomicLoad | .i32AtomicLoad8U | .i32AtomicLoad16U => ⟨.load, .i32, true⟩
  | .i64AtomicLoad | .i64AtomicLoad8U | .i64AtomicLoad16U | .i64AtomicLoad32U
    => ⟨.load, .i64, true⟩
  | .i32AtomicStore | .i32AtomicStore8 | .i32AtomicStore16 => ⟨.store, .i32, true⟩
  | .i64AtomicStore | .i64AtomicStore8 | .i64AtomicStore16 | .i64AtomicStore32
    => ⟨.store, .i64, true⟩
  | .i64AtomicRmwAdd | .i64AtomicRmw8AddU | .i64AtomicRmw16AddU | .i64AtomicRmw32AddU
  | .i64AtomicRmwSub | .i64AtomicRmw8SubU | .i64AtomicRmw16SubU | .i64AtomicRmw32SubU
  | .i64AtomicRmwAnd | .i64AtomicRmw8AndU | .i64AtomicRmw16AndU | .i64AtomicRmw32AndU
  | .i64AtomicRmwOr | .i64AtomicRmw8OrU | .i64AtomicRmw16OrU | .i64AtomicRmw32OrU
  | .i64AtomicRmwXor | .i64AtomicRmw8XorU | .i64AtomicRmw16XorU | .i64AtomicRmw32XorU
  | .i64AtomicRmwXchg | .i64AtomicRmw8XchgU | .i64AtomicRmw16XchgU | .i64AtomicRmw32XchgU
    => ⟨.rmw, .i64, true⟩
  | .i32AtomicRmwCmpxchg | .i32AtomicRmw8CmpxchgU | .i32AtomicRmw16CmpxchgU
    => ⟨.cmpxchg, .i32, true⟩
  | .i64AtomicRmwCmpxchg | .i64AtomicRmw8CmpxchgU | .i64AtomicRmw16CmpxchgU
  | .i64AtomicRmw32CmpxchgU => ⟨.cmpxchg, .i64, true⟩

/-- Operands and results, for addresses of type `a` and values of type `t`. -/
def Kind.sig (a t : V) : Kind → List V × List V
  | .load => ([a], [t])
  | .store => ([a, t], [])
  | .rmw => ([a, t], [t])
  | .cmpxchg => ([a, t, t], [t])
  | .wait => ([a, t, .i64], [.i32])

/-- The immediate is allowed for an access of `bits` bits to a memory with addresses of type
`addr is64`. Atomic accesses must be aligned. -/
def MemArgOk (C : Ctx) (bits : Nat) (atomic : Bool) (m : MemArg) (is64 : Bool) : Prop :=
  C.mems[m.memory.toNat]? = some is64 ∧
  8 * 2 ^ m.align.toNat ≤ bits ∧ (atomic = true → 8 * 2 ^ m.align.toNat = bits) ∧
  (is64 = false → m.offset.toNat < 2 ^ 32)

/-- The number of lanes of a vector, and their type when unpacked. -/
def laneShape : Lane → Nat × V
  | .i8x16ExtractLaneS | .i8x16ExtractLaneU | .i8x16ReplaceLane => (16, .i32)
  | .i16x8ExtractLaneS | .i16x8ExtractLaneU | .i16x8ReplaceLane => (8, .i32)
  | .i32x4ExtractLane | .i32x4ReplaceLane => (4, .i32)
  | .i64x2ExtractLane | .i64x2ReplaceLane => (2, .i64)
  | .f32x4ExtractLane | .f32x4ReplaceLane => (4, .f32)
  | .f64x2ExtractLane | .f64x2ReplaceLane => (2, .f64)
def isReplace : Lane → Bool
  | .i8x16ReplaceLane | .i16x8ReplaceLane | .i32x4ReplaceLane | .i64x2ReplaceLane
  | .f32x4ReplaceLane | .f64x2ReplaceLane => true
  | _ => false
def isLaneStore : MemLane → Bool
  | .v128Store8Lane | .v128Store16Lane | .v128Store32Lane | .v128Store64Lane => true
  | _ => false

section
variable (F : Fn) (I : List (BitVec 32))

/-- The operators without immediates. Where the operand is any reference, or any reference of a
hierarchy that may be shared or not, there is a type for each. -/
def PlainTy (o : Plain) (ins outs : List V) : Prop :=
  match o with
  | .drop => ∃ t, ins = [t] ∧ outs = []
  | .refIsNull => ∃ h, ins = [.ref ⟨true, h⟩] ∧ outs = [.i32]
  | .refEq => ∃ s, ins = [.ref ⟨true, .abs s .eq⟩, .ref ⟨true, .abs s .eq⟩] ∧ outs = [.i32]
  | .i31GetS | .i31GetU => ∃ s, ins = [.ref ⟨true, .abs s .i31⟩] ∧ outs = [.i32]
  | .arrayLen => ∃ s, ins = [.ref ⟨true, .abs s .array⟩] ∧ outs = [.i32]
  | o => plainSig o = some (ins, outs)

/-- The operators with one index. -/
def IdxTy (o : Idx) (i : BitVec 32) (ins outs : List V) : Prop :=
  match o with
  | .brIf => ∃ l, F.labels[i.toNat]? = some l ∧ ins = l.types ++ [.i32] ∧ outs = l.types
  | .brOnNonNull => ∃ l ts n h, F.labels[i.toNat]? = some l ∧ l.types = ts ++ [.ref ⟨n, h⟩] ∧
      ins = ts ++ [.ref ⟨true, h⟩] ∧ outs = ts
  | .call => ∃ ti, F.C.funcs[i.toNat]? = some ti ∧ F.Func ti ins outs
  | .callRef => ∃ ps t, F.Func i ps outs ∧ F.C.IdxRef true i t ∧ ins = ps ++ [t]
  | .localGet => ∃ t, F.locals[i.toNat]? = some t ∧
      (i.toNat < F.params ∨ HasDefault t ∨ i ∈ I) ∧ ins = [] ∧ outs = [t]
  | .localSet => ∃ t, F.locals[i.toNat]? = some t ∧ ins = [t] ∧ outs = []
  | .localTee => ∃ t, F.locals[i.toNat]? = some t ∧ ins = [t] ∧ outs = [t]
  | .globalGet => ∃ g, F.Global i g ∧ ins = [] ∧ outs = [g.content]
  | .globalSet => ∃ g, F.Global i g ∧ g.mutable = true ∧ ins = [g.content] ∧ outs = []
  | .dataDrop => i.toNat < F.C.datas ∧ ins = [] ∧ outs = []
  | .elemDrop => i.toNat < F.C.elems.length ∧ ins = [] ∧ outs = []
  | .memoryFill => ∃ m, F.C.mems[i.toNat]? = some m ∧ ins = [addr m, .i32, addr m] ∧ outs = []
  | .memoryDiscard => ∃ m, F.C.mems[i.toNat]? = some m ∧ ins = [addr m, addr m] ∧ outs = []
  | .refFunc => ∃ ti t, F.C.funcs[i.toNat]? = some ti ∧ i ∈ F.C.refs ∧ F.C.IdxRef false ti t ∧
      ins = [] ∧ outs = [t]
  | .structNew => ∃ fs t, F.Comp i (.struct fs) ∧ F.C.IdxRef false i t ∧
      (∀ x, F.C.type i = some x → x.descriptor = none) ∧
      ins = fs.map (fun f => unpacked f.storage) ∧ outs = [t]
  | .structNewDefault => ∃ fs t, F.Comp i (.struct fs) ∧ F.C.IdxRef false i t ∧
      (∀ x, F.C.type i = some x → x.descriptor = none) ∧
      (∀ f ∈ fs, HasDefault (unpacked f.storage)) ∧ ins = [] ∧ outs = [t]
  | .arrayNew => ∃ f t, F.Comp i (.array f) ∧ F.C.IdxRef false i t ∧
      ins = [unpacked f.storage, .i32] ∧ outs = [t]
  | .arrayNewDefault => ∃ f t, F.Comp i (.array f) ∧ F.C.IdxRef false i t ∧
      HasDefault (unpacked f.storage) ∧ ins = [.i32] ∧ outs = [t]
  | .arrayGet => ∃ f t, F.Comp i (.array f) ∧ F.C.IdxRef true i t ∧ ¬ Packed f.storage ∧
      ins = [t, .i32] ∧ outs = [unpacked f.storage]
  | .arrayGetS | .arrayGetU => ∃ f t, F.Comp i (.array f) ∧ F.C.IdxRef true i t ∧
      Packed f.storage ∧ ins = [t, .i32] ∧ outs = [unpacked f.storage]
  | .arraySet => ∃ f t, F.Comp i (.array f) ∧ f.mutable = true ∧ F.C.IdxRef true i t ∧
      ins = [t, .i32, unpacked f.storage] ∧ outs = []
  | .arrayFill => ∃ f t, F.Comp i (.array f) ∧ f.mutable = true ∧ F.C.IdxRef true i t ∧
      ins = [t, .i32, unpacked f.storage, .i32] ∧ outs = []
  | .tableFill => ∃ t, F.Table i t ∧ ins = [addr t.is64, .ref t.elem, addr t.is64] ∧ outs = []
  | .tableSet => ∃ t, F.Table i t ∧ ins = [addr t.is64, .ref t.elem] ∧ outs = []
  | .tableGet => ∃ t, F.Table i t ∧ ins = [addr t.is64] ∧ outs = [.ref t.elem]
  | .tableGrow => ∃ t, F.Table i t ∧ ins = [.ref t.elem, addr t.is64] ∧ outs = [addr t.is64]
  | .tableSize => ∃ t, F.Table i t ∧ ins = [] ∧ outs = [addr t.is64]
  | .contNew => ∃ c t, F.Comp i (.cont c) ∧ F.C.IdxRef false i t ∧
      ins = [.ref ⟨true, .concrete c⟩] ∧ outs = [t]
  | .suspend => F.C.tags[i.toNat]? = some (ins, outs)
  | _ => False

/-- `[ps] → [rs]` is a subtype of `[ps'] → [rs']`. -/
def Ctx.FuncSub (C : Ctx) (ps rs ps' rs' : List V) : Prop :=
  List.Forall₂ (fun p p' => ValSub C.decls p' p) ps ps' ∧ List.Forall₂ (ValSub C.decls) rs rs'

/-- A reference to a type with this identifier. -/
def RefTo (c : Nat) (t : V) : Prop :=
  ∃ n, t = .ref ⟨n, .concrete c⟩ ∨ t = .ref ⟨n, .exact c⟩

/-- The operators with two indices. -/
def Idx2Ty (o : Idx2) (i j : BitVec 32) (ins outs : List V) : Prop :=
  match o with
  | .memoryCopy => ∃ d s, F.C.mems[i.toNat]? = some d ∧ F.C.mems[j.toNat]? = some s ∧
      ins = [addr d, addr s, addr (d && s)] ∧ outs = []
  | .structGet => ∃ f t, F.Field i j f ∧ F.C.IdxRef true i t ∧ ¬ Packed f.storage ∧
      ins = [t] ∧ outs = [unpacked f.storage]
  | .structGetS | .structGetU => ∃ f t, F.Field i j f ∧ F.C.IdxRef true i t ∧
      Packed f.storage ∧ ins = [t] ∧ outs = [unpacked f.storage]
  | .structSet => ∃ f t, F.Field i j f ∧ f.mutable = true ∧ F.C.IdxRef true i t ∧
      ins = [t, unpacked f.storage] ∧ outs = []
  | .arrayNewFixed => ∃ f t, F.Comp i (.array f) ∧ F.C.IdxRef false i t ∧
      ins = List.replicate j.toNat (unpacked f.storage) ∧ outs = [t]
  | .arrayNewData => ∃ f t, F.Comp i (.array f) ∧ F.C.IdxRef false i t ∧
      NumOrVec (unpacked f.storage) ∧ j.toNat < F.C.datas ∧ ins = [.i32, .i32] ∧ outs = [t]
  | .arrayNewElem => ∃ f t r e, F.Comp i (.array f) ∧ F.C.IdxRef false i t ∧
      f.storage = .val (.ref r) ∧ F.C.elems[j.toNat]? = some e ∧ RefSub F.C.decls e r ∧
      ins = [.i32, .i32] ∧ outs = [t]
  | .arrayCopy => ∃ f g t u, F.Comp i (.array f) ∧ f.mutable = true ∧ F.Comp j (.array g) ∧
      StorageSub F.C.decls g.storage f.storage ∧ F.C.IdxRef true i t ∧ F.C.IdxRef true j u ∧
      ins = [t, .i32, u, .i32, .i32] ∧ outs = []
  | .arrayInitData => ∃ f t, F.Comp i (.array f) ∧ f.mutable = true ∧ F.C.IdxRef true i t ∧
      NumOrVec (unpacked f.storage) ∧ j.toNat < F.C.datas ∧ ins = [t, .i32, .i32, .i32] ∧
      outs = []
  | .arrayInitElem => ∃ f t r e, F.Comp i (.array f) ∧ f.mutable = true ∧ F.C.IdxRef true i t ∧
      f.storage = .val (.ref r) ∧ F.C.elems[j.toNat]? = some e ∧ RefSub F.C.decls e r ∧
      ins = [t, .i32, .i32, .i32] ∧ outs = []
  | .tableCopy => ∃ d s, F.Table i d ∧ F.Table j s ∧ RefSub F.C.decls s.elem d.elem ∧
      ins = [addr d.is64, addr s.is64, addr (d.is64 && s.is64)] ∧ outs = []
  | .contBind => ∃ bs ps rs ps' rs' t u, F.Cont i (bs ++ ps) rs ∧ F.Cont j ps' rs' ∧
      F.C.FuncSub ps rs ps' rs' ∧ F.C.IdxRef true i t ∧ F.C.IdxRef false j u ∧
      ins = bs ++ [t] ∧ outs = [u]
  | .switch => ∃ ps last c' c rs ts rs' t, F.Cont i (ps ++ [last]) rs ∧ RefTo c last ∧
      F.C.tags[j.toNat]? = some ([], ts) ∧ (∃ y, F.C.defs c = some y ∧ y.comp = .cont c') ∧
      F.C.ContAt c' outs rs' ∧ List.Forall₂ (ValSub F.C.decls) rs ts ∧
      List.Forall₂ (ValSub F.C.decls) ts rs' ∧ F.C.IdxRef true i t ∧ ins = ps ++ [t]

/-- A heap type that is not in the hierarchy of continuations. -/
def Ctx.NoCont (C : Ctx) (h : Heap Nat) : Prop := ∀ s, ¬ HeapSub C.decls h (.abs s .cont)

/-- `ref.test`, `ref.cast` to this type: the operand is of some supertype. -/
def CastFrom (nullable : Bool) (h : HeapType) (r : Ref Nat) (ins : List V) : Prop :=
  r.nullable = nullable ∧ F.C.HeapTy h r.heap ∧ F.C.NoCont r.heap ∧
    ∃ sup, RefSub F.C.decls r sup ∧ ins = [.ref sup]

/-- The operators with a heap type. -/
def HeapOpTy (o : Instr.Heap) (h : HeapType) (ins outs : List V) : Prop :=
  match o with
  | .refNull => ∃ h', F.C.HeapTy h h' ∧ ins = [] ∧ outs = [.ref ⟨true, h'⟩]
  | .refTestNonNull => ∃ r, CastFrom F false h r ins ∧ outs = [.i32]
  | .refTestNullable => ∃ r, CastFrom F true h r ins ∧ outs = [.i32]
  | .refCastNonNull => ∃ r, CastFrom F false h r ins ∧ outs = [.ref r]
  | .refCastNullable => ∃ r, CastFrom F true h r ins ∧ outs = [.ref r]
  | _ => False

/-- What a value of type `a` is when it is not of type `b`. -/
def diff (a b : Ref Nat) : Ref Nat := ⟨a.nullable && !b.nullable, a.heap⟩

/-- The branches on casts. -/
def CastTy (o : Cast) (d : BitVec 32) (frm target : RefType) (ins outs : List V) : Prop :=
  ∃ r t l ts last, F.C.RefTy frm r ∧ F.C.RefTy target t ∧ RefSub F.C.decls t r ∧
    F.C.NoCont t.heap ∧ F.labels[d.toNat]? = some l ∧ l.types = ts ++ [last] ∧
    ins = ts ++ [.ref r] ∧
    match o with
    | .brOnCast => ValSub F.C.decls (.ref t) last ∧ outs = ts ++ [.ref (diff r t)]
    | .brOnCastFail => ValSub F.C.decls (.ref (diff r t)) last ∧ outs = ts ++ [.ref t]
    | _ => False

/-- The types that atomic accesses allow: `i32`, `i64`, and references below `sup`. -/
def AtomicOk (C : Ctx) (sup t : V) : Prop := t = .i32 ∨ t = .i64 ∨ ValSub C.decls t sup
def anyr (shared : Bool) : V := .ref ⟨true, .abs shared .any⟩
def eqr (shared : Bool) : V := .ref ⟨true, .abs shared .eq⟩

/-- Atomic accesses to globals, tables and arrays. -/
def AtomicTy (o : Atomic) (i : BitVec 32) (ins outs : List V) : Prop :=
  match o with
  | .globalAtomicGet => ∃ g, F.Global i g ∧ AtomicOk F.C (anyr false) g.content ∧
      ins = [] ∧ outs = [g.content]
  | .globalAtomicSet => ∃ g, F.Global i g ∧ AtomicOk F.C (anyr false) g.content ∧
      g.mutable = true ∧ ins = [g.content] ∧ outs = []
  | .globalAtomicRmwAdd | .globalAtomicRmwSub | .globalAtomicRmwAnd | .globalAtomicRmwOr
  | .globalAtomicRmwXor => ∃ g, F.Global i g ∧ g.mutable = true ∧
      (g.content = .i32 ∨ g.content = .i64) ∧ ins = [g.content] ∧ outs = [g.content]
  | .globalAtomicRmwXchg => ∃ g, F.Global i g ∧ AtomicOk F.C (anyr false) g.content ∧
      g.mutable = true ∧ ins = [g.content] ∧ outs = [g.content]
  | .globalAtomicRmwCmpxchg => ∃ g, F.Global i g ∧ AtomicOk F.C (eqr false) g.content ∧
      g.mutable = true ∧ ins = [g.content, g.content] ∧ outs = [g.content]
  | .tableAtomicGet => ∃ t, F.Table i t ∧ ValSub F.C.decls (.ref t.elem) (anyr true) ∧
      ins = [addr t.is64] ∧ outs = [.ref t.elem]
  | .tableAtomicSet => ∃ t, F.Table i t ∧ ValSub F.C.decls (.ref t.elem) (anyr true) ∧
      ins = [addr t.is64, .ref t.elem] ∧ outs = []
  | .tableAtomicRmwXchg => ∃ t, F.Table i t ∧ ValSub F.C.decls (.ref t.elem) (anyr true) ∧
      ins = [addr t.is64, .ref t.elem] ∧ outs = [.ref t.elem]
  | .tableAtomicRmwCmpxchg => ∃ t, F.Table i t ∧ ValSub F.C.decls (.ref t.elem) (eqr true) ∧
      ins = [addr t.is64, .ref t.elem, .ref t.elem] ∧ outs = [.ref t.elem]
  | .arrayAtomicGet => ∃ m v t, F.Comp i (.array ⟨m, .val v⟩) ∧ F.C.IdxRef true i t ∧
      AtomicOk F.C (anyr true) v ∧ ins = [t, .i32] ∧ outs = [v]
  | .arrayAtomicGetS | .arrayAtomicGetU => ∃ f t, F.Comp i (.array f) ∧ F.C.IdxRef true i t ∧
      Packed f.storage ∧ ins = [t, .i32] ∧ outs = [unpacked f.storage]
  | .arrayAtomicSet => ∃ s t, F.Comp i (.array ⟨true, s⟩) ∧ F.C.IdxRef true i t ∧
      (Packed s ∨ AtomicOk F.C (anyr true) (unpacked s)) ∧ ins = [t, .i32, unpacked s] ∧
      outs = []
  | .arrayAtomicRmwAdd | .arrayAtomicRmwSub | .arrayAtomicRmwAnd | .arrayAtomicRmwOr
  | .arrayAtomicRmwXor => ∃ v t, F.Comp i (.array ⟨true, .val v⟩) ∧ F.C.IdxRef true i t ∧
      (v = .i32 ∨ v = .i64) ∧ ins = [t, .i32, v] ∧ outs = [v]
  | .arrayAtomicRmwXchg => ∃ v t, F.Comp i (.array ⟨true, .val v⟩) ∧ F.C.IdxRef true i t ∧
      AtomicOk F.C (anyr true) v ∧ ins = [t, .i32, v] ∧ outs = [v]
  | .arrayAtomicRmwCmpxchg => ∃ v t, F.Comp i (.array ⟨true, .val v⟩) ∧ F.C.IdxRef true i t ∧
      AtomicOk F.C (eqr true) v ∧ ins = [t, .i32, v, v] ∧ outs = [v]

/-- Atomic accesses to structures. -/
def Atomic2Ty (o : Atomic2) (i j : BitVec 32) (ins outs : List V) : Prop :=
  match o with
  | .structAtomicGet => ∃ m v t, F.Field i j ⟨m, .val v⟩ ∧ F.C.IdxRef true i t ∧
      AtomicOk F.C (anyr true) v ∧ ins = [t] ∧ outs = [v]
  | .structAtomicGetS | .structAtomicGetU => ∃ f t, F.Field i j f ∧ F.C.IdxRef true i t ∧
      Packed f.storage ∧ ins = [t] ∧ outs = [unpacked f.storage]
  | .structAtomicSet => ∃ s t, F.Field i j ⟨true, s⟩ ∧ F.C.IdxRef true i t ∧
      (Packed s ∨ AtomicOk F.C (anyr true) (unpacked s)) ∧ ins = [t, unpacked s] ∧ outs = []
  | .structAtomicRmwAdd | .structAtomicRmwSub | .structAtomicRmwAnd | .structAtomicRmwOr
  | .structAtomicRmwXor => ∃ v t, F.Field i j ⟨true, .val v⟩ ∧ F.C.IdxRef true i t ∧
      (v = .i32 ∨ v = .i64) ∧ ins = [t, v] ∧ outs = [v]
  | .structAtomicRmwXchg => ∃ v t, F.Field i j ⟨true, .val v⟩ ∧ F.C.IdxRef true i t ∧
      AtomicOk F.C (anyr true) v ∧ ins = [t, v] ∧ outs = [v]
  | .structAtomicRmwCmpxchg => ∃ v t, F.Field i j ⟨true, .val v⟩ ∧ F.C.IdxRef true i t ∧
      AtomicOk F.C (eqr true) v ∧ ins = [t, v, v] ∧ outs = [v]

/-- A handler of `resume` for a continuation with results `rs`. -/
def HandleOk (rs : List V) : Handle → Prop
  | .onLabel tag l => ∃ ps rs' lab ts last c c' ps'' rs'', F.C.tags[tag.toNat]? = some (ps, rs') ∧
      F.labels[l.toNat]? = some lab ∧ lab.types = ts ++ [last] ∧ RefTo c last ∧
      List.Forall₂ (ValSub F.C.decls) ps ts ∧ (∃ y, F.C.defs c = some y ∧ y.comp = .cont c') ∧
      F.C.ContAt c' ps'' rs'' ∧ F.C.FuncSub rs' rs ps'' rs''
  | .onSwitch tag => ∃ rs', F.C.tags[tag.toNat]? = some ([], rs') ∧
      List.Forall₂ (ValSub F.C.decls) rs' rs ∧ List.Forall₂ (ValSub F.C.decls) rs rs'

/-- The types of the operators that have types in terms of value types. -/
def Simple (o : Operator) (ins outs : List V) : Prop :=
  match o with
  | .plain o => PlainTy o ins outs
  | .atomicFence => ins = [] ∧ outs = []
  | .idx o i => IdxTy F I o i ins outs
  | .idx2 o i j => Idx2Ty F o i j ins outs
  | .memorySize i => ∃ m, F.C.mems[i.toNat]? = some m ∧ ins = [] ∧ outs = [addr m]
  | .memoryGrow i => ∃ m, F.C.mems[i.toNat]? = some m ∧ ins = [addr m] ∧ outs = [addr m]
  | .callIndirect i j => ∃ t ps, F.Table j t ∧ RefSub F.C.decls t.elem ⟨true, .abs false .func⟩ ∧
      F.Func i ps outs ∧ ins = ps ++ [addr t.is64]
  | .memoryInit i j => ∃ m, F.C.mems[j.toNat]? = some m ∧ i.toNat < F.C.datas ∧
      ins = [addr m, .i32, .i32] ∧ outs = []
  | .tableInit i j => ∃ t e, F.Table j t ∧ F.C.elems[i.toNat]? = some e ∧
      RefSub F.C.decls e t.elem ∧ ins = [addr t.is64, .i32, .i32] ∧ outs = []
  | .mem o m => ∃ is64, MemArgOk F.C (accessBits o) (memOp o).atomic m is64 ∧
      (ins, outs) = (memOp o).kind.sig (addr is64) (memOp o).ty
  | .memLane o m l => ∃ is64, MemArgOk F.C (laneBits o) false m is64 ∧
      l.toNat * laneBits o < 128 ∧ ins = [addr is64, .v128] ∧
      outs = if isLaneStore o then [] else [.v128]
  | .lane o l => l.toNat < (laneShape o).1 ∧
      if isReplace o then ins = [.v128, (laneShape o).2] ∧ outs = [.v128]
      else ins = [.v128] ∧ outs = [(laneShape o).2]
  | .i8x16Shuffle ls => (∀ l ∈ ls, l.toNat < 32) ∧ ins = [.v128, .v128] ∧ outs = [.v128]
  | .heap o h => HeapOpTy F o h ins outs
  | .cast o d a b => CastTy F o d a b ins outs
  | .atomic o _ i => AtomicTy F o i ins outs
  | .atomic2 o _ i j => Atomic2Ty F o i j ins outs
  | .i32Const _ => ins = [] ∧ outs = [.i32]
  | .i64Const _ => ins = [] ∧ outs = [.i64]
  | .f32Const _ => ins = [] ∧ outs = [.f32]
  | .f64Const _ => ins = [] ∧ outs = [.f64]
  | .v128Const _ => ins = [] ∧ outs = [.v128]
  | .typedSelect t => ∃ v, F.C.ValTy t v ∧ ins = [v, v, .i32] ∧ outs = [v]
  | .resume i hs => ∃ ps t, F.Cont i ps outs ∧ (∀ h ∈ hs, HandleOk F outs h) ∧
      F.C.IdxRef true i t ∧ ins = ps ++ [t]
  | .resumeThrow i tag hs => ∃ ps es t, F.Cont i ps outs ∧ (∀ h ∈ hs, HandleOk F outs h) ∧
      F.C.Exn tag es ∧ F.C.IdxRef true i t ∧ ins = es ++ [t]
  | .resumeThrowRef i hs => ∃ ps t, F.Cont i ps outs ∧ (∀ h ∈ hs, HandleOk F outs h) ∧
      F.C.IdxRef true i t ∧ ins = [exnref, t]
  | _ => False

/-- The operators after which nothing is executed, with their operands. -/
def Stops (o : Operator) (ins : List V) : Prop :=
  match o with
  | .plain .unreachable => ins = []
  | .plain .return_ => ins = F.results
  | .plain .throwRef => ins = [exnref]
  | .idx .br i => ∃ l, F.labels[i.toNat]? = some l ∧ ins = l.types
  | .idx .throw i => F.C.Exn i ins
  | .idx .rethrow i => ∃ l, F.labels[i.toNat]? = some l ∧ l.isCatch = true ∧ ins = []
  | .idx .returnCall i => ∃ ti rs, F.C.funcs[i.toNat]? = some ti ∧ F.Func ti ins rs ∧
      List.Forall₂ (ValSub F.C.decls) rs F.results
  | .idx .returnCallRef i => ∃ ps rs t, F.Func i ps rs ∧
      List.Forall₂ (ValSub F.C.decls) rs F.results ∧ F.C.IdxRef true i t ∧ ins = ps ++ [t]
  | .returnCallIndirect i j => ∃ t ps rs, F.Table j t ∧
      RefSub F.C.decls t.elem ⟨true, .abs false .func⟩ ∧ F.Func i ps rs ∧
      List.Forall₂ (ValSub F.C.decls) rs F.results ∧ ins = ps ++ [addr t.is64]
  | _ => False

/-! ## Operands of unknown type -/

/-- The types of operands: of values, the reference types without a heap type, and the type of
an operand that never exists. -/
inductive VT where
  | bot
  | refBot (nullable : Bool)
  | val (t : V)

inductive VT.Sub (D : Decls) : VT → VT → Prop
  | bot {t} : Sub D .bot t
  | refBot {n n'} : (n = true → n' = true) → Sub D (.refBot n) (.refBot n')
  | refVal {n r} : (n = true → r.nullable = true) → Sub D (.refBot n) (.val (.ref r))
  | val {a b} : ValSub D a b → Sub D (.val a) (.val b)

abbrev VTs.Sub (D : Decls) : List VT → List VT → Prop := List.Forall₂ (VT.Sub D)

def vals (ts : List V) : List VT := ts.map .val

/-- A number, a vector, or an operand that never exists: what `select` chooses from. -/
def VT.Selectable : VT → Prop
  | .bot => True
  | .refBot _ => False
  | .val t => NumOrVec t

/-- A reference type that may be null, and the same type without null. -/
inductive NonNull : VT → VT → Prop
  | bot : NonNull (.refBot true) (.refBot false)
  | ref {h} : NonNull (.val (.ref ⟨true, h⟩)) (.val (.ref ⟨false, h⟩))

/-- The types of the operators that are not part of the block structure. -/
inductive InstrTy : Operator → List VT → List VT → Prop
  | simple {o ins outs} : Simple F I o ins outs → InstrTy o (vals ins) (vals outs)
  | stops {o ins} (below after : List VT) : Stops F o ins → InstrTy o (below ++ vals ins) after
  | brTable {t ls ts l} (below after : List VT) : t.targets = .ok ls →
      F.labels[t.default.toNat]? = some l → VTs.Sub F.C.decls ts (vals l.types) →
      (∀ i ∈ ls, ∃ l, F.labels[i.toNat]? = some l ∧ VTs.Sub F.C.decls ts (vals l.types)) →
      InstrTy (.brTable t) (below ++ ts ++ [.val .i32]) after
  | select {t} : t.Selectable → InstrTy (.plain .select) [t, t, .val .i32] [t]
  | refAsNonNull {t t'} : NonNull t t' → InstrTy (.plain .refAsNonNull) [t] [t']
  | brOnNull {i t t' l} : F.labels[i.toNat]? = some l → NonNull t t' →
      InstrTy (.idx .brOnNull i) (vals l.types ++ [t]) (vals l.types ++ [t'])
  | anyConvertExtern {n s} : InstrTy (.plain .anyConvertExtern)
      [.val (.ref ⟨n, .abs s .extern⟩)] [.val (.ref ⟨n, .abs s .any⟩)]
  | externConvertAny {n s} : InstrTy (.plain .externConvertAny)
      [.val (.ref ⟨n, .abs s .any⟩)] [.val (.ref ⟨n, .abs s .extern⟩)]

end

/-! ## Sequences -/

/-- What an operator adds to the locals that have been set. -/
def sets : Operator → List (BitVec 32)
  | .idx .localSet i | .idx .localTee i => [i]
  | _ => []

/-- The label of a handler takes these types. -/
def Fn.CatchTo (F : Fn) (l : BitVec 32) (ts : List V) : Prop :=
  ∃ lab, F.labels[l.toNat]? = some lab ∧ List.Forall₂ (ValSub F.C.decls) ts lab.types

/-- `exnref` without null, what handlers put on the stack. -/
def exn : V := .ref ⟨false, .abs false .exn⟩

def CatchOk (F : Fn) : Catch → Prop
  | .one tag l => ∃ ts, F.C.Exn tag ts ∧ F.CatchTo l ts
  | .oneRef tag l => ∃ ts, F.C.Exn tag ts ∧ F.CatchTo l (ts ++ [exn])
  | .all l => F.CatchTo l []
  | .allRef l => F.CatchTo l [exn]

/-- A clause of a legacy `try`. -/
structure Clause where
  tag : BitVec 32
  types : List V
  body : List Operator
  set : List (BitVec 32)

def Clause.ops (c : Clause) : List Operator := .catch_ c.tag :: c.body

/-- The operators of a `catch_all` clause. -/
def catchAllOps : Option (List Operator × List (BitVec 32)) → List Operator
  | none => []
  | some b => .catchAll :: b.1

/-- `Seq F I os ts us I'`: when the locals in `I` have been set, the sequence `os` has type
`ts → us`, and afterwards the locals in `I'` have been set. Setting a local in a block does not
count after its end. -/
inductive Seq : Fn → List (BitVec 32) → List Operator → List VT → List VT → List (BitVec 32) → Prop
  | nil {F I} : Seq F I [] [] [] I
  | instr {F I o ins outs} : InstrTy F I o ins outs → Seq F I [o] ins outs (sets o ++ I)
  | append {F I os os' ts us vs I' I''} : Seq F I os ts us I' → Seq F I' os' us vs I'' →
      Seq F I (os ++ os') ts vs I''
  | frame {F I os ts us I'} (fs : List VT) : Seq F I os ts us I' →
      Seq F I os (fs ++ ts) (fs ++ us) I'
  | sub {F I os ts us ts' us' I'} : VTs.Sub F.C.decls ts' ts → VTs.Sub F.C.decls us us' →
      Seq F I os ts us I' → Seq F I os ts' us' I'
  | block {F I bt ps rs body I'} : F.Block bt ps rs →
      Seq (F.label rs) I body (vals ps) (vals rs) I' →
      Seq F I (.block .block bt :: (body ++ [.end_])) (vals ps) (vals rs) I
  | loop {F I bt ps rs body I'} : F.Block bt ps rs →
      Seq (F.label ps) I body (vals ps) (vals rs) I' →
      Seq F I (.block .loop bt :: (body ++ [.end_])) (vals ps) (vals rs) I
  | ifElse {F I bt ps rs body body' I' I''} : F.Block bt ps rs →
      Seq (F.label rs) I body (vals ps) (vals rs) I' →
      Seq (F.label rs) I body' (vals ps) (vals rs) I'' →
      Seq F I (.block .if_ bt :: (body ++ .else_ :: (body' ++ [.end_])))
        (vals ps ++ [.val .i32]) (vals rs) I
  /-- Without an `else`, the alternative is empty. -/
  | if_ {F I bt ps rs body I'} : F.Block bt ps rs →
      Seq (F.label rs) I body (vals ps) (vals rs) I' →
      List.Forall₂ (ValSub F.C.decls) ps rs →
      Seq F I (.block .if_ bt :: (body ++ [.end_])) (vals ps ++ [.val .i32]) (vals rs) I
  | tryTable {F I bt ps rs cs body I'} : F.Block bt ps rs → (∀ c ∈ cs, CatchOk F c) →
      Seq (F.label rs) I body (vals ps) (vals rs) I' →
      Seq F I (.tryTable bt cs :: (body ++ [.end_])) (vals ps) (vals rs) I
  | try_ {F I bt ps rs body I'} {cs : List Clause} {all : Option (List Operator × List (BitVec 32))} :
      F.Block bt ps rs → Seq (F.label rs) I body (vals ps) (vals rs) I' →
      (∀ c ∈ cs, F.C.Exn c.tag c.types) →
      (∀ c ∈ cs, Seq (F.label rs true) I c.body (vals c.types) (vals rs) c.set) →
      (∀ b ∈ all, Seq (F.label rs true) I b.1 [] (vals rs) b.2) →
      Seq F I (.block .try_ bt :: (body ++ (cs.flatMap Clause.ops ++ (catchAllOps all ++ [.end_]))))
        (vals ps) (vals rs) I
  | delegate {F I bt ps rs body I' d l} : F.Block bt ps rs →
      Seq (F.label rs) I body (vals ps) (vals rs) I' → F.labels[d.toNat]? = some l →
      Seq F I (.block .try_ bt :: (body ++ [.delegate d])) (vals ps) (vals rs) I

/-- The context of the body of a function whose type has the index `ty`, with parameters `ps` and
results `rs`, and these locals. -/
def Fn.body (C : Ctx) (ps rs locals : List V) (shared : Bool) : Fn where
  C := C
  locals := ps ++ locals
  params := ps.length
  labels := [⟨rs, false⟩]
  results := rs
  shared := shared

/-- The body of a function is valid: it is an expression with the results of the function. -/
def Valid (F : Fn) (os : List Operator) : Prop :=
  ∃ body I', os = body ++ [.end_] ∧ Seq F [] body [] (vals F.results) I'

end Verif.Op.Typing
