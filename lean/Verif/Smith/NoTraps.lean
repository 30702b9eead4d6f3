import Verif.Smith.Wasm
/-
Model of crates/wasm-smith/src/core/code_builder/no_traps.rs, and of `memory_offset` and `alloc_local` of
crates/wasm-smith/src/core/code_builder.rs. The functions that choose an instruction by a value type are
the constructors of `Op` with that type. Functions return the instructions that they push.
-/
namespace Verif.Smith

/-- `CodeBuilder`, code_builder.rs 738-753: the numbers of parameters and locals, and the types of the
locals added for this pass. -/
structure Builder where
  params : Nat
  locals : Nat
  extraLocals : List Ty
  deriving DecidableEq, Repr

/-- The number of locals that there are. -/
def Builder.count (b : Builder) : Nat := b.locals + b.params + b.extraLocals.length

/-- `alloc_local`, code_builder.rs 1484-1488. `u32::try_from` does not fail with fewer than 2^32 locals. -/
def allocLocal (b : Builder) (ty : Ty) : Nat × Builder :=
  (b.locals + b.params + b.extraLocals.length, { b with extraLocals := b.extraLocals ++ [ty] })

/-- `wasm_encoder::MemoryType`: the fields that matter. -/
structure MemType where
  memory64 : Bool
  minimum : Nat
  maximum : Option Nat
  pageSize : Nat
  deriving DecidableEq, Repr

/-- The address type of a memory, no_traps.rs 16-20 and 99-103. -/
def MemType.addressType (m : MemType) : ITy := if m.memory64 then .i64 else .i32

/-- `int_const_inst`, no_traps.rs 553-559: a cast of an `i64`. -/
def intConst {P : Type} (t : ITy) (x : Int) : Instr P := .op (.const (.ofInt t (BitVec.ofInt t.bits x)))

/-- `int_min_const_inst`, no_traps.rs 545-551. -/
def intMinConst {P : Type} : ITy → Instr P
  | .i32 => .op (.const (.i32 (BitVec.intMin 32)))
  | .i64 => .op (.const (.i64 (BitVec.intMin 64)))

/-- `dummy_value_inst`, no_traps.rs 395-407. -/
def dummyValue {P : Type} : Ty → Instr P
  | .int .i32 => .op (.const (.i32 0))
  | .int .i64 => .op (.const (.i64 0))
  | .flt .f32 => .op (.const (.f32 0))
  | .flt .f64 => .op (.const (.f64 0))
  | .v128 => .op (.const (.v128 0))
  | .ref => .op (.const (.ref 0))

/-- `type_of_memory_access` for loads, no_traps.rs 499-543. -/
def typeOfLoad : Load → Ty
  | .i32Load | .i32Load8S | .i32Load8U | .i32Load16S | .i32Load16U => .int .i32
  | .i64Load | .i64Load8S | .i64Load8U | .i64Load16S | .i64Load16U | .i64Load32S | .i64Load32U => .int .i64
  | .f32Load => .flt .f32
  | .f64Load => .flt .f64
  | .v128Load | .v128Load8x8S | .v128Load8x8U | .v128Load16x4S | .v128Load16x4U | .v128Load32x2S | .v128Load32x2U
  | .v128Load8Splat | .v128Load16Splat | .v128Load32Splat | .v128Load64Splat | .v128Load32Zero
  | .v128Load64Zero => .v128

/-- `type_of_memory_access` for stores, no_traps.rs 499-543. -/
def typeOfStore : Store → Ty
  | .i32Store | .i32Store8 | .i32Store16 => .int .i32
  | .i64Store | .i64Store8 | .i64Store16 | .i64Store32 => .int .i64
  | .f32Store => .flt .f32
  | .f64Store => .flt .f64
  | .v128Store => .v128

/-- `size_of_type_in_memory`, no_traps.rs 635-644; a panic for references, which are not accessed. -/
def sizeOfType : Ty → Nat
  | .int .i32 => 4
  | .int .i64 => 8
  | .flt .f32 => 4
  | .flt .f64 => 8
  | .v128 => 16
  | .ref => 0

/-- The check whether an access is beyond the end of the memory, no_traps.rs 38-55 and 117-134. -/
def boundsCheck {P : Type} (t : ITy) (mem : MemType) (m : MemArg) (size addressLocal : Nat) : List (Instr P) :=
  [ .op (.memorySize m.memory),
    intConst t mem.pageSize,
    .op (.ibin t .mul),
    intConst t (m.offset + size : Nat),
    .op (.localGet addressLocal),
    .op (.ibin t .add),
    .op (.irel t .leU) ]

/-- `load`, no_traps.rs 9-87. -/
def noTrapLoad {P : Type} (mem : MemType) (l : Load) (m : MemArg) (b : Builder) : List (Instr P) × Builder :=
  let t := mem.addressType
  let (addressLocal, b) := allocLocal b (.int t)
  let loadType := typeOfLoad l
  let (resultLocal, b) := allocLocal b loadType
  ([ .op (.localSet addressLocal),
     .block .block 0 0,
     .block .block 0 0 ] ++
   boundsCheck t mem m (sizeOfType loadType) addressLocal ++
   [ .ctl (.brIf 0),
     .op (.localGet addressLocal),
     intConst t 0,
     .op (.irel t .leS),
     .ctl (.brIf 0),
     .op (.localGet addressLocal),
     .op (.load l m),
     .op (.localSet resultLocal),
     .ctl (.br 1),
     .end_,
     dummyValue loadType,
     .op (.localSet resultLocal),
     .end_,
     .op (.localGet resultLocal) ], b)

/-- `store`, no_traps.rs 91-159. -/
def noTrapStore {P : Type} (mem : MemType) (s : Store) (m : MemArg) (b : Builder) : List (Instr P) × Builder :=
  let t := mem.addressType
  let (addressLocal, b) := allocLocal b (.int t)
  let storeType := typeOfStore s
  let (valueLocal, b) := allocLocal b storeType
  ([ .op (.localSet valueLocal),
     .op (.localSet addressLocal) ] ++
   boundsCheck t mem m (sizeOfType storeType) addressLocal ++
   [ .if_ 0 0,
     .else_,
     .op (.localGet addressLocal),
     intConst t 0,
     .op (.irel t .leS),
     .if_ 0 0,
     .else_,
     .op (.localGet addressLocal),
     .op (.localGet valueLocal),
     .op (.store s m),
     .end_,
     .end_ ], b)

/-- `unsigned_div_rem`, no_traps.rs 169-192. -/
def unsignedDivRem {P : Type} (t : ITy) (d : IDiv) (b : Builder) : List (Instr P) × Builder :=
  let (tempDivisor, b) := allocLocal b (.int t)
  ([ .op (.localSet tempDivisor),
     intConst t 1,
     .op (.localGet tempDivisor),
     .op (.localGet tempDivisor),
     .op (.eqz t),
     .op .select,
     .op (.idiv t d) ], b)

/-- `signed_div_rem`, no_traps.rs 278-350. -/
def signedDivRem {P : Type} (t : ITy) (d : IDiv) (b : Builder) : List (Instr P) × Builder :=
  let (tempDivisor, b) := allocLocal b (.int t)
  let (tempDividend, b) := allocLocal b (.int t)
  ([ .op (.localSet tempDivisor),
     intConst t 1,
     .op (.localGet tempDivisor),
     .op (.localGet tempDivisor),
     .op (.eqz t),
     .op .select,
     .op (.localSet tempDivisor),
     .op (.localSet tempDividend),
     .block .block 0 0,
     .block .block 0 0,
     .op (.localGet tempDividend),
     .op (.localGet tempDivisor),
     .op (.localSet tempDivisor),
     .op (.localTee tempDividend),
     intMinConst t,
     .op (.irel t .ne),
     .ctl (.brIf 0),
     .op (.localGet tempDivisor),
     intConst t (-1),
     .op (.irel t .ne),
     .ctl (.brIf 0),
     intConst t 1,
     .op (.localSet tempDivisor),
     .ctl (.br 1),
     .end_,
     .end_,
     .op (.localGet tempDividend),
     .op (.localGet tempDivisor),
     .op (.idiv t d) ], b)

/-- `flt_inf_const_inst`, no_traps.rs 619-625: the bits of infinity. -/
def fltInf {P : Type} : FTy → Instr P
  | .f32 => .op (.const (.f32 0x7F800000))
  | .f64 => .op (.const (.f64 0x7FF0000000000000))

/-- `flt_neg_inf_const_inst`, no_traps.rs 627-633. -/
def fltNegInf {P : Type} : FTy → Instr P
  | .f32 => .op (.const (.f32 0xFF800000))
  | .f64 => .op (.const (.f64 0xFFF0000000000000))

/-- `min_input_const_for_trunc`, no_traps.rs 455-473. The bits of the constants
`-2_147_483_500f32`, `0.0`, `-9_223_372_000_000_000_000f32`, `i32::MIN as f64` and
`-9_223_372_036_854_775_000f64` (see `c34_constants`). -/
def minInput : ITy → FTy → Bool → Val
  | .i32, .f32, true => .f32 0xCEFFFFFF
  | .i32, .f32, false => .f32 0
  | .i64, .f32, true => .f32 0xDF000000
  | .i64, .f32, false => .f32 0
  | .i32, .f64, true => .f64 0xC1E0000000000000
  | .i32, .f64, false => .f64 0
  | .i64, .f64, true => .f64 0xC3DFFFFFFFFFFFFF
  | .i64, .f64, false => .f64 0

/-- `max_input_const_for_trunc`, no_traps.rs 475-497. The bits of the constants
`2_147_483_500f32`, `9_223_371_500_000_000_000f32`, `i32::MAX as f64` and
`9_223_372_036_854_775_000f64` (see `c34_constants`). -/
def maxInput : ITy → FTy → Val
  | .i32, .f32 => .f32 0x4EFFFFFF
  | .i64, .f32 => .f32 0x5EFFFFFF
  | .i32, .f64 => .f64 0x41DFFFFFFFC00000
  | .i64, .f64 => .f64 0x43DFFFFFFFFFFFFF

/-- `trunc`, no_traps.rs 194-273. -/
def noTrapTrunc {P : Type} (dst : ITy) (src : FTy) (signed : Bool) (b : Builder) : List (Instr P) × Builder :=
  let (tempFloat, b) := allocLocal b (.flt src)
  ([ .op (.localTee tempFloat),
     .op (.localGet tempFloat),
     .op (.frel src .ne),
     .op (.localGet tempFloat),
     fltInf src,
     .op (.frel src .eq),
     .op (.localGet tempFloat),
     fltNegInf src,
     .op (.frel src .eq),
     .op (.ibin .i32 .or),
     .op (.ibin .i32 .or),
     .if_ 0 0,
     dummyValue (.flt src),
     .op (.localSet tempFloat),
     .end_,
     .op (.localGet tempFloat),
     .op (.const (minInput dst src signed)),
     .op (.frel src .lt),
     .if_ 0 0,
     .op (.const (minInput dst src signed)),
     .op (.localSet tempFloat),
     .end_,
     .op (.localGet tempFloat),
     .op (.const (maxInput dst src)),
     .op (.frel src .gt),
     .if_ 0 0,
     .op (.const (maxInput dst src)),
     .op (.localSet tempFloat),
     .end_,
     .op (.localGet tempFloat),
     .op (.trunc dst src signed) ], b)

/-- `Float`, code_builder.rs 786-791. -/
inductive FloatKind where
  | f32
  | f64
  | f32x4
  | f64x2
  deriving DecidableEq, Repr

/-- `CANON_32BIT_NAN`, and `CANON_64BIT_NAN`, code_builder.rs 1446-1448. -/
def canon32 : Nat := 0b01111111110000000000000000000000
/-- See `canon32`. -/
def canon64 : Nat := 0b0111111111111000000000000000000000000000000000000000000000000000

/-- `canonicalize_nan`, code_builder.rs 1422-1482. The fields `f32_scratch`, `f64_scratch` and `v128_scratch` are
`None` initially (995-997) and nothing assigns to them, so there is a new local each time. -/
def canonicalizeNan {P : Type} (ty : FloatKind) (b : Builder) : List (Instr P) × Builder :=
  let (l, b) := allocLocal b
    (match ty with
    | .f32 => .flt .f32
    | .f64 => .flt .f64
    | .f32x4 | .f64x2 => .v128)
  ([ .op (.localTee l),
     .op (.const
      (match ty with
      | .f32 => .f32 (BitVec.ofNat 32 canon32)
      | .f64 => .f64 (BitVec.ofNat 64 canon64)
      | .f32x4 => .v128 (BitVec.ofNat 128 (canon32 ||| canon32 <<< 32 ||| canon32 <<< 64 ||| canon32 <<< 96))
      | .f64x2 => .v128 (BitVec.ofNat 128 (canon64 ||| canon64 <<< 64)))),
     .op (.localGet l),
     .op (.localGet l),
     .op
      (match ty with
      | .f32 => .frel .f32 .eq
      | .f64 => .frel .f64 .eq
      | .f32x4 => .veq .f32
      | .f64x2 => .veq .f64),
     .op
      (match ty with
      | .f32 | .f64 => .select
      | .f32x4 | .f64x2 => .bitselect) ], b)

/-- `u64::saturating_mul`. -/
def satMul64 (a b : Nat) : Nat := min (a * b) (2 ^ 64 - 1)

/-- `memory_offset`, code_builder.rs 5363-5413. `choose` is `Unstructured::int_in_range`, which gives some number
of the range and panics if there is none (`none`); the first range is for the kind of offset. `a`, `b` and `c` are
the configured `memory_offset_choices`. -/
def memoryOffset (choose : Nat → Nat → Nat) (abc : Nat × Nat × Nat) (mem : MemType) (disallowTraps : Bool) : Option Nat :=
  let (a, b, c) := abc
  if a + b + c = 0 then none
  else
    let min := satMul64 mem.minimum mem.pageSize
    let max := (mem.maximum.map fun m => satMul64 m mem.pageSize).getD (2 ^ 64 - 1)
    let (min, max, trueMax) :=
      match mem.memory64, disallowTraps with
      | true, false => (min, max, 2 ^ 64 - 1)
      | false, false =>
        (if min < 2 ^ 32 then min else 2 ^ 32 - 1, if max < 2 ^ 32 then max else 2 ^ 32 - 1, 2 ^ 32 - 1)
      | true, true =>
        let noTrapMax := 2 ^ 63 - 1 - 16
        (Min.min min noTrapMax, noTrapMax, noTrapMax)
      | false, true =>
        let noTrapMax := 2 ^ 31 - 1 - 16
        (Min.min min noTrapMax, noTrapMax, noTrapMax)
    let inRange := fun lo hi => if lo ≤ hi then some (choose lo hi) else none
    (inRange 0 (a + b + c - 1)).bind fun choice =>
    if choice < a then inRange 0 min
    else if choice < a + b then inRange min max
    else inRange max trueMax

end Verif.Smith
