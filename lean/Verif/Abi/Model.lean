/-!
# Model of `SizeAlign` and flattening of WIT types

Sources: `/repo/crates/wit-parser/src/sizealign.rs`, `abi.rs` and `lib.rs`.

`usize` is a natural number: overflow of sizes is not modelled except for the checked
multiplications. `none` is a panic.
-/
namespace Verif.Abi

/-- `enum Type` (lib.rs lines 750-766). An `Id` is its index in the arena `Resolve::types`. -/
inductive Ty where
  | bool | u8 | u16 | u32 | u64 | s8 | s16 | s32 | s64 | f32 | f64 | char | string | errorContext
  | id (i : Nat)
  deriving DecidableEq, Repr

/-- `enum TypeDefKind` (lib.rs lines 672-696), without names and documentation. Flags and enums
are their number of labels. `Handle` stands for `Own` and `Borrow`. -/
inductive Kind where
  | record (fields : List Ty)
  | resource
  | handle
  | flags (n : Nat)
  | tuple (types : List Ty)
  | variant (cases : List (Option Ty))
  | enum (n : Nat)
  | option (t : Ty)
  | result (ok err : Option Ty)
  | list (t : Ty)
  | map (k v : Ty)
  | fixedLengthList (t : Ty) (size : Nat)
  | future (t : Option Ty)
  | stream (t : Option Ty)
  | type (t : Ty)
  | unknown
  deriving DecidableEq, Repr

/-- `enum Int` (lib.rs lines 769-774). -/
inductive Int' where
  | u8 | u16 | u32 | u64
  deriving DecidableEq, Repr

/-! ## sizealign.rs -/

/-- `enum Alignment` (lines 14-19). -/
inductive Alignment where
  | pointer
  | bytes (n : Nat)
  deriving DecidableEq, Repr

/-- `Alignment::default` (lines 21-25). -/
def Alignment.default : Alignment := .bytes 1

/-- `Ord::cmp` (lines 46-65), as the test `self > other`. -/
def Alignment.gt : Alignment → Alignment → Bool
  | .pointer, .pointer => false
  | .pointer, .bytes b => !decide (b > 4)
  | .bytes b, .pointer => decide (b > 4)
  | .bytes a, .bytes b => decide (a > b)

/-- `Ord::max` of the standard library: `if other < self { self } else { other }`. -/
def Alignment.max (a b : Alignment) : Alignment := if a.gt b then a else b

/-- `align_wasm32` (lines 69-74). -/
def Alignment.align32 : Alignment → Nat
  | .pointer => 4
  | .bytes n => n

/-- `align_wasm64` (lines 76-81). -/
def Alignment.align64 : Alignment → Nat
  | .pointer => 8
  | .bytes n => n

/-- `struct ArchitectureSize` (lines 96-102). -/
structure ASize where
  bytes : Nat := 0
  pointers : Nat := 0
  deriving DecidableEq, Repr

/-- `Add` (lines 103-109). -/
def ASize.add (a b : ASize) : ASize := ⟨a.bytes + b.bytes, a.pointers + b.pointers⟩

/-- `size_wasm32` (lines 171-173). -/
def ASize.size32 (a : ASize) : Nat := a.bytes + a.pointers * 4

/-- `size_wasm64` (lines 175-177). -/
def ASize.size64 (a : ASize) : Nat := a.bytes + a.pointers * 8

/-- `align_to` (lines 422-424). `x & !m` clears in `x` the bits of `m`. -/
def alignTo (val align : Nat) : Nat :=
  let x := val + align - 1
  x - (x &&& (align - 1))

/-- `ArchitectureSize::max` (lines 138-154). -/
def ASize.max (self other : ASize) : ASize :=
  let self32 := self.size32
  let self64 := self.size64
  let other32 := other.size32
  let other64 := other.size64
  if self32 ≥ other32 ∧ self64 ≥ other64 then self
  else if self32 ≤ other32 ∧ self64 ≤ other64 then other
  else
    let new32 := alignTo (Max.max self32 other32) 4
    let new64 := alignTo (Max.max self64 other64) 8
    ⟨new32 + new32 - new64, (new64 - new32) / 4⟩

/-- `align_to_arch` (lines 428-454). -/
def alignToArch (val : ASize) : Alignment → ASize
  | .pointer =>
    let new32 := alignTo val.bytes 4
    if new32 ≠ alignTo new32 8 then ⟨new32 - 4, val.pointers + 1⟩
    else ⟨new32, val.pointers⟩
  | .bytes alignBytes =>
    if alignBytes > 4 ∧ val.pointers &&& 1 ≠ 0 then
      let newBytes := alignTo val.bytes alignBytes
      if newBytes - val.bytes ≥ 4 then ⟨newBytes - 8, val.pointers + 1⟩
      else ⟨newBytes + 8, val.pointers - 1⟩
    else ⟨alignTo val.bytes alignBytes, val.pointers⟩

/-- `struct ElementInfo` (lines 228-231). -/
structure Info where
  size : ASize
  align : Alignment
  deriving DecidableEq, Repr

/-- `int_size_align` (lines 410-418) with the conversions of lines 118-125 and 233-240. -/
def intInfo : Int' → Info
  | .u8 => ⟨⟨1, 0⟩, .bytes 1⟩
  | .u16 => ⟨⟨2, 0⟩, .bytes 2⟩
  | .u32 => ⟨⟨4, 0⟩, .bytes 4⟩
  | .u64 => ⟨⟨8, 0⟩, .bytes 8⟩

/-- `discriminant_type` (lib.rs lines 895-903). -/
def discriminantType (numCases : Nat) : Option Int' :=
  if numCases = 0 then some .u8
  else
    let n := numCases - 1
    if n ≤ 0xff then some .u8
    else if n ≤ 0xffff then some .u16
    else if n ≤ 0xffffffff then some .u32
    else none

/-- `enum FlagsRepr` (lib.rs lines 813-817). -/
inductive FlagsRepr where
  | u8 | u16 | u32 (n : Nat)
  deriving DecidableEq, Repr

/-- `Flags::repr` (lib.rs lines 820-827). -/
def flagsRepr (n : Nat) : FlagsRepr :=
  if n = 0 then .u32 0
  else if n ≤ 8 then .u8
  else if n ≤ 16 then .u16
  else .u32 (alignTo n 32 / 32)

/-- `FlagsRepr::count` (lib.rs lines 831-837). -/
def FlagsRepr.count : FlagsRepr → Nat
  | .u8 => 1
  | .u16 => 1
  | .u32 n => n

/-- `SizeAlign` (lines 250-252): the information for the types so far. -/
abbrev Infos := List Info

/-- `size` (lines 314-325) and `align` (lines 327-338), which follow the same cases. -/
def infoOf (map : Infos) : Ty → Option Info
  | .bool | .u8 | .s8 => some ⟨⟨1, 0⟩, .bytes 1⟩
  | .u16 | .s16 => some ⟨⟨2, 0⟩, .bytes 2⟩
  | .u32 | .s32 | .f32 | .char | .errorContext => some ⟨⟨4, 0⟩, .bytes 4⟩
  | .u64 | .s64 | .f64 => some ⟨⟨8, 0⟩, .bytes 8⟩
  | .string => some ⟨⟨0, 2⟩, .pointer⟩
  | .id i => map[i]?

/-- One iteration of the loop of `record` (lines 373-378). -/
def recordStep (map : Infos) (acc : Info) (ty : Ty) : Option Info := do
  let f ← infoOf map ty
  some ⟨(alignToArch acc.size f.align).add f.size, acc.align.max f.align⟩

/-- `record` (lines 370-380). -/
def record (map : Infos) (types : List Ty) : Option Info := do
  let acc ← types.foldlM (recordStep map) ⟨{}, .default⟩
  some ⟨alignToArch acc.size acc.align, acc.align⟩

/-- One iteration of the loop of `variant` (lines 397-402). -/
def variantStep (map : Infos) (acc : Info) : Option Ty → Option Info
  | none => some acc
  | some ty => do
    let f ← infoOf map ty
    some ⟨acc.size.max f.size, acc.align.max f.align⟩

/-- `variant` (lines 386-407). -/
def variant (map : Infos) (tag : Int') (types : List (Option Ty)) : Option Info := do
  let discrim := intInfo tag
  let case ← types.foldlM (variantStep map) ⟨{}, .default⟩
  let align := discrim.align.max case.align
  let discrimAligned := alignToArch discrim.size case.align
  let sizeSum := discrimAligned.add case.size
  some ⟨alignToArch sizeSum align, align⟩

/-- `usize::MAX`. -/
def usizeMax : Nat := 2 ^ 64 - 1

/-- `checked_mul(..).unwrap()`. -/
def checkedMul (a b : Nat) : Option Nat := if a * b ≤ usizeMax then some (a * b) else none

/-- `calculate` (lines 263-312). -/
def calculate (map : Infos) : Kind → Option Info
  | .type t => infoOf map t
  | .fixedLengthList t size => do
    let f ← infoOf map t
    let bytes ← checkedMul f.size.bytes size
    let pointers ← checkedMul f.size.pointers size
    some ⟨⟨bytes, pointers⟩, f.align⟩
  | .list _ => some ⟨⟨0, 2⟩, .pointer⟩
  | .map _ _ => some ⟨⟨0, 2⟩, .pointer⟩
  | .record fields => record map fields
  | .tuple types => record map types
  | .flags n =>
    match flagsRepr n with
    | .u8 => some (intInfo .u8)
    | .u16 => some (intInfo .u16)
    | .u32 n => some ⟨⟨n * 4, 0⟩, .bytes 4⟩
  | .variant cases => do
    let tag ← discriminantType cases.length
    variant map tag cases
  | .enum n => do
    let tag ← discriminantType n
    variant map tag []
  | .option t => variant map .u8 [some t]
  | .result ok err => variant map .u8 [ok, err]
  | .handle | .future _ | .stream _ => some (intInfo .u32)
  | .resource => some ⟨⟨usizeMax, 0⟩, .bytes usizeMax⟩
  | .unknown => none

/-- One iteration of `fill` (lines 257-260). -/
def fillStep (map : Infos) (k : Kind) : Option Infos := do
  let pair ← calculate map k
  some (map ++ [pair])

/-- `fill` (lines 255-261): the types in arena order. -/
def fill (types : List Kind) : Option Infos := types.foldlM fillStep []

/-- One iteration of `field_offsets` (lines 347-351): the offsets so far and `cur`. -/
def offsetStep (map : Infos) (acc : List ASize × ASize) (ty : Ty) : Option (List ASize × ASize) := do
  let f ← infoOf map ty
  let ret := alignToArch acc.2 f.align
  some (acc.1 ++ [ret], ret.add f.size)

/-- `field_offsets` (lines 340-353). -/
def fieldOffsets (map : Infos) (types : List Ty) : Option (List ASize) := do
  let r ← types.foldlM (offsetStep map) ([], {})
  some r.1

/-- One iteration of the loop of `payload_offset` (lines 361-365). -/
def payloadStep (map : Infos) (acc : Alignment) : Option Ty → Option Alignment
  | none => some acc
  | some ty => do
    let f ← infoOf map ty
    some (acc.max f.align)

/-- `payload_offset` (lines 355-368). -/
def payloadOffset (map : Infos) (tag : Int') (cases : List (Option Ty)) : Option ASize := do
  let maxAlign ← cases.foldlM (payloadStep map) .default
  some (alignToArch (intInfo tag).size maxAlign)

/-! ## abi.rs -/

/-- `enum WasmType` (lines 30-59). -/
inductive WasmType where
  | i32 | i64 | f32 | f64 | pointer | pointerOrI64 | length
  deriving DecidableEq, Repr

/-- `join` (lines 62-101), case by case in the same order. -/
def join : WasmType → WasmType → WasmType
  | .i32, .i32 => .i32
  | .i64, .i64 => .i64
  | .f32, .f32 => .f32
  | .f64, .f64 => .f64
  | .pointer, .pointer => .pointer
  | .pointerOrI64, .pointerOrI64 => .pointerOrI64
  | .length, .length => .length
  | .i32, .f32 => .i32
  | .f32, .i32 => .i32
  | .length, .i32 => .length
  | .length, .f32 => .length
  | .i32, .length => .length
  | .f32, .length => .length
  | .length, .i64 => .i64
  | .length, .f64 => .i64
  | .i64, .length => .i64
  | .f64, .length => .i64
  | .pointer, .i32 => .pointer
  | .pointer, .f32 => .pointer
  | .pointer, .length => .pointer
  | .i32, .pointer => .pointer
  | .f32, .pointer => .pointer
  | .length, .pointer => .pointer
  | .pointer, .i64 => .pointerOrI64
  | .pointer, .f64 => .pointerOrI64
  | .i64, .pointer => .pointerOrI64
  | .f64, .pointer => .pointerOrI64
  | .pointerOrI64, _ => .pointerOrI64
  | _, .pointerOrI64 => .pointerOrI64
  | _, .i64 => .i64
  | _, .f64 => .i64
  | .i64, _ => .i64
  | .f64, _ => .i64

/-- `From<Int> for WasmType` (lines 103-110). -/
def Int'.wasm : Int' → WasmType
  | .u8 | .u16 | .u32 => .i32
  | .u64 => .i64

/-- `struct FlatTypes` (lines 147-151); `types` is the whole slice. -/
structure Flat where
  types : List WasmType
  cur : Nat := 0
  overflow : Bool := false
  deriving DecidableEq, Repr

/-- `FlatTypes::push` (lines 162-174). -/
def Flat.push (f : Flat) (ty : WasmType) : Bool × Flat :=
  if f.cur < f.types.length then (true, { f with types := f.types.set f.cur ty, cur := f.cur + 1 })
  else (false, { f with overflow := true })

/-- `FlatTypes::to_vec` (lines 176-178). -/
def Flat.toVec (f : Flat) : List WasmType := f.types.take f.cur

/-- Something that pushes types: `none` is a panic. -/
abbrev Push := Flat → Option (Bool × Flat)

/-- `a && b`. -/
def Push.and (a b : Push) : Push := fun f =>
  match a f with
  | none => none
  | some (false, f) => some (false, f)
  | some (true, f) => b f

def Push.ty (t : WasmType) : Push := fun f => some (f.push t)

/-- `push_flat_list` (lines 289-295): `Iterator::all`. -/
def pushList : List Push → Push
  | [] => fun f => some (true, f)
  | p :: ps => p.and (pushList ps)

/-- The inner loop of `push_flat_variants` (lines 393-404) from index `i` on. -/
def mergeCase (start : Nat) : Nat → List WasmType → Flat → Bool × Flat
  | _, [], result => (true, result)
  | i, ty :: tys, result =>
    let j := i + start
    if j < result.cur then
      mergeCase start (i + 1) tys
        { result with types := result.types.set j (join (result.types.getD j .i32) ty) }
    else if result.cur = result.types.length then (false, { result with overflow := true })
    else
      mergeCase start (i + 1) tys
        { result with types := result.types.set j ty, cur := result.cur + 1 }

/-- The outer loop of `push_flat_variants` (lines 386-407). -/
def variantLoop (start : Nat) : List (Option Push) → Flat → Push
  | [], _ => fun result => some (true, result)
  | none :: ps, temp => variantLoop start ps temp
  | some p :: ps, temp => fun result =>
    match p temp with
    | none => none
    | some (false, _) => some (false, { result with overflow := true })
    | some (true, temp) =>
      match mergeCase start 0 (temp.types.take temp.cur) result with
      | (false, result) => some (false, result)
      | (true, result) => variantLoop start ps { temp with cur := 0 } result

/-- `push_flat_variants` (lines 371-410). -/
def pushVariants (ps : List (Option Push)) : Push := fun result =>
  variantLoop result.cur ps ⟨result.types.drop result.cur, 0, false⟩ result

/-- `push_flat` (lines 299-369) on the arena `types`. The fuel bounds the depth of the
recursion; without it (a cyclic type) the code overflows the stack. -/
def pushFlat (types : List Kind) : Nat → Ty → Push
  | 0, _ => fun _ => none
  | fuel + 1, ty =>
    match ty with
    | .bool | .s8 | .u8 | .s16 | .u16 | .s32 | .u32 | .char | .errorContext => .ty .i32
    | .u64 | .s64 => .ty .i64
    | .f32 => .ty .f32
    | .f64 => .ty .f64
    | .string => (Push.ty .pointer).and (.ty .length)
    | .id i =>
      match types[i]? with
      | none => fun _ => none
      | some k =>
        match k with
        | .type t => pushFlat types fuel t
        | .handle => .ty .i32
        | .resource => fun _ => none
        | .record fields => pushList (fields.map (pushFlat types fuel))
        | .tuple ts => pushList (ts.map (pushFlat types fuel))
        | .flags n => pushList (List.replicate (flagsRepr n).count (.ty .i32))
        | .list _ => (Push.ty .pointer).and (.ty .length)
        | .map _ _ => (Push.ty .pointer).and (.ty .length)
        | .fixedLengthList t size => pushList (List.replicate size (pushFlat types fuel t))
        | .variant cases =>
          match discriminantType cases.length with
          | none => fun _ => none
          | some tag => (Push.ty tag.wasm).and (pushVariants (cases.map (Option.map (pushFlat types fuel))))
        | .enum n =>
          match discriminantType n with
          | none => fun _ => none
          | some tag => .ty tag.wasm
        | .option t => (Push.ty .i32).and (pushVariants [none, some (pushFlat types fuel t)])
        | .result ok err =>
          (Push.ty .i32).and (pushVariants [ok.map (pushFlat types fuel), err.map (pushFlat types fuel)])
        | .future _ => .ty .i32
        | .stream _ => .ty .i32
        | .unknown => fun _ => none

/-- `enum AbiVariant` (lines 126-134). -/
inductive AbiVariant where
  | guestImport | guestExport | guestImportAsync | guestExportAsync | guestExportAsyncStackful
  deriving DecidableEq, Repr

/-- `MAX_FLAT_PARAMS`, `MAX_FLAT_ASYNC_PARAMS`, `MAX_FLAT_RESULTS` (lines 182-184). -/
def maxFlatParams : Nat := 16
def maxFlatAsyncParams : Nat := 4
def maxFlatResults : Nat := 1

/-- The parts of `Function` (lib.rs lines 937-957) used here; `method` stands for the kinds
`Method` and `AsyncMethod`. -/
structure Func where
  method : Bool
  params : List Ty
  result : Option Ty

/-- `struct WasmSignature` (lines 6-26). -/
structure Sig where
  params : List WasmType
  results : List WasmType
  indirectParams : Bool
  retptr : Bool
  deriving DecidableEq, Repr

/-- `matches!` of lines 211-218. -/
def exportedMethod (v : AbiVariant) (f : Func) : Bool :=
  f.method && (v == .guestExport || v == .guestExportAsync || v == .guestExportAsyncStackful)

/-- The parameters of `wasm_signature` (lines 191-229): the flat types and `indirect_params`. -/
def sigParams (types : List Kind) (fuel : Nat) (v : AbiVariant) (f : Func) : Option (Flat × Bool) :=
  match pushList (f.params.map (pushFlat types fuel)) ⟨List.replicate (maxFlatParams + 1) .i32, 0, false⟩ with
  | none => none
  | some (ok, params) =>
    if ok ≠ !params.overflow then none
    else
      let max := if v = .guestImportAsync then maxFlatAsyncParams else maxFlatParams
      if ok = false ∨ params.cur > max then
        some ({ params with types := params.types.set 0 .pointer, cur := 1 }, true)
      else if exportedMethod v f then
        if params.types.head? = some .i32 then
          some ({ params with types := params.types.set 0 .pointer }, false)
        else none
      else some (params, false)

/-- `assert!(f.push(ty))`. -/
def Flat.assertPush (f : Flat) (ty : WasmType) : Option Flat :=
  match f.push ty with
  | (true, f) => some f
  | (false, _) => none

/-- Pushing the result (lines 235-237); whether it fits is read from `overflow`. -/
def sigResults (types : List Kind) (fuel : Nat) (result : Option Ty) (results : Flat) : Option Flat :=
  match result with
  | none => some results
  | some ty => (pushFlat types fuel ty results).map (·.2)

/-- `wasm_signature` (lines 190-287). -/
def wasmSignature (types : List Kind) (fuel : Nat) (v : AbiVariant) (f : Func) : Option Sig := do
  let (params, indirect) ← sigParams types fuel v f
  let results : Flat := ⟨List.replicate maxFlatResults .i32, 0, false⟩
  match v with
  | .guestImport | .guestExport =>
    let results ← sigResults types fuel f.result results
    if results.overflow then
      let results := { results with cur := 0 }
      if v = .guestImport then
        let params ← params.assertPush .pointer
        some ⟨params.toVec, results.toVec, indirect, true⟩
      else
        let results ← results.assertPush .pointer
        some ⟨params.toVec, results.toVec, indirect, true⟩
    else some ⟨params.toVec, results.toVec, indirect, false⟩
  | .guestImportAsync =>
    if f.result.isSome then
      let params ← params.assertPush .pointer
      let results ← results.assertPush .i32
      some ⟨params.toVec, results.toVec, indirect, true⟩
    else
      let results ← results.assertPush .i32
      some ⟨params.toVec, results.toVec, indirect, false⟩
  | .guestExportAsync =>
    let results ← results.assertPush .i32
    some ⟨params.toVec, results.toVec, indirect, false⟩
  | .guestExportAsyncStackful => some ⟨params.toVec, results.toVec, indirect, false⟩

end Verif.Abi
