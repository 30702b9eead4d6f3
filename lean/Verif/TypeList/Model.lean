import Verif.Types.Model
/-!
# Core types in the validator: canonicalization, interning, subtyping

Sources in `/repo/crates/wasmparser/src`:
* "types.rs": `validator/types.rs`;
* "canonical.rs": `validator/core/canonical.rs`;
* "matches.rs": `readers/core/types/matches.rs`;
* "readers": `readers/core/types.rs`;
* "validator.rs", "core.rs": `validator.rs`, `validator/core.rs`.

`SnapshotList`s are plain lists (justified by C22) and `Map`s are the partial functions they
represent. `CoreTypeId` and `RecGroupId` are their indices. Everything that can panic,
including `debug_assert!`s, integer overflow and failed `unwrap`s, is `Stop.panic`. Offsets of
error messages are left out.
-/
namespace Verif.TypeList
open Verif.Types

/-- How a computation stops early: a panic, an infinite loop, or an `Err`. -/
inductive Stop where
  | panic
  | diverges
  | error (msg : String)
  deriving DecidableEq, Repr

/-- Code that may stop early. -/
abbrev M := Except Stop

/-- `Option::unwrap`, `expect`, and indexing. -/
def unwrap {α : Type} : Option α → M α
  | some x => .ok x
  | none => .error .panic

/-- `assert!` and `debug_assert!`. -/
def assert (b : Bool) : M Unit := if b then .ok () else .error .panic

/-- `u32::try_from(n).unwrap()`, and overflow checks of `u32` arithmetic. -/
def u32 (n : Nat) : M Nat := if n < 2 ^ 32 then .ok n else .error .panic

/-- `bail!` and `require_feature::…`. -/
def require (b : Bool) (msg : String) : M Unit := if b then .ok () else .error (.error msg)

/-! ## Visiting type indices -/

/-- `ValType::remap_indices` (readers 943-962). -/
def remapVal (f : PackedIndex → M PackedIndex) : ValType → M ValType
  | .ref r => match r.typeIndex with
    | some idx => do
      let idx ← f idx
      pure (.ref (if r.isExactTypeRef then RefType.exact r.isNullable idx
        else RefType.concrete r.isNullable idx))
    | none => pure (.ref r)
  | t => pure t

/-- `FieldType::remap_indices` (readers 774-783). -/
def remapField (f : PackedIndex → M PackedIndex) (t : FieldType) : M FieldType :=
  match t.elementType with
  | .val v => do pure { t with elementType := .val (← remapVal f v) }
  | _ => pure t

/-- `if let Some(idx) = &mut … { f(idx)?; }`. -/
def remapOpt (f : PackedIndex → M PackedIndex) : Option PackedIndex → M (Option PackedIndex)
  | some i => do pure (some (← f i))
  | none => pure none

/-- The `match` of `SubType::remap_indices` (readers 534-555); `ContType::remap_indices`
(readers 857-864). -/
def remapInner (f : PackedIndex → M PackedIndex) :
    CompositeInnerType → M CompositeInnerType
  | .func t => do pure (.func { t with paramsResults := ← t.paramsResults.mapM (remapVal f) })
  | .array t => do pure (.array (← remapField f t))
  | .struct fs => do pure (.struct (← fs.mapM (remapField f)))
  | .cont i => do pure (.cont (← f i))

/-- `SubType::remap_indices` (readers 521-557). -/
def remapSub (f : PackedIndex → M PackedIndex) (t : SubType) : M SubType := do
  let supertypeIdx ← remapOpt f t.supertypeIdx
  let descriptorIdx ← remapOpt f t.compositeType.descriptorIdx
  let describesIdx ← remapOpt f t.compositeType.describesIdx
  let inner ← remapInner f t.compositeType.inner
  pure { t with supertypeIdx, compositeType :=
    { t.compositeType with inner, descriptorIdx, describesIdx } }

/-! ## The list of types -/

/-- `struct TypeList` (types.rs 869-897), core part. A `RecGroup` key is compared by its types
only (readers 423-429), so the key is the list of types. -/
structure TypeList where
  coreTypes : List SubType
  coreTypeToRecGroup : List Nat
  coreTypeToSupertype : List (Option Nat)
  coreTypeToDepth : Nat → Option Nat
  recGroupElements : List (Nat × Nat)
  canonicalRecGroups : List SubType → Option Nat

/-- `TypeAlloc::default` (types.rs 1328-1338). -/
def TypeList.default : TypeList := ⟨[], [], [], fun _ => none, [], fun _ => none⟩

/-- The closure given to `remap_indices` in `intern_canonical_rec_group` (types.rs 968-978). -/
def localToId (start : Nat) (p : PackedIndex) : M PackedIndex := do
  match ← unwrap p.unpack with
  | .recGroup offset =>
    let id ← u32 (start + offset.toNat)
    unwrap (UnpackedIndex.id (BitVec.ofNat 32 id)).pack
  | _ => pure p

/-- What is pushed onto `core_type_to_supertype` (types.rs 958-967). -/
def supertypeId (start : Nat) : Option PackedIndex → M (Option Nat)
  | none => pure none
  | some idx => do
    match ← unwrap idx.unpack with
    | .recGroup offset => do pure (some (← u32 (start + offset.toNat)))
    | .id id => pure (some id.toNat)
    | .module _ => pure none

/-- The loop of `intern_canonical_rec_group` (types.rs 954-982). -/
def internTypes (start recGroupId : Nat) : TypeList → List SubType → M TypeList
  | T, [] => pure T
  | T, ty :: rest => do
    assert (T.coreTypes.length == T.coreTypeToSupertype.length)
    assert (T.coreTypes.length == T.coreTypeToRecGroup.length)
    let sup ← supertypeId start ty.supertypeIdx
    let ty ← remapSub (localToId start) ty
    internTypes start recGroupId
      { T with
        coreTypeToSupertype := T.coreTypeToSupertype ++ [sup]
        coreTypes := T.coreTypes ++ [ty]
        coreTypeToRecGroup := T.coreTypeToRecGroup ++ [recGroupId] } rest

/-- The part of `intern_canonical_rec_group` after the lookup (types.rs 950-992). -/
def internNew (T : TypeList) (recGroupId : Nat) (g : List SubType) :
    M ((Bool × Nat) × TypeList) := do
  let start ← u32 T.coreTypes.length
  let T ← internTypes start recGroupId T g
  let stop ← u32 T.coreTypes.length
  pure ((true, recGroupId), { T with recGroupElements := T.recGroupElements ++ [(start, stop)] })

/-- `intern_canonical_rec_group` (types.rs 928-993). The list is not committed, so the map
of groups is there. -/
def internCanonicalRecGroup (T : TypeList) (needs : Bool) (g : List SubType) :
    M ((Bool × Nat) × TypeList) := do
  let recGroupId ← u32 T.recGroupElements.length
  if needs then
    match T.canonicalRecGroups g with
    | some id => pure ((false, id), T)
    | none =>
      internNew { T with canonicalRecGroups :=
        fun x => if x = g then some recGroupId else T.canonicalRecGroups x } recGroupId g
  else internNew T recGroupId g

/-- `rec_group_local_id` (types.rs 1010-1029). -/
def recGroupLocalId (T : TypeList) (recGroup : Nat) (index : Nat) : M Nat := do
  let elems ← unwrap T.recGroupElements[recGroup]?
  if index < elems.2 - elems.1 then u32 (elems.1 + index)
  else .error (.error "unknown type: type index out of rec group bounds")

/-- `rec_group_id_of` (types.rs 1032-1034). -/
def recGroupIdOf (T : TypeList) (id : Nat) : M Nat := unwrap T.coreTypeToRecGroup[id]?

/-- `supertype_of` (types.rs 1037-1039). -/
def supertypeOf (T : TypeList) (id : Nat) : M (Option Nat) := unwrap T.coreTypeToSupertype[id]?

/-- `MAX_WASM_SUBTYPING_DEPTH` (limits.rs line 43). -/
def maxSubtypingDepth : Nat := 63

/-- `get_subtyping_depth` (types.rs 1043-1050). -/
def getSubtypingDepth (T : TypeList) (id : Nat) : M Nat := do
  let depth ← unwrap (T.coreTypeToDepth id)
  assert (decide (depth ≤ maxSubtypingDepth))
  pure depth

/-- `set_subtyping_depth` (types.rs 1054-1062). -/
def setSubtypingDepth (T : TypeList) (id depth : Nat) : M TypeList := do
  assert (decide (depth ≤ maxSubtypingDepth))
  assert (!(T.coreTypeToDepth id).isSome)
  pure { T with coreTypeToDepth := fun x => if x = id then some depth else T.coreTypeToDepth x }

/-- `Index` on a `CoreTypeId` (types.rs 1308-1318). -/
def typeAt (T : TypeList) (id : Nat) : M SubType := unwrap T.coreTypes[id]?

/-! ## Subtyping -/

/-- `AbstractHeapType::is_subtype_of` (readers 1679-1704). -/
def absIsSubtypeOf (a b : AbsHeap) : Bool :=
  if a = b then true
  else match a, b with
    | .eq, .any | .i31, .any | .struct, .any | .array, .any | .none, .any => true
    | .i31, .eq | .struct, .eq | .array, .eq | .none, .eq => true
    | .noExtern, .extern => true
    | .noFunc, .func => true
    | .none, .i31 | .none, .array | .none, .struct => true
    | .noExn, .exn => true
    | .noCont, .cont => true
    | _, _ => false

/-- The loop of `id_is_subtype` (types.rs 1105-1118). The fuel is one more than the number of
types: a walk that is longer visits some type twice, and then never ends. -/
def idIsSubtypeLoop (T : TypeList) (b : Nat) : Nat → Nat → M Bool
  | 0, _ => .error .diverges
  | fuel + 1, a =>
    if a = b then pure true
    else do
      match ← supertypeOf T a with
      | some a => idIsSubtypeLoop T b fuel a
      | none => pure false

/-- `id_is_subtype` (types.rs 1105-1118). -/
def idIsSubtype (T : TypeList) (a b : Nat) : M Bool :=
  idIsSubtypeLoop T b (T.coreTypes.length + 1) a

/-- `at_canonicalized_unpacked_index` (types.rs 1079-1090). -/
def atCanonicalizedUnpackedIndex (T : TypeList) (recGroup : Nat) : UnpackedIndex → M Nat
  | .module _ => .error .panic
  | .id i => pure i.toNat
  | .recGroup i => recGroupLocalId T recGroup i.toNat

/-- The closure `core_type_id` of `reftype_is_subtype_impl` (types.rs 1150-1157): the `expect`
turns an error into a panic. -/
def coreTypeId (T : TypeList) (group : Option Nat) : UnpackedIndex → M Nat
  | .id i => pure i.toNat
  | idx => do
    let g ← unwrap group
    match atCanonicalizedUnpackedIndex T g idx with
    | .error (.error _) => .error .panic
    | r => r

/-- The composite type found by the closure `subtype` (types.rs 1159-1162). -/
def compositeOf (T : TypeList) (group : Option Nat) (idx : UnpackedIndex) :
    M CompositeType := do
  pure (← typeAt T (← coreTypeId T group idx)).compositeType

/-- The inner `match` for a concrete type below an abstract one (types.rs 1187-1196). -/
def concreteBelow (inner : CompositeInnerType) (ty : AbsHeap) : Bool :=
  match ty, inner with
  | .any, .array _ | .any, .struct _ | .eq, .array _ | .eq, .struct _ => true
  | .struct, .struct _ => true
  | .array, .array _ => true
  | .func, .func _ => true
  | .cont, .cont _ => true
  | _, _ => false

/-- The inner `match` for an abstract type below a concrete one (types.rs 1205-1213). -/
def concreteAbove (inner : CompositeInnerType) (ty : AbsHeap) : Bool :=
  match ty, inner with
  | .none, .array _ | .none, .struct _ => true
  | .noFunc, .func _ => true
  | .noCont, .cont _ => true
  | _, _ => false

/-- `reftype_is_subtype_impl` (types.rs 1135-1224). -/
def reftypeIsSubtypeImpl (T : TypeList) (a : RefType) (aGroup : Option Nat) (b : RefType)
    (bGroup : Option Nat) : M Bool :=
  if a = b ∧ aGroup = bGroup then pure true
  else if a.isNullable && !b.isNullable then pure false
  else do
    let ah ← unwrap a.heapType
    let bh ← unwrap b.heapType
    if ah = bh then pure true
    else match ah, bh with
      | .abstract aShared aTy, .abstract bShared bTy =>
        pure (aShared == bShared && absIsSubtypeOf aTy bTy)
      | .concrete a, .abstract shared ty | .exact a, .abstract shared ty => do
        let aTy ← compositeOf T aGroup a
        if aTy.shared != shared then pure false else pure (concreteBelow aTy.inner ty)
      | .abstract shared ty, .concrete b | .abstract shared ty, .exact b => do
        let bTy ← compositeOf T bGroup b
        if shared != bTy.shared then pure false else pure (concreteAbove bTy.inner ty)
      | .concrete a, .concrete b | .exact a, .concrete b => do
        idIsSubtype T (← coreTypeId T aGroup a) (← coreTypeId T bGroup b)
      | .exact a, .exact b => do
        pure ((← coreTypeId T aGroup a) == (← coreTypeId T bGroup b))
      | .concrete _, .exact _ => pure false

/-- `reftype_is_subtype` (types.rs 1123-1128). -/
def reftypeIsSubtype (T : TypeList) (a b : RefType) : M Bool :=
  reftypeIsSubtypeImpl T a none b none

/-- `valtype_is_subtype` (types.rs 1229-1240). -/
def valtypeIsSubtype (T : TypeList) (a b : ValType) : M Bool :=
  if a = b then pure true
  else match a, b with
    | .ref a, .ref b => reftypeIsSubtype T a b
    | _, _ => pure false

/-- `reftype_is_shared` (types.rs 1254-1261). -/
def reftypeIsShared (T : TypeList) (t : RefType) : M Bool := do
  match ← unwrap t.heapType with
  | .abstract shared _ => pure shared
  | .concrete (.id i) | .exact (.id i) => do pure (← typeAt T i.toNat).compositeType.shared
  | _ => .error .panic

/-- `valtype_is_shared` (types.rs 1243-1248). -/
def valtypeIsShared (T : TypeList) : ValType → M Bool
  | .ref r => reftypeIsShared T r
  | _ => pure true

/-- The abstract part of `top_type` (types.rs 1282-1288). -/
def absTop : AbsHeap → AbsHeap
  | .func | .noFunc => .func
  | .extern | .noExtern => .extern
  | .any | .eq | .struct | .array | .i31 | .none => .any
  | .exn | .noExn => .exn
  | .cont | .noCont => .cont

/-- `top_type` (types.rs 1267-1292). -/
def topType (T : TypeList) : HeapType → M HeapType
  | .abstract shared ty => pure (.abstract shared (absTop ty))
  | .concrete (.id i) | .exact (.id i) => do
    let ty := (← typeAt T i.toNat).compositeType
    match ty.inner with
    | .func _ => pure (.abstract ty.shared .func)
    | .array _ | .struct _ => pure (.abstract ty.shared .any)
    | .cont _ => pure (.abstract ty.shared .cont)
  | _ => .error .panic

/-! ## Structural matching -/

/-- `&&` whose right side may stop. -/
def andM (a : M Bool) (b : M Bool) : M Bool := do if ← a then b else pure false

/-- `iter().all(…)`. -/
def allM {α : Type} (p : α → M Bool) : List α → M Bool
  | [] => pure true
  | x :: xs => andM (p x) (allM p xs)

/-- `Matches` for `ValType` and `RefType` (matches.rs 295-321). -/
def matchVal (T : TypeList) (a : ValType) (ag : Nat) (b : ValType) (bg : Nat) : M Bool :=
  match a, b with
  | .ref ra, .ref rb => reftypeIsSubtypeImpl T ra (some ag) rb (some bg)
  | .ref _, _ => pure false
  | a, b => pure (a == b)

/-- `Matches` for `StorageType` (matches.rs 262-277). -/
def matchStorage (T : TypeList) (a : StorageType) (ag : Nat) (b : StorageType) (bg : Nat) :
    M Bool :=
  match a, b with
  | .i8, .i8 | .i16, .i16 => pure true
  | .val va, .val vb => matchVal T va ag vb bg
  | _, _ => pure false

/-- `Matches` for `FieldType` (matches.rs 234-260). -/
def matchField (T : TypeList) (a : FieldType) (ag : Nat) (b : FieldType) (bg : Nat) :
    M Bool := do
  if !(← matchStorage T a.elementType ag b.elementType bg) then pure false
  else if !a.mutable && !b.mutable then pure true
  else if a.mutable && b.mutable then matchStorage T b.elementType bg a.elementType ag
  else pure false

/-- `Matches` for `FuncType` (matches.rs 142-208). -/
def matchFunc (T : TypeList) (a : FuncType) (ag : Nat) (b : FuncType) (bg : Nat) : M Bool :=
  if a.params.length ≠ b.params.length ∨ a.results.length ≠ b.results.length then pure false
  else andM
    (allM (fun p => matchVal T p.2 bg p.1 ag) (a.params.zip b.params))
    (allM (fun p => matchVal T p.1 ag p.2 bg) (a.results.zip b.results))

/-- `Matches` for `StructType` (matches.rs 220-232). -/
def matchStruct (T : TypeList) (a : List FieldType) (ag : Nat) (b : List FieldType)
    (bg : Nat) : M Bool :=
  if b.length ≤ a.length then allM (fun p => matchField T p.1 ag p.2 bg) (a.zip b)
  else pure false

/-- `Matches` for `ContType` (matches.rs 279-293). -/
def matchCont (T : TypeList) (a : PackedIndex) (ag : Nat) (b : PackedIndex) (bg : Nat) :
    M Bool :=
  if a = b then pure true
  else reftypeIsSubtypeImpl T (RefType.concrete false a) (some ag)
    (RefType.concrete false b) (some bg)

/-- `Matches` for `CompositeType` (matches.rs 104-140). -/
def matchComposite (T : TypeList) (a : CompositeType) (ag : Nat) (b : CompositeType)
    (bg : Nat) : M Bool :=
  if a.shared ≠ b.shared then pure false
  else match a.inner, b.inner with
    | .func fa, .func fb => matchFunc T fa ag fb bg
    | .array aa, .array ab => matchField T aa ag ab bg
    | .struct sa, .struct sb => matchStruct T sa ag sb bg
    | .cont ca, .cont cb => matchCont T ca ag cb bg
    | _, _ => pure false

/-- `TypeList::matches` (types.rs 1093-1101). -/
def matchIds (T : TypeList) (a b : Nat) : M Bool := do
  let ag ← recGroupIdOf T a
  let at' ← typeAt T a
  let bg ← recGroupIdOf T b
  let bt ← typeAt T b
  matchComposite T at'.compositeType ag bt.compositeType bg

/-! ## Adding recursion groups to a module -/

/-- The feature flags that matter for type definitions (`WasmFeatures`). `otherSlow` stands for
the flags outside of `FAST_VALIDATION_FEATURES` that are not listed. -/
structure Features where
  floats : Bool
  simd : Bool
  referenceTypes : Bool
  functionReferences : Bool
  gc : Bool
  gcTypes : Bool
  exceptions : Bool
  stackSwitching : Bool
  sharedEverythingThreads : Bool
  customDescriptors : Bool
  multiValue : Bool
  otherSlow : Bool
  deriving DecidableEq, Repr

/-- `needs_type_canonicalization` (features.rs 456-485). -/
def Features.needsTypeCanonicalization (f : Features) : Bool :=
  f.functionReferences || f.gc || f.exceptions || f.stackSwitching ||
    f.sharedEverythingThreads || f.customDescriptors || f.otherSlow

/-- `WasmFeatures::check_ref_type` (validator.rs 250-338). -/
def checkRefType (f : Features) (r : RefType) : M Unit := do
  require f.referenceTypes "reference types support is not enabled"
  match ← unwrap r.heapType with
  | .concrete _ =>
    if f.gc then pure ()
    else require f.functionReferences "function references required for index reference types"
  | .exact _ =>
    require f.customDescriptors "custom descriptors required for exact reference types"
  | .abstract shared ty =>
    if shared then
      require f.sharedEverythingThreads
        "shared reference types require the shared-everything-threads proposal"
    if ty ≠ .func ∧ ty ≠ .exn then
      require f.gcTypes "gc types are disallowed but found type which requires gc"
    match ty with
    | .func | .extern =>
      if r.isNullable then pure ()
      else require f.functionReferences "function references required for non-nullable types"
    | .any | .none | .eq | .struct | .array | .i31 | .noExtern | .noFunc =>
      require f.gc "heap types not supported without the gc feature"
    | .exn | .noExn =>
      require f.exceptions "exception refs not supported without the exception handling feature"
    | .cont | .noCont =>
      require f.stackSwitching
        "continuation refs not supported without the stack switching feature"

/-- `WasmFeatures::check_value_type` (validator.rs 239-248). -/
def checkValueType (f : Features) : ValType → M Unit
  | .i32 | .i64 => pure ()
  | .f32 | .f64 => require f.floats "floating-point support is disabled"
  | .ref r => checkRefType f r
  | .v128 => require f.simd "SIMD support is not enabled"

/-- The closure `check` of `check_composite_type` (canonical.rs 293-307). -/
def checkVal (f : Features) (T : TypeList) (shared : Bool) (t : ValType) : M Unit := do
  checkValueType f t
  if shared then
    if !(← valtypeIsShared T t) then
      .error (.error "shared composite type must contain shared types")

/-- The check of one field's storage type (canonical.rs 339-344, 358-363). -/
def checkStorage (f : Features) (T : TypeList) (shared : Bool) : StorageType → M Unit
  | .i8 | .i16 => pure ()
  | .val v => checkVal f T shared v

/-- A `for` loop whose body may stop. -/
def forM' {α : Type} (g : α → M Unit) : List α → M Unit
  | [] => pure ()
  | x :: xs => do g x; forM' g xs

/-- `check_composite_type` (canonical.rs 286-386). -/
def checkCompositeType (f : Features) (T : TypeList) (ty : CompositeType) : M Unit := do
  if ty.shared then
    require f.sharedEverythingThreads
      "shared composite types require the shared-everything-threads proposal"
  match ty.inner with
  | .func t =>
    forM' (checkVal f T ty.shared) (t.params ++ t.results)
    if 1 < t.results.length then
      require f.multiValue
        "func type returns multiple values but the multi-value feature is not enabled"
  | .array t =>
    require f.gc "array indexed types not supported without the gc feature"
    require f.gcTypes "cannot define array types when gc types are disabled"
    checkStorage f T ty.shared t.elementType
  | .struct fs =>
    require f.gc "struct indexed types not supported without the gc feature"
    require f.gcTypes "cannot define struct types when gc types are disabled"
    forM' (fun t => checkStorage f T ty.shared t.elementType) fs
  | .cont i =>
    require f.stackSwitching
      "cannot define continuation types when stack switching is disabled"
    require f.gcTypes "cannot define continuation types when gc types are disabled"
    match ← unwrap i.unpack with
    | .id id =>
      match (← typeAt T id.toNat).compositeType.inner with
      | .func _ => pure ()
      | _ => .error (.error "non-function type")
    | _ => .error .panic

/-- `type_id_at` of `Module` (core.rs 1015-1020). -/
def typeIdAt (m : List Nat) (idx : Nat) : M Nat :=
  match m[idx]? with
  | some id => pure id
  | none => .error (.error "unknown type: type index out of bounds")

/-- `at_packed_index` (canonical.rs 388-400). -/
def atPackedIndex (m : List Nat) (T : TypeList) (recGroup : Nat) (index : PackedIndex) :
    M Nat := do
  match ← unwrap index.unpack with
  | .id id => pure id.toNat
  | .module idx => typeIdAt m idx.toNat
  | .recGroup idx => recGroupLocalId T recGroup idx.toNat

/-- `check_subtype` (canonical.rs 126-169). -/
def checkSubtype (f : Features) (m : List Nat) (T : TypeList) (recGroup id : Nat) :
    M TypeList := do
  let ty ← typeAt T id
  if !ty.isFinal || ty.supertypeIdx.isSome then
    require f.gc "gc proposal must be enabled to use subtypes"
  checkCompositeType f T ty.compositeType
  match ty.supertypeIdx with
  | some supertypeIndex =>
    assert (← unwrap supertypeIndex.isCanonical)
    let supId ← atPackedIndex m T recGroup supertypeIndex
    if (← typeAt T supId).isFinal then
      .error (.error "sub type cannot have a final super type")
    if !(← matchIds T id supId) then
      .error (.error "sub type must match super type")
    let depth := (← getSubtypingDepth T supId) + 1
    if maxSubtypingDepth < depth then
      .error (.error "sub type hierarchy too deep")
    setSubtypingDepth T id depth
  | none => setSubtypingDepth T id 0

/-- `Some(map_canonical(i)?)` or `None` (canonical.rs 204-213). -/
def mapCanonicalOpt (m : List Nat) (T : TypeList) (recGroup : Nat) :
    Option PackedIndex → M (Option Nat)
  | some i => do pure (some (← atPackedIndex m T recGroup i))
  | none => pure none

/-- `a.is_none() || map_canonical(a.unwrap())? != map_canonical(b)?` (canonical.rs 220-224,
245-246). -/
def differs (m : List Nat) (T : TypeList) (recGroup : Nat) (b : PackedIndex) :
    Option PackedIndex → M Bool
  | none => pure true
  | some a => do pure ((← atPackedIndex m T recGroup a) != (← atPackedIndex m T recGroup b))

/-- `bail!` if a condition holds. -/
def bailIf (b : Bool) (msg : String) : M Unit := require (!b) msg

/-- The check of the descriptor of a type with a supertype (canonical.rs 218-237). -/
def checkSuperDescriptor (m : List Nat) (T : TypeList) (recGroup : Nat) (sup : SubType) :
    Option Nat → M Unit
  | some d =>
    match sup.compositeType.descriptorIdx with
    | some sd => do
      bailIf (← differs m T recGroup sd (← typeAt T d).supertypeIdx)
        "supertype of described type must be described by supertype of descriptor"
    | none => pure ()
  | none => bailIf sup.compositeType.descriptorIdx.isSome
      "supertype of type without descriptor cannot have descriptor"

/-- The check of the described type of a type with a supertype (canonical.rs 238-260). -/
def checkSuperDescribes (m : List Nat) (T : TypeList) (recGroup : Nat) (ty sup : SubType) :
    M Unit :=
  match ty.compositeType.describesIdx, sup.compositeType.describesIdx with
  | some a, some b => do
    let aId ← atPackedIndex m T recGroup a
    bailIf (← differs m T recGroup b (← typeAt T aId).supertypeIdx)
      "supertype of descriptor does not match"
  | none, none => pure ()
  | none, some _ => bailIf true "supertype of non-descriptor type cannot be a descriptor"
  | some _, none => bailIf true "supertype of descriptor must be a descriptor"

/-- The part of `check_descriptors` for a type with a supertype (canonical.rs 215-261). -/
def checkSuperDescriptors (m : List Nat) (T : TypeList) (recGroup : Nat) (ty : SubType)
    (descriptorIdx : Option Nat) : M Unit :=
  match ty.supertypeIdx with
  | some supertypeIndex => do
    assert (← unwrap supertypeIndex.isCanonical)
    let supId ← atPackedIndex m T recGroup supertypeIndex
    let sup ← typeAt T supId
    checkSuperDescriptor m T recGroup sup descriptorIdx
    checkSuperDescribes m T recGroup ty sup
  | none => pure ()

/-- The clauses are allowed (canonical.rs 178-198). -/
def checkClauses (f : Features) (ty : CompositeType) : M Unit :=
  if ty.descriptorIdx.isSome || ty.describesIdx.isSome then do
    require f.customDescriptors
      "custom descriptors proposal must be enabled to use descriptor and describes"
    match ty.inner with
    | .struct _ => pure ()
    | _ => .error (.error "descriptor or describes clause on non-struct type")
  else pure ()

/-- The type in a clause has the inverse clause (canonical.rs 262-272 and 273-283). -/
def checkBack (m : List Nat) (T : TypeList) (recGroup id : Nat)
    (clause : CompositeType → Option PackedIndex) : Option Nat → M Unit
  | some d => do
    let back ← mapCanonicalOpt m T recGroup (clause (← typeAt T d).compositeType)
    bailIf (back != some id) "descriptor/describes with no matching describes/descriptor"
  | none => pure ()

/-- `check_descriptors` (canonical.rs 171-284). -/
def checkDescriptors (f : Features) (m : List Nat) (T : TypeList) (recGroup id : Nat) :
    M Unit := do
  let sub ← typeAt T id
  let ty := sub.compositeType
  checkClauses f ty
  let descriptorIdx ← mapCanonicalOpt m T recGroup ty.descriptorIdx
  let describesIdx ← mapCanonicalOpt m T recGroup ty.describesIdx
  checkSuperDescriptors m T recGroup sub descriptorIdx
  checkBack m T recGroup id (·.describesIdx) descriptorIdx
  checkBack m T recGroup id (·.descriptorIdx) describesIdx

/-- `canonicalize_type_index` (canonical.rs 478-551) in the mode `HashConsing`, which is the
only one used. -/
def canonicalizeTypeIndex (f : Features) (m : List Nat) (recGroupStart recGroupLen : Nat)
    (p : PackedIndex) : M PackedIndex := do
  match ← unwrap p.unpack with
  | .id _ => pure p
  | .module index =>
    if index.toNat < recGroupStart then
      let id ← typeIdAt m index.toNat
      match PackedIndex.fromId (BitVec.ofNat 32 id) with
      | some p => pure p
      | none => .error (.error "implementation limit: too many types in `TypeList`")
    else do
      assert (f.gc || recGroupLen == 1)
      let local' := index.toNat - recGroupStart
      if local' < recGroupLen then
        if f.gc then
          match PackedIndex.fromRecGroupIndex (BitVec.ofNat 32 local') with
          | some p => pure p
          | none =>
            .error (.error "implementation limit: too many types in a recursion group")
        else .error (.error
          "unknown type: type index out of bounds because the GC proposal is disabled")
      else .error (.error "unknown type: type index out of bounds")
  | .recGroup _ => pure p

/-- `sup.as_module_index().map_or(false, |i| i >= type_index)` (canonical.rs 462, 468). -/
def isForward (typeIndex : Nat) : Option PackedIndex → M Bool
  | none => pure false
  | some p => do
    match ← unwrap p.unpack with
    | .module i => pure (decide (typeIndex ≤ i.toNat))
    | _ => pure false

/-- The loop of `canonicalize_rec_group` (canonical.rs 456-473). -/
def canonicalizeTypes (f : Features) (m : List Nat) (recGroupStart recGroupLen : Nat) :
    Nat → List SubType → M (List SubType)
  | _, [] => pure []
  | localIndex, ty :: rest => do
    let typeIndex ← u32 (recGroupStart + localIndex)
    if ← isForward typeIndex ty.supertypeIdx then
      .error (.error "supertypes must be defined before subtypes")
    if ← isForward typeIndex ty.compositeType.describesIdx then
      .error (.error "forward describes reference")
    let ty ← remapSub (canonicalizeTypeIndex f m recGroupStart recGroupLen) ty
    let rest ← canonicalizeTypes f m recGroupStart recGroupLen (localIndex + 1) rest
    pure (ty :: rest)

/-- `canonicalize_rec_group` (canonical.rs 449-476). -/
def canonicalizeRecGroup (f : Features) (m : List Nat) (g : List SubType) :
    M (List SubType) := do
  let start ← u32 m.length
  let len ← u32 g.length
  canonicalizeTypes f m start len 0 g

/-- The loop of `canonicalize_and_intern_rec_group` (canonical.rs 112-121). -/
def addIds (f : Features) (isNew : Bool) (recGroupId : Nat) :
    List Nat → TypeList → List Nat → M (TypeList × List Nat)
  | [], T, m => pure (T, m)
  | i :: is, T, m => do
    let id ← u32 i
    assert (T.coreTypes[id]?).isSome
    let m := m ++ [id]
    if isNew then
      let T ← checkSubtype f m T recGroupId id
      checkDescriptors f m T recGroupId id
      addIds f isNew recGroupId is T m
    else addIds f isNew recGroupId is T m

/-- `canonicalize_and_intern_rec_group` (canonical.rs 86-124); `m` is `Module::types`. -/
def canonicalizeAndIntern (f : Features) (T : TypeList) (m : List Nat) (g : RecGroup) :
    M (TypeList × List Nat) := do
  assert (g.isExplicit || g.types.length == 1)
  if g.isExplicit then
    require f.gc "rec group usage requires `gc` proposal to be enabled"
  let types ← if f.needsTypeCanonicalization then canonicalizeRecGroup f m g.types
    else pure g.types
  let ((isNew, recGroupId), T) ← internCanonicalRecGroup T f.needsTypeCanonicalization types
  let range ← unwrap T.recGroupElements[recGroupId]?
  addIds f isNew recGroupId (List.range' range.1 (range.2 - range.1)) T m

/-- `Module::add_types` with `check_limit` (core.rs 511-528). -/
def addTypes (f : Features) (T : TypeList) (m : List Nat) (g : RecGroup) :
    M (TypeList × List Nat) := do
  require (decide (m.length ≤ maxWasmTypes ∧ g.types.length ≤ maxWasmTypes - m.length))
    "types count exceeds limit"
  canonicalizeAndIntern f T m g

/-! ## Histories -/

/-- What a validator does with types: start a module, or add a recursion group to one. -/
inductive Op where
  | newModule
  | add (module : Nat) (g : RecGroup)

/-- The types of all modules seen so far, with the list they share. -/
structure State where
  types : TypeList
  modules : List (List Nat)

/-- One step. -/
def step (f : Features) (s : State) : Op → M State
  | .newModule => pure { s with modules := s.modules ++ [[]] }
  | .add h g => do
    let m ← unwrap s.modules[h]?
    let (types, m) ← addTypes f s.types m g
    pure { types, modules := s.modules.set h m }

/-- A history from the empty validator; it stops at the first error. -/
def run (f : Features) (s : State) : List Op → M State
  | [] => pure s
  | op :: ops => do run f (← step f s op) ops

/-- The beginning. -/
def State.init : State := ⟨.default, []⟩

end Verif.TypeList
