import Verif.Op.Locals
import Verif.Instr.Stack
/-! The operator validator: its state, the operand and control stacks and the helpers that the
`visit_*` methods share (crates/wasmparser/src/validator/operators.rs, resources.rs).

Types are in canonicalized form (`Val`, `Ref`, `Heap`). Error messages and offsets are left
out. `popped_types_tmp` is scratch space that is empty between calls, and `pop_push_log` exists
in debug builds only; neither is modelled. Lists that stand for the stacks have the top first. -/
namespace Verif.Op
open Verif.Std
open Verif.Types (AbsHeap UnpackedIndex HeapType RefType ValType)
open Verif.Instr (FrameKind BlockType MemArg Catch Handle)
open Verif.TypeList.Spec (Field Storage Comp SubT)

/-- Why a call did not succeed: an error, or a panic. -/
inductive Fail where
  | error | panic
  deriving DecidableEq, Repr

/-- `WasmFeatures` (crates/wasmparser/src/features.rs), the ones that function bodies depend
on. -/
structure Features where
  floats : Bool
  multiValue : Bool
  saturatingFloatToInt : Bool
  signExtension : Bool
  referenceTypes : Bool
  bulkMemory : Bool
  bulkMemoryOpt : Bool
  simd : Bool
  relaxedSimd : Bool
  threads : Bool
  sharedEverythingThreads : Bool
  tailCall : Bool
  exceptions : Bool
  functionReferences : Bool
  memoryControl : Bool
  gc : Bool
  gcTypes : Bool
  legacyExceptions : Bool
  stackSwitching : Bool
  wideArithmetic : Bool
  customDescriptors : Bool
  otherSlow : Bool
  deriving DecidableEq, Repr

/-- The same flags for the checks of types. -/
def Features.types (f : Features) : TypeList.Features where
  floats := f.floats
  simd := f.simd
  referenceTypes := f.referenceTypes
  functionReferences := f.functionReferences
  gc := f.gc
  gcTypes := f.gcTypes
  exceptions := f.exceptions
  stackSwitching := f.stackSwitching
  sharedEverythingThreads := f.sharedEverythingThreads
  customDescriptors := f.customDescriptors
  multiValue := f.multiValue
  otherSlow := f.otherSlow

/-- `struct FuncType`, canonicalized (readers/core/types.rs lines 646-651). -/
structure FuncTy where
  params : List Val
  results : List Val
  deriving DecidableEq, Repr

/-- `struct TableType` (readers/core/types.rs lines 1930-1951); the limits do not matter. -/
structure TableTy where
  elem : Ref
  table64 : Bool
  shared : Bool
  deriving DecidableEq, Repr

/-- The `index_type` of tables and memories (readers/core/types.rs lines 1955-1961 and
2006-2012). -/
def indexType (is64 : Bool) : Val := if is64 then .i64 else .i32

/-- `struct GlobalType` (readers/core/types.rs lines 2032-2039). -/
structure GlobalTy where
  content : Val
  mutable : Bool
  shared : Bool
  deriving DecidableEq, Repr

/-- `trait WasmModuleResources` (resources.rs lines 29-125): what the validator asks about the
module. `sub_type_at_id` is `none` where it panics, `memory_at` says whether the memory has 64
bit addresses. -/
structure Resources where
  tableAt : BitVec 32 → Option TableTy
  memoryAt : BitVec 32 → Option Bool
  tagAt : BitVec 32 → Option FuncTy
  globalAt : BitVec 32 → Option GlobalTy
  subTypeAt : BitVec 32 → Option (SubT Nat)
  subTypeAtId : Nat → Option (SubT Nat)
  typeIdOfFunction : BitVec 32 → Option Nat
  typeIndexOfFunction : BitVec 32 → Option (BitVec 32)
  elementTypeAt : BitVec 32 → Option Ref
  isSubtype : Val → Val → Bool
  isShared : Ref → Bool
  checkHeapType : HeapType → Except Fail Heap
  topType : Heap → Heap
  dataCount : Option (BitVec 32)
  isFunctionReferenced : BitVec 32 → Bool
  hasFunctionExactType : BitVec 32 → Bool

/-- The parameters of all functions below: features, resources, and the standard library's
binary search. -/
structure Env where
  f : Features
  R : Resources
  bs : BSearch

/-- `RefType::new` on a canonicalized heap type (readers/core/types.rs lines 1269-1295): an id
must fit in twenty bits (C11). -/
def mkRef (nullable : Bool) (h : Heap) : Option Ref :=
  match h with
  | .abs .. => some ⟨nullable, h⟩
  | .concrete i | .exact i => if i < 2 ^ 20 then some ⟨nullable, h⟩ else none

/-- `enum MaybeType` (lines 259-279). -/
inductive MT where
  | bottom
  | unknownRef (ty : Option AbsHeap)
  | known (ty : Val)
  deriving DecidableEq, Repr

/-- `MaybeType<RefType>`. -/
inductive MR where
  | bottom
  | unknownRef (ty : Option AbsHeap)
  | known (ty : Ref)
  deriving DecidableEq, Repr

/-- `From<MaybeType<RefType>> for MaybeType<ValType>` (lines 318-326). -/
def MR.toMT : MR → MT
  | .bottom => .bottom
  | .unknownRef t => .unknownRef t
  | .known r => .known (.ref r)

/-- `RefType::as_non_null` (readers/core/types.rs lines 1379-1381). -/
def asNonNull (r : Ref) : Ref := { r with nullable := false }
/-- `RefType::nullable` (readers/core/types.rs lines 1384-1386). -/
def asNullable (r : Ref) : Ref := { r with nullable := true }

/-- `MaybeType::<RefType>::as_non_null` (lines 329-335). -/
def MR.asNonNull : MR → MR
  | .bottom => .bottom
  | .unknownRef t => .unknownRef t
  | .known r => .known (Op.asNonNull r)

/-- `is_maybe_shared` (lines 337-343). -/
def MR.isMaybeShared (R : Resources) : MR → Option Bool
  | .bottom => none
  | .unknownRef _ => none
  | .known r => some (R.isShared r)

/-- The block type of a frame: a `BlockType` after `check_block_type`. -/
inductive BT where
  | empty
  | type (ty : Val)
  | func (i : BitVec 32)
  deriving DecidableEq, Repr

/-- `struct Frame` (lines 221-233). -/
structure Frame where
  kind : FrameKind
  blockType : BT
  height : Nat
  unreachable : Bool
  initHeight : Nat
  deriving DecidableEq, Repr

/-- `struct LocalInits` (lines 85-98). `inits` has the most recent index first. -/
structure LocalInits where
  localInits : List Bool
  inits : List (BitVec 32)
  first : BitVec 32
  deriving DecidableEq, Repr

/-- `LocalInits::default` (lines 101-107). -/
def LocalInits.new : LocalInits := ⟨[], [], BitVec.allOnes 32⟩

/-- `define_params` (lines 112-117); a length that overflows `usize` cannot be reached. -/
def LocalInits.defineParams (l : LocalInits) (count : Nat) : LocalInits :=
  { l with localInits := l.localInits ++ List.replicate count true }

/-- `ValType::is_defaultable` (readers/core/types.rs lines 934-939). -/
def isDefaultable : Val → Bool
  | .i32 | .i64 | .f32 | .f64 | .v128 => true
  | .ref r => r.nullable

/-- `LocalInits::define_locals` (lines 120-133). -/
def LocalInits.defineLocals (l : LocalInits) (count : BitVec 32) (ty : Val) : LocalInits :=
  let first := if !isDefaultable ty && l.first == BitVec.allOnes 32 then
    BitVec.ofNat 32 l.localInits.length else l.first
  { l with localInits := l.localInits ++ List.replicate count.toNat (isDefaultable ty), first }

/-- `is_uninit` (lines 137-142); `none` is a panic. -/
def LocalInits.isUninit (l : LocalInits) (i : BitVec 32) : Option Bool :=
  if i < l.first then some false
  else (l.localInits[i.toNat]?).map (!·)

/-- `set_init` (lines 146-151); `none` is a panic. -/
def LocalInits.setInit (l : LocalInits) (i : BitVec 32) : Option LocalInits :=
  (l.isUninit i).map fun u =>
    if u then { l with localInits := l.localInits.set i.toNat true, inits := i :: l.inits } else l

/-- The loop of `LocalInits::pop_ctrl`. -/
def resetInits : List (BitVec 32) → List Bool → List Bool
  | [], bs => bs
  | i :: is, bs => resetInits is (bs.set i.toNat false)

/-- `LocalInits::pop_ctrl` (lines 163-169): the indices in the order of the `Vec`, and the new
value. `none` is the panic of `split_off`. The indices are in bounds whenever `set_init` put
them there. -/
def LocalInits.popCtrl (l : LocalInits) (height : Nat) :
    Option (List (BitVec 32) × LocalInits) :=
  if height ≤ l.inits.length then
    let removed := (l.inits.take (l.inits.length - height)).reverse
    some (removed, { l with
      localInits := resetInits removed l.localInits
      inits := l.inits.drop (l.inits.length - height) })
  else none

/-- `struct RollbackLog` (operators/transaction.rs lines 11-26); the most recent entries come
first in `operands` and `frames`, `inits` is in the order of the `Vec`. -/
structure Log where
  operands : List (Option MT)
  frames : List (Option Frame)
  inits : List (BitVec 32)
  initHeight : Nat
  unreachable : Bool
  deriving DecidableEq, Repr

/-- `struct OperatorValidator` (lines 51-81). The features are in `Env`. `log` is the
`transaction`, `some` when it is `Active`. -/
structure St where
  locals : Locals
  inits : LocalInits
  control : List Frame
  operands : List MT
  shared : Bool
  log : Option Log
  deriving DecidableEq, Repr

/-- A call on the validator: a result, and the state afterwards even if it failed. -/
def M (α : Type) := St → Except Fail α × St

instance : Monad M where
  pure a := fun S => (.ok a, S)
  bind m k := fun S => match m S with
    | (.ok a, S') => k a S'
    | (.error e, S') => (.error e, S')

/-- `bail!`. -/
def fail {α : Type} (e : Fail) : M α := fun S => (.error e, S)
/-- Returning an error unless a condition holds. -/
def require (b : Bool) : M Unit := if b then pure () else fail .error
/-- `Option::ok_or_else(..)?`. -/
def orError {α : Type} : Option α → M α
  | some a => pure a
  | none => fail .error
/-- `Option::unwrap`, `expect`. -/
def orPanic {α : Type} : Option α → M α
  | some a => pure a
  | none => fail .panic
/-- `?` on the result of a function that does not change the validator. -/
def lift {α : Type} : Except Fail α → M α
  | .ok a => pure a
  | .error e => fail e
/-- Looking at the state. -/
def getS : M St := fun S => (.ok S, S)
/-- Replacing the state. -/
def modifyS (g : St → St) : M Unit := fun S => (.ok (), g S)
/-- A `for` loop. -/
def each {α : Type} (g : α → M Unit) : List α → M Unit
  | [] => pure ()
  | x :: xs => do g x; each g xs

/-- `record_pop` (lines 567-570) with `RollbackLog::record_pop`. -/
def St.recordPop (S : St) (t : MT) : St :=
  { S with log := S.log.map fun L => { L with operands := some t :: L.operands } }
/-- `record_push` (lines 580-586) with `RollbackLog::record_push`. -/
def St.recordPush (S : St) : St :=
  { S with log := S.log.map fun L => { L with operands := none :: L.operands } }

/-- `push_operand` (lines 666-691). -/
def pushMT (t : MT) : M Unit := fun S =>
  (.ok (), { S with operands := t :: S.operands }.recordPush)
/-- `push_operand` on a value type. -/
def push (t : Val) : M Unit := pushMT (.known t)
/-- `push_operand` on a reference type. -/
def pushRef (r : Ref) : M Unit := push (.ref r)

variable (E : Env)

/-- The match of `_pop_operand` (lines 857-913). -/
def checkPopped (expected : Option Val) (actual : MT) : Bool :=
  match expected with
  | none => true
  | some expected =>
    match actual with
    | .bottom => true
    | .unknownRef ty =>
      match expected with
      | .ref r =>
        match ty with
        | some h => E.R.isSubtype (.ref ⟨false, .abs (E.R.isShared r) h⟩) (.ref r)
        | none => true
      | _ => false
    | .known t => E.R.isSubtype t expected

/-- `_pop_operand` (lines 831-915). -/
def popSlow (expected : Option Val) (popped : Option MT) : M MT := fun S =>
  let S := { S with operands := popped.toList ++ S.operands }
  match S.control with
  | [] => (.error .panic, S)
  | fr :: _ =>
    if S.operands.length = fr.height ∧ fr.unreachable = true then
      (.ok .bottom, S)
    else if S.operands.length = fr.height then (.error .error, S)
    else match S.operands with
      | [] => (.error .panic, S)
      | t :: ops =>
        (if checkPopped E expected t then .ok t else .error .error,
          { S with operands := ops }.recordPop t)

/-- The condition of the fast path of `pop_operand` (lines 809-822). -/
def popFast (expected : Option Val) (S : St) : Option (Val × List MT) :=
  match S.operands with
  | .known t :: ops =>
    if some t = expected then
      match S.control with
      | fr :: _ => if ops.length ≥ fr.height then some (t, ops) else none
      | [] => none
    else none
  | _ => none

/-- `pop_operand` (lines 797-825). -/
def pop (expected : Option Val) : M MT := fun S =>
  match popFast expected S with
  | some (t, ops) => (.ok (.known t), { S with operands := ops }.recordPop (.known t))
  | none => popSlow E expected S.operands.head? { S with operands := S.operands.tail }

/-- `pop_operand(Some(t))?;`. -/
def popT (t : Val) : M Unit := do let _ ← pop E (some t)

/-- `for ty in tys.rev() { pop_operand(Some(ty))?; }`. -/
def popAll (ts : List Val) : M Unit := each (popT E) ts.reverse
/-- `for ty in tys { push_operand(ty)?; }`. -/
def pushAll (ts : List Val) : M Unit := each push ts

/-- `check_heap_type` on the heap type for the type index `i`. -/
def checkConcrete (i : BitVec 32) : M Heap := lift (E.R.checkHeapType (.concrete (.module i)))
/-- `check_heap_type` on the exact heap type for the type index `i`. -/
def checkExact (i : BitVec 32) : M Heap := lift (E.R.checkHeapType (.exact (.module i)))

/-- `push_concrete_ref` (lines 693-705). -/
def pushConcreteRef (nullable : Bool) (i : BitVec 32) : M Unit := do
  let h ← checkConcrete E i
  let r ← orError (mkRef nullable h)
  pushRef r

/-- `push_exact_ref` (lines 707-719). -/
def pushExactRef (nullable : Bool) (i : BitVec 32) : M Unit := do
  let h ← checkExact E i
  let r ← orError (mkRef nullable h)
  pushRef r

/-- `push_exact_ref_if_available` (lines 721-727). -/
def pushExactRefIfAvailable (nullable : Bool) (i : BitVec 32) : M Unit :=
  if E.f.customDescriptors then pushExactRef E nullable i else pushConcreteRef E nullable i

/-- `pop_concrete_ref` (lines 729-741). -/
def popConcreteRef (nullable : Bool) (i : BitVec 32) : M MT := do
  let h ← checkConcrete E i
  let r ← orError (mkRef nullable h)
  pop E (some (.ref r))

/-- `is_exact_type_ref` or `is_none_ref` (readers/core/types.rs lines 1318-1320 and
1369-1371). -/
def isExactOrNone (r : Ref) : Bool :=
  match r.heap with
  | .exact _ => true
  | .abs _ .none => true
  | _ => false

/-- `pop_concrete_or_exact_ref` (lines 743-762). -/
def popConcreteOrExactRef (nullable : Bool) (i : BitVec 32) : M (MT × Bool) := do
  let ty ← popConcreteRef E nullable i
  match ty with
  | .known (.ref rt) =>
    if isExactOrNone rt then
      let h ← checkExact E i
      let expected ← orError (mkRef nullable h)
      pure (ty, E.R.isSubtype (.ref rt) (.ref expected))
    else pure (ty, false)
  | .bottom => pure (ty, true)
  | _ => pure (ty, false)

/-- `pop_push_label_types` (lines 766-777). -/
def popPushLabelTypes (ts : List Val) : M Unit := do
  popAll E ts
  pushAll ts

/-- `match_operand` (lines 918-922). -/
def matchOperand (actual expected : Val) : M Unit := do
  push actual
  popT E expected

/-- The first loop of `match_stack_operands`; the result is in the order of popping. -/
def popTypes : List Val → M (List MT)
  | [] => pure []
  | t :: ts => do
    let m ← pop E (some t)
    let ms ← popTypes ts
    pure (m :: ms)

/-- `match_stack_operands` (lines 925-944). -/
def matchStackOperands (expected : List Val) : M Unit := do
  let popped ← popTypes E expected.reverse
  each pushMT popped.reverse

/-- `pop_ref` (lines 947-958). -/
def popRef (expected : Option Ref) : M MR := do
  match ← pop E (expected.map .ref) with
  | .bottom => pure (.unknownRef none)
  | .unknownRef t => pure (.unknownRef t)
  | .known (.ref r) => pure (.known r)
  | .known _ => fail .error

/-- `pop_maybe_shared_ref` (lines 965-1004); `is_subtype_of` of abstract heap types is from the
model of types. -/
def popMaybeSharedRef (expected : AbsHeap) : M MR := do
  match ← popRef E none with
  | .bottom => pure .bottom
  | .unknownRef none => pure (.unknownRef none)
  | .unknownRef (some actual) => do
    require (TypeList.absIsSubtypeOf actual expected)
    pure (.unknownRef (some actual))
  | .known r => do
    require (E.R.isSubtype (.ref r) (.ref ⟨true, .abs (E.R.isShared r) expected⟩))
    pure (.known r)

/-- `local` (lines 1008-1017). -/
def localTy (i : BitVec 32) : M Val := do
  let S ← getS
  orError (S.locals.get E.bs i)

/-- `unreachable` (lines 1021-1039). -/
def unreachable : M Unit := fun S =>
  match S.control with
  | [] => (.error .panic, S)
  | fr :: rest =>
    let log1 := if fr.unreachable then S.log
      else S.log.map fun L => { L with unreachable := true }
    let control := { fr with unreachable := true } :: rest
    if fr.height ≤ S.operands.length then
      let removed := S.operands.take (S.operands.length - fr.height)
      let log2 := log1.map fun L =>
        { L with operands := removed.reverse.map some ++ L.operands }
      (.ok (), { S with
        control, log := log2, operands := S.operands.drop (S.operands.length - fr.height) })
    else (.error .panic, { S with control, log := log1 })

/-- `sub_type_at` (lines 1644-1648). -/
def subTypeAt (i : BitVec 32) : M (SubT Nat) := orError (E.R.subTypeAt i)

/-- The check that shared functions do not use things that are not shared. -/
def requireAccess (shared : Bool) : M Unit := do
  let S ← getS
  require (!(S.shared && !shared))

/-- `struct_type_at` (lines 1650-1666). -/
def structTypeAt (i : BitVec 32) : M (List (Field Nat)) := do
  let sub ← subTypeAt E i
  match sub.comp with
  | .struct fs => do requireAccess sub.shared; pure fs
  | _ => fail .error

/-- `struct_field_at` (lines 1668-1676). -/
def structFieldAt (i j : BitVec 32) : M (Field Nat) := do
  let fs ← structTypeAt E i
  orError fs[j.toNat]?

/-- `mutable_struct_field_at` (lines 1678-1691). -/
def mutableStructFieldAt (i j : BitVec 32) : M (Field Nat) := do
  let f ← structFieldAt E i j
  require f.mutable
  pure f

/-- `array_type_at` (lines 1693-1709). -/
def arrayTypeAt (i : BitVec 32) : M (Field Nat) := do
  let sub ← subTypeAt E i
  match sub.comp with
  | .array f => do requireAccess sub.shared; pure f
  | _ => fail .error

/-- `mutable_array_type_at` (lines 1711-1720). -/
def mutableArrayTypeAt (i : BitVec 32) : M (Field Nat) := do
  let f ← arrayTypeAt E i
  require f.mutable
  pure f

/-- `func_type_at` (lines 1722-1738). -/
def funcTypeAt (i : BitVec 32) : M FuncTy := do
  let sub ← subTypeAt E i
  match sub.comp with
  | .func ps rs => do requireAccess sub.shared; pure ⟨ps, rs⟩
  | _ => fail .error

/-- `cont_type_at` (lines 1740-1753): the id in the `ContType`. -/
def contTypeAt (i : BitVec 32) : M Nat := do
  let sub ← subTypeAt E i
  match sub.comp with
  | .cont c => do requireAccess sub.shared; pure c
  | _ => fail .error

/-- `func_type_of_cont_type` (lines 1755-1758). -/
def funcTypeOfContType (c : Nat) : M FuncTy := do
  let sub ← orPanic (E.R.subTypeAtId c)
  match sub.comp with
  | .func ps rs => pure ⟨ps, rs⟩
  | _ => fail .panic

/-- `tag_at` (lines 1760-1764). -/
def tagAt (i : BitVec 32) : M FuncTy := orError (E.R.tagAt i)

/-- `exception_tag_at` (lines 1769-1778). -/
def exceptionTagAt (i : BitVec 32) : M FuncTy := do
  let ty ← tagAt E i
  require (ty.results.length == 0)
  pure ty

/-- `global_type_at` (lines 1780-1792). -/
def globalTypeAt (i : BitVec 32) : M GlobalTy := do
  let g ← orError (E.R.globalAt i)
  requireAccess g.shared
  pure g

/-- `table_type_at` (lines 1795-1811). -/
def tableTypeAt (i : BitVec 32) : M TableTy := do
  let t ← orError (E.R.tableAt i)
  requireAccess t.shared
  pure t

/-- `element_type_at` (lines 1633-1642). -/
def elementTypeAt (i : BitVec 32) : M Ref := orError (E.R.elementTypeAt i)

/-- `params` (lines 1813-1818). -/
def params : BT → M (List Val)
  | .empty | .type _ => pure []
  | .func i => do pure (← funcTypeAt E i).params

/-- `results` (lines 1820-1826). -/
def results : BT → M (List Val)
  | .empty => pure []
  | .type t => pure [t]
  | .func i => do pure (← funcTypeAt E i).results

/-- `label_types` (lines 1828-1837). -/
def labelTypes (ty : BT) : FrameKind → M (List Val)
  | .loop => params E ty
  | _ => results E ty

/-- `push_bare_ctrl` (lines 1059-1072). -/
def pushBareCtrl (kind : FrameKind) (ty : BT) : M Unit := fun S =>
  (.ok (), { S with
    control := ⟨kind, ty, S.operands.length, false, S.inits.inits.length⟩ :: S.control
    log := S.log.map fun L => { L with frames := none :: L.frames } })

/-- `push_ctrl` (lines 1047-1055). -/
def pushCtrl (kind : FrameKind) (ty : BT) : M Unit := do
  pushBareCtrl kind ty
  let ps ← params E ty
  pushAll ps

/-- The last part of `pop_ctrl` (lines 1101-1105). -/
def takeFrame : M Frame := fun S =>
  match S.control with
  | [] => (.error .panic, S)
  | fr :: rest =>
    match S.inits.popCtrl fr.initHeight with
    | none => (.error .panic, { S with control := rest })
    | some (removed, inits) =>
      (.ok fr, { S with
        control := rest
        inits
        log := S.log.map fun L =>
          { L with frames := some fr :: L.frames, inits := L.inits ++ removed } })

/-- The last frame (`self.control.last().unwrap()`). -/
def topFrame : M Frame := do
  let S ← getS
  orPanic S.control.head?

/-- `pop_ctrl` (lines 1078-1106). -/
def popCtrl : M Frame := do
  let fr ← topFrame
  let rs ← results E fr.blockType
  popAll E rs
  let S ← getS
  require (S.operands.length == fr.height)
  takeFrame

/-- `OperatorValidator::jump` (lines 500-505) and `jump` (lines 1112-1117). -/
def jump (depth : BitVec 32) : M (BT × FrameKind) := do
  let S ← getS
  if S.control.isEmpty then fail .panic
  else
    let fr ← orError S.control[depth.toNat]?
    pure (fr.blockType, fr.kind)

/-- The label types that a branch to `depth` needs: `jump` followed by `label_types`. -/
def jumpTypes (depth : BitVec 32) : M (List Val) := do
  let (ty, kind) ← jump depth
  labelTypes E ty kind

/-- `check_memory_index` (lines 1121-1126). -/
def checkMemoryIndex (i : BitVec 32) : M Val := do
  let m ← orError (E.R.memoryAt i)
  pure (indexType m)

/-- `check_memarg` (lines 1130-1142). -/
def checkMemarg (m : MemArg) : M Val := do
  let ty ← checkMemoryIndex E m.memory
  require (decide (m.align ≤ m.maxAlign))
  require (!(ty == .i32 && decide (2 ^ 32 - 1 < m.offset.toNat)))
  pure ty

/-- `check_floats_enabled` (lines 1144-1151). -/
def checkFloatsEnabled : M Unit := require E.f.floats

/-- `check_shared_memarg` (lines 1153-1161). -/
def checkSharedMemarg (m : MemArg) : M Val := do
  require (m.align == m.maxAlign)
  checkMemarg E m

/-- `WasmFeatures::check_value_type` and `check_ref_type` (validator.rs lines 239-338). -/
def featuresCheck {α : Type} (c : TypeList.M α) : M Unit :=
  match c with
  | .ok _ => pure ()
  | .error (.error _) => fail .error
  | .error _ => fail .panic

/-- The default `check_ref_type` (resources.rs lines 96-102). -/
def checkRefType (r : RefType) : M Ref := do
  let h ← orPanic r.heapType
  let h ← lift (E.R.checkHeapType h)
  orPanic (mkRef r.isNullable h)

/-- The default `check_value_type` (resources.rs lines 82-93). -/
def checkValueType (t : ValType) : M Val := do
  featuresCheck (TypeList.checkValueType E.f.types t)
  match t with
  | .ref r => .ref <$> checkRefType E r
  | .i32 => pure .i32
  | .i64 => pure .i64
  | .f32 => pure .f32
  | .f64 => pure .f64
  | .v128 => pure .v128

/-- `check_block_type` (lines 1164-1181). -/
def checkBlockType : BlockType → M BT
  | .empty => pure .empty
  | .type t => .type <$> checkValueType E t
  | .funcType i => do
    require E.f.multiValue
    let _ ← funcTypeAt E i
    pure (.func i)

/-- `type_of_function` (lines 1185-1194). -/
def typeOfFunction (i : BitVec 32) : M FuncTy := do
  let t ← orError (E.R.typeIndexOfFunction i)
  funcTypeAt E t

/-- `check_call_ty` (lines 1201-1211). -/
def checkCallTy (ty : FuncTy) : M Unit := do
  popAll E ty.params
  pushAll ty.results

/-- The results of the function (`self.results(self.control[0].block_type)`), with the `assert!`
before it. -/
def functionResults : M (List Val) := do
  let S ← getS
  let fr ← orPanic S.control.getLast?
  results E fr.blockType

/-- `check_return` (lines 1277-1284). -/
def checkReturn : M Unit := do
  let rs ← functionResults E
  popAll E rs
  unreachable

/-- `check_func_type_same_results` (lines 1288-1314). -/
def checkFuncTypeSameResults (callee : FuncTy) : M Unit := do
  let caller ← functionResults E
  require (callee.results.length == caller.length &&
    (caller.zip callee.results).all fun (a, b) => E.R.isSubtype b a)

/-- `check_return_call_ty` (lines 1214-1229). -/
def checkReturnCallTy (ty : FuncTy) : M Unit := do
  checkFuncTypeSameResults E ty
  popAll E ty.params
  pushAll ty.results
  checkReturn E

/-- `check_call_ref_ty` (lines 1238-1245). -/
def checkCallRefTy (i : BitVec 32) : M FuncTy := do
  let h ← checkConcrete E i
  let expected ← orPanic (mkRef true h)
  let _ ← popRef E (some expected)
  funcTypeAt E i

/-- `ValType::FUNCREF`. -/
def funcref : Val := .ref ⟨true, .abs false .func⟩

/-- `check_call_indirect_ty` (lines 1256-1273). -/
def checkCallIndirectTy (typeIndex tableIndex : BitVec 32) : M FuncTy := do
  let tab ← tableTypeAt E tableIndex
  require (E.R.isSubtype (.ref tab.elem) funcref)
  popT E (indexType tab.table64)
  funcTypeAt E typeIndex

/-- `check_cmp_op` (lines 1317-1322). -/
def checkCmpOp (t : Val) : M Unit := do popT E t; popT E t; push .i32
/-- `check_fcmp_op` (lines 1325-1329). -/
def checkFcmpOp (t : Val) : M Unit := do checkFloatsEnabled E; checkCmpOp E t
/-- `check_unary_op` (lines 1332-1336). -/
def checkUnaryOp (t : Val) : M Unit := do popT E t; push t
/-- `check_funary_op` (lines 1339-1343). -/
def checkFunaryOp (t : Val) : M Unit := do checkFloatsEnabled E; checkUnaryOp E t
/-- `check_conversion_op` (lines 1346-1350). -/
def checkConversionOp (into frm : Val) : M Unit := do popT E frm; push into
/-- `check_fconversion_op` (lines 1353-1357). -/
def checkFconversionOp (into frm : Val) : M Unit := do
  checkFloatsEnabled E; checkConversionOp E into frm
/-- `check_binary_op` (lines 1360-1365). -/
def checkBinaryOp (t : Val) : M Unit := do popT E t; popT E t; push t
/-- `check_fbinary_op` (lines 1368-1372). -/
def checkFbinaryOp (t : Val) : M Unit := do checkFloatsEnabled E; checkBinaryOp E t

/-- `check_atomic_load` (lines 1375-1380). -/
def checkAtomicLoad (m : MemArg) (t : Val) : M Unit := do
  let ty ← checkSharedMemarg E m
  popT E ty
  push t
/-- `check_atomic_store` (lines 1383-1388). -/
def checkAtomicStore (m : MemArg) (t : Val) : M Unit := do
  let ty ← checkSharedMemarg E m
  popT E t
  popT E ty
/-- `check_atomic_binary_memory_op` (lines 1391-1397). -/
def checkAtomicBinaryMemoryOp (m : MemArg) (t : Val) : M Unit := do
  let ty ← checkSharedMemarg E m
  popT E t
  popT E ty
  push t
/-- `check_atomic_binary_memory_cmpxchg` (lines 1400-1407). -/
def checkAtomicBinaryMemoryCmpxchg (m : MemArg) (t : Val) : M Unit := do
  let ty ← checkSharedMemarg E m
  popT E t
  popT E t
  popT E ty
  push t

/-- `check_cast_to_allowed` (lines 1425-1440). -/
def checkCastToAllowed (h : Heap) : M Unit :=
  match E.R.topType h with
  | .abs _ .cont => fail .error
  | _ => pure ()

/-- `check_downcast` (lines 1411-1423). -/
def checkDowncast (nullable : Bool) (h : HeapType) : M Ref := do
  let h ← lift (E.R.checkHeapType h)
  let sub ← orError (mkRef nullable h)
  let top := E.R.topType h
  checkCastToAllowed E top
  let sup ← orPanic (mkRef true top)
  let _ ← popRef E (some sup)
  pure sub

/-- `check_ref_test` (lines 1444-1447). -/
def checkRefTest (nullable : Bool) (h : HeapType) : M Unit := do
  let _ ← checkDowncast E nullable h
  push .i32
/-- `check_ref_cast` (lines 1451-1454). -/
def checkRefCast (nullable : Bool) (h : HeapType) : M Unit := do
  let sub ← checkDowncast E nullable h
  pushRef sub

/-- `check_br_on_cast_type_hierarchy` (lines 1457-1490). -/
def checkBrOnCastTypeHierarchy (frm target : Ref) : M Unit :=
  if E.f.customDescriptors then require (E.R.topType frm.heap == E.R.topType target.heap)
  else do
    checkCastToAllowed E target.heap
    require (E.R.isSubtype (.ref target) (.ref frm))

/-- `check_descriptor` (lines 1493-1511): the index of the descriptor's id, which the callers
use as a type index (see F7). `as_module_index().unwrap()` panics on other indices. -/
def checkDescriptor : HeapType → M (BitVec 32)
  | .exact (.module i) | .concrete (.module i) => do
    let sub ← subTypeAt E i
    match sub.descriptor with
    | some d => pure (BitVec.ofNat 32 d)
    | none => fail .error
  | .exact _ | .concrete _ => fail .panic
  | .abstract .. => fail .error

/-- `check_maybe_exact_descriptor_ref` (lines 1513-1539). -/
def checkMaybeExactDescriptorRef (h : HeapType) : M Bool := do
  let d ← checkDescriptor E h
  let (ty, _) ← popConcreteOrExactRef E true d
  match h with
  | .exact _ => do
    let dh ← checkExact E d
    let dt ← orPanic (mkRef true dh)
    match ty with
    | .known actual => do
      require (E.R.isSubtype actual (.ref dt))
      pure true
    | _ => pure true
  | _ => pure false

/-- `check_ref_cast_desc_eq` (lines 1543-1567). -/
def checkRefCastDescEq (nullable : Bool) (h : HeapType) : M Unit := do
  let isExact ← checkMaybeExactDescriptorRef E h
  let _ ← checkDowncast E nullable h
  let h' ← lift (E.R.checkHeapType h)
  match h' with
  | .concrete i | .exact i =>
    if i < 2 ^ 20 then pushRef ⟨nullable, if isExact then .exact i else .concrete i⟩
    else fail .error
  | .abs .. => fail .panic

/-- `check_atomic_global_rmw_ty` (lines 1571-1587). -/
def checkAtomicGlobalRmwTy (i : BitVec 32) : M Val := do
  let g ← globalTypeAt E i
  require g.mutable
  require (g.content == .i32 || g.content == .i64)
  pure g.content

/-- The field types that `struct.atomic.rmw.*` and `array.atomic.rmw.*` allow. -/
def rmwFieldTy : Storage Nat → Option Val
  | .val .i32 => some .i32
  | .val .i64 => some .i64
  | _ => none

/-- `check_struct_atomic_rmw` (lines 1591-1611). -/
def checkStructAtomicRmw (i j : BitVec 32) : M Unit := do
  let field ← mutableStructFieldAt E i j
  let t ← orError (rmwFieldTy field.storage)
  popT E t
  let _ ← popConcreteRef E true i
  push t

/-- `check_array_atomic_rmw` (lines 1615-1631). -/
def checkArrayAtomicRmw (i : BitVec 32) : M Unit := do
  let field ← mutableArrayTypeAt E i
  let t ← orError (rmwFieldTy field.storage)
  popT E t
  popT E .i32
  let _ ← popConcreteRef E true i
  push t

/-- `check_data_segment` (lines 1839-1845). -/
def checkDataSegment (i : BitVec 32) : M Unit := do
  let n ← orError E.R.dataCount
  require (decide (i < n))

/-- `is_func_subtype` (lines 1941-1958). -/
def isFuncSubtype (p1 r1 p2 r2 : List Val) : Bool :=
  p1.length == p2.length && (p1.zip p2).all (fun (a, b) => E.R.isSubtype b a) &&
    r1.length == r2.length && (r1.zip r2).all (fun (a, b) => E.R.isSubtype a b)

/-- The id of a reference to a defined type (`is_concrete_type_ref`, `type_index` and
`as_core_type_id`; readers/core/types.rs lines 1313-1331). Exact references count too. -/
def refId (r : Ref) : Option Nat :=
  match r.heap with
  | .concrete i | .exact i => some i
  | .abs .. => none

/-- The id of the last type of a list, which must be a reference to a defined type. -/
def lastRefId (ts : List Val) : Option Nat :=
  match ts.getLast? with
  | some (.ref r) => refId r
  | _ => none

/-- The continuation behind an id (`sub_type_at_id` and the match on `Cont`). -/
def contAtId (i : Nat) : M Nat := do
  let sub ← orPanic (E.R.subTypeAtId i)
  match sub.comp with
  | .cont c => pure c
  | _ => fail .error

/-- One handler in `check_resume_table` (lines 1861-1935). -/
def checkHandle (old : FuncTy) : Handle → M Unit
  | .onLabel tag label => do
    let tagTy ← tagAt E tag
    let ls ← jumpTypes E label
    let ct ← orError (lastRefId ls)
    let ls := ls.dropLast
    require (tagTy.params.length == ls.length &&
      (tagTy.params.zip ls).all fun (a, b) => E.R.isSubtype a b)
    let c ← contAtId E ct
    let new ← funcTypeOfContType E c
    require (isFuncSubtype E tagTy.results old.results new.params new.results)
  | .onSwitch tag => do
    let tagTy ← tagAt E tag
    require (isFuncSubtype E tagTy.params tagTy.results [] old.results &&
      isFuncSubtype E [] old.results tagTy.params tagTy.results)

/-- `check_resume_table` (lines 1847-1938). -/
def checkResumeTable (table : List Handle) (i : BitVec 32) : M FuncTy := do
  let c ← contTypeAt E i
  let old ← funcTypeOfContType E c
  each (checkHandle E old) table
  pure old

/-- `check_binop128` (lines 1960-1968). -/
def checkBinop128 : M Unit := do
  popT E .i64; popT E .i64; popT E .i64; popT E .i64
  push .i64; push .i64
/-- `check_i64_mul_wide` (lines 1970-1976). -/
def checkI64MulWide : M Unit := do
  popT E .i64; popT E .i64
  push .i64; push .i64

/-- `check_simd_lane_index` (operators/simd.rs lines 9-14). -/
def checkSimdLaneIndex (i max : UInt8) : M Unit := require (decide (i < max))
/-- `check_v128_splat` (operators/simd.rs lines 17-21). -/
def checkV128Splat (t : Val) : M Unit := do popT E t; push .v128
/-- `check_v128_binary_op` (operators/simd.rs lines 24-29). -/
def checkV128BinaryOp : M Unit := do popT E .v128; popT E .v128; push .v128
/-- `check_v128_fbinary_op` (operators/simd.rs lines 32-35). -/
def checkV128FbinaryOp : M Unit := do checkFloatsEnabled E; checkV128BinaryOp E
/-- `check_v128_unary_op` (operators/simd.rs lines 38-42). -/
def checkV128UnaryOp : M Unit := do popT E .v128; push .v128
/-- `check_v128_funary_op` (operators/simd.rs lines 45-48). -/
def checkV128FunaryOp : M Unit := do checkFloatsEnabled E; checkV128UnaryOp E
/-- `check_v128_ternary_op` (operators/simd.rs lines 51-57). -/
def checkV128TernaryOp : M Unit := do popT E .v128; popT E .v128; popT E .v128; push .v128
/-- `check_v128_bitmask_op` (operators/simd.rs lines 60-64). -/
def checkV128BitmaskOp : M Unit := do popT E .v128; push .i32
/-- `check_v128_shift_op` (operators/simd.rs lines 67-72). -/
def checkV128ShiftOp : M Unit := do popT E .i32; popT E .v128; push .v128
/-- `check_v128_load_op` (operators/simd.rs lines 75-80). -/
def checkV128LoadOp (m : MemArg) : M Unit := do
  let ty ← checkMemarg E m
  popT E ty
  push .v128

end Verif.Op
