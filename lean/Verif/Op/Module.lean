import Verif.Op.Model
import Verif.TypeList.HistSpec
/-! The answers of a module about its items
(crates/wasmparser/src/validator/core.rs, `ValidatorResources`). -/
namespace Verif.Op
open Verif.Types (HeapType RefType ValType UnpackedIndex)
open Verif.TypeList (TypeList)
open Verif.TypeList.Spec (SubT)

/-- `struct Module` (core.rs lines 463-486), as far as function bodies depend on it. Types of
items have identifiers of the list of types in place of packed indices (see C11 and C23);
memories are represented by whether they have 64 bit addresses. -/
structure Module where
  types : List Nat
  tables : List TableTy
  memories : List Bool
  globals : List GlobalTy
  elementTypes : List Ref
  dataCount : Option (BitVec 32)
  functions : List (BitVec 32)
  tags : List Nat
  functionReferences : List (BitVec 32)
  exactFunctionImports : List (BitVec 32)
  numImportedFunctions : Nat

/-- The packed form of a reference type. -/
def encRef (r : Ref) : Option RefType :=
  RefType.new r.nullable (TypeList.toHeap (r.heap.map TypeList.idx))

/-- The packed form of a value type. -/
def encVal : Val → Option ValType
  | .i32 => some .i32
  | .i64 => some .i64
  | .f32 => some .f32
  | .f64 => some .f64
  | .v128 => some .v128
  | .ref r => (encRef r).map .ref

/-- The identifiers in a value type are those of types in the list. -/
def inList (L : List (SubT Nat)) (refs : List Nat) : Bool := refs.all (· < L.length)

/-- An answer that is not a panic. -/
def answer {α : Type} (x : Option (TypeList.M α)) : Option α :=
  match x with
  | some (.ok a) => some a
  | _ => none

/-- `valtype_is_subtype`. Types with identifiers that are not in the list do not exist; the
answer for them is only there to make the function total. -/
def subtypeAnswer (T : TypeList) (L : List (SubT Nat)) (a b : Val) : Bool :=
  if inList L a.refs && inList L b.refs then
    (answer (do
      let x ← encVal a
      let y ← encVal b
      pure (TypeList.valtypeIsSubtype T x y))).getD false
  else match a, b with
    | .ref a, .ref b => (!a.nullable || b.nullable) && a.heap == b.heap
    | _, _ => false

/-- `reftype_is_shared`, with the same proviso. -/
def sharedAnswer (T : TypeList) (L : List (SubT Nat)) (r : Ref) : Bool :=
  if inList L r.heap.refs then
    (answer ((encRef r).map (TypeList.reftypeIsShared T))).getD false
  else false

/-- `top_type`, with the same proviso. -/
def topAnswer (T : TypeList) (L : List (SubT Nat)) (h : Heap) : Heap :=
  match answer (some (TypeList.topType T (TypeList.toHeap (h.map TypeList.idx)))) with
  | some (.abstract s a) => .abs s a
  | _ => h

/-- `Module::check_heap_type` (core.rs lines 838-855). -/
def Module.checkHeapType (m : Module) : HeapType → Except Fail Heap
  | .abstract s a => .ok (.abs s a)
  | .concrete (.module i) => match m.types[i.toNat]? with
    | some id => .ok (.concrete id)
    | none => .error .error
  | .exact (.module i) => match m.types[i.toNat]? with
    | some id => .ok (.exact id)
    | none => .error .error
  | .concrete _ | .exact _ => .error .panic

/-- `impl WasmModuleResources for ValidatorResources` (core.rs lines 1114-1195). `T` is the
snapshot of the list of types and `L` what it stands for (`TypeList.View`). -/
def Module.resources (m : Module) (T : TypeList) (L : List (SubT Nat)) : Resources where
  tableAt i := m.tables[i.toNat]?
  memoryAt i := m.memories[i.toNat]?
  tagAt i := do
    let id ← m.tags[i.toNat]?
    let t ← L[id]?
    match t.comp with
    | .func ps rs => some ⟨ps, rs⟩
    | _ => none
  globalAt i := m.globals[i.toNat]?
  subTypeAt i := do
    let id ← m.types[i.toNat]?
    L[id]?
  subTypeAtId c := L[c]?
  typeIdOfFunction i := do
    let t ← m.functions[i.toNat]?
    m.types[t.toNat]?
  typeIndexOfFunction i := m.functions[i.toNat]?
  elementTypeAt i := m.elementTypes[i.toNat]?
  isSubtype := subtypeAnswer T L
  isShared := sharedAnswer T L
  checkHeapType := m.checkHeapType
  topType := topAnswer T L
  dataCount := m.dataCount
  isFunctionReferenced i := m.functionReferences.contains i
  hasFunctionExactType i :=
    m.numImportedFunctions ≤ i.toNat || m.exactFunctionImports.contains i

end Verif.Op
