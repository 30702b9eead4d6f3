import Verif.Gc.Model
import Verif.Reenc.Spec
/-! What an item of a module refers to, what can be reached from the exports, and what it means
that a module is a part of another one up to renaming of indices. -/
namespace Verif.Gc.Spec
open Verif.Reader Verif.Instr Verif.Items Verif.Reenc Verif.Reenc.Spec

/-- An entry of an index space. -/
abbrev Item := Space × BitVec 32

/-! ### References -/

def indexRefs : Types.UnpackedIndex → List Item
  | .module i => [(.type, i)]
  | _ => []

def heapRefs : Types.HeapType → List Item
  | .abstract _ _ => []
  | .concrete u => indexRefs u
  | .exact u => indexRefs u

def refRefs (t : Types.RefType) : List Item :=
  match t.heapType with
  | some h => heapRefs h
  | none => []

def valRefs : Types.ValType → List Item
  | .ref r => refRefs r
  | _ => []

def blockRefs : BlockType → List Item
  | .empty => []
  | .funcType i => [(.type, i)]
  | .type t => valRefs t

def catchRefs : Catch → List Item
  | .one tag label => [(.tag, tag), (.label, label)]
  | .oneRef tag label => [(.tag, tag), (.label, label)]
  | .all label => [(.label, label)]
  | .allRef label => [(.label, label)]

def handleRefs : Handle → List Item
  | .onLabel tag label => [(.tag, tag), (.label, label)]
  | .onSwitch tag => [(.tag, tag)]

/-- The immediates of an operator that refer to something, with the index space of each. -/
def opRefs : Operator → List Item
  | .block _ ty => blockRefs ty
  | .tryTable ty cs => blockRefs ty ++ cs.flatMap catchRefs
  | .idx o i => [(idxSpace o, i)]
  | .catch_ tag => [(.tag, tag)]
  | .memorySize i => [(.memory, i)]
  | .memoryGrow i => [(.memory, i)]
  | .idx2 o i j => [((idx2Space o).1, i), ((idx2Space o).2, j)]
  | .callIndirect ty table => [(.type, ty), (.table, table)]
  | .returnCallIndirect ty table => [(.type, ty), (.table, table)]
  | .memoryInit data mem => [(.data, data), (.memory, mem)]
  | .tableInit elem table => [(.elem, elem), (.table, table)]
  | .mem _ a => [(.memory, a.memory)]
  | .memLane _ a _ => [(.memory, a.memory)]
  | .heap _ h => heapRefs h
  | .cast _ _ a b => refRefs a ++ refRefs b
  | .atomic o _ i => [(atomicSpace o, i)]
  | .atomic2 _ _ i j => [(.type, i), (.field, j)]
  | .typedSelect ty => valRefs ty
  | .typedSelectMulti tys => tys.flatMap valRefs
  | .resume ty hs => (.type, ty) :: hs.flatMap handleRefs
  | .resumeThrow ty tag hs => (.type, ty) :: (.tag, tag) :: hs.flatMap handleRefs
  | .resumeThrowRef ty hs => (.type, ty) :: hs.flatMap handleRefs
  | _ => []

/-- The operators of an initial value. -/
def initOps (f : Instr.Features) (c : ConstExpr) : Except Err (List Operator × OperatorsReader) :=
  (OperatorsReader.new c.reader).collect f

/-- The definition of the one item contains an index of the other. -/
inductive Refs (f : Instr.Features) (m : Module) : Item → Item → Prop where
  | funcType {i fn} : m.funcs[i.toNat]? = some fn → Refs f m (.func, i) (.type, fn.ty)
  | funcLocal {i fn body ds d x} : m.funcs[i.toNat]? = some fn → fn.dfn = .loc body →
      localsOf body = .ok ds → d ∈ ds → x ∈ valRefs d.2 → Refs f m (.func, i) x
  | funcOp {i fn body ops s op x} : m.funcs[i.toNat]? = some fn → fn.dfn = .loc body →
      operatorsOf f body = .ok (ops, s) → op ∈ ops → x ∈ opRefs op → Refs f m (.func, i) x
  | globalType {i g x} : m.globals[i.toNat]? = some g → x ∈ valRefs g.ty.contentType →
      Refs f m (.global, i) x
  | globalOp {i g e ops s op x} : m.globals[i.toNat]? = some g → g.dfn = .loc e →
      initOps f e = .ok (ops, s) → op ∈ ops → x ∈ opRefs op → Refs f m (.global, i) x
  | table {i t x} : m.tables[i.toNat]? = some t → x ∈ refRefs t.ty.elementType →
      Refs f m (.table, i) x
  | type {i t v x} : m.types[i.toNat]? = some t → v ∈ t.params ∨ v ∈ t.results → x ∈ valRefs v →
      Refs f m (.type, i) x

/-- The index space of an export. -/
def exportSpace : ExternalKind → Space
  | .func | .funcExact => .func
  | .table => .table
  | .memory => .memory
  | .global => .global
  | .tag => .tag

/-- What the exports need. -/
inductive Reach (f : Instr.Features) (m : Module) : Item → Prop where
  | root {e} : e ∈ m.exports → Reach f m (exportSpace e.kind, e.index)
  | step {x y} : Reach f m x → Refs f m x y → Reach f m y

/-- The index spaces of the items that are collected. -/
def collected : Space → Bool
  | .type | .func | .table | .memory | .global => true
  | _ => false

/-- What `liveness` has found to be needed. -/
def live (L : Live) : Item → Bool
  | (.type, i) => L.types.contains i
  | (.func, i) => L.funcs.contains i
  | (.table, i) => L.tables.contains i
  | (.memory, i) => L.memories.contains i
  | (.global, i) => L.globals.contains i
  | _ => false

/-! ### Where `liveness` finds everything -/

/-- No block declares a result of a type with an index, and no operator of the stack switching
proposal (which is off by default) is used. -/
def OpSimple : Operator → Prop
  | .block _ (.type t) => valRefs t = []
  | .idx .contNew _ => False
  | .idx2 .contBind _ _ => False
  | .idx2 .switch _ _ => False
  | _ => True

/-- Moreover, neither locals nor globals have a type with an index. -/
structure Simple (f : Instr.Features) (m : Module) : Prop where
  locals : ∀ fn ∈ m.funcs, ∀ body, fn.dfn = .loc body → ∀ ds, localsOf body = .ok ds → ∀ d ∈ ds,
    valRefs d.2 = []
  ops : ∀ fn ∈ m.funcs, ∀ body, fn.dfn = .loc body → ∀ ops s, operatorsOf f body = .ok (ops, s) →
    ∀ op ∈ ops, OpSimple op
  globals : ∀ g ∈ m.globals, valRefs g.ty.contentType = []
  inits : ∀ g ∈ m.globals, ∀ e, g.dfn = .loc e → ∀ ops s, initOps f e = .ok (ops, s) →
    ∀ op ∈ ops, OpSimple op

/-! ### Where `liveness` succeeds -/

/-- The type, if it is that of a concrete reference, has an index of the module. -/
def HeapFine : Types.HeapType → Prop
  | .abstract _ _ => True
  | .concrete u => ∃ i, u = .module i
  | .exact u => ∃ i, u = .module i

def RefFine (t : Types.RefType) : Prop := ∃ h, t.heapType = some h ∧ HeapFine h

def ValFine : Types.ValType → Prop
  | .ref r => RefFine r
  | _ => True

/-- The operator is not one with a table of handlers. -/
def OpFine : Operator → Prop
  | .tryTable _ _ => False
  | .resume _ _ => False
  | .resumeThrow _ _ _ => False
  | .resumeThrowRef _ _ => False
  | .heap _ h => HeapFine h
  | .cast _ _ a b => RefFine a ∧ RefFine b
  | .typedSelect t => ValFine t
  | .typedSelectMulti ts => ∀ t ∈ ts, ValFine t
  | _ => True

/-- The item exists and its definition can be read to the end. -/
def ItemFine (f : Instr.Features) (m : Module) : Item → Prop
  | (.func, i) => ∃ fn, m.funcs[i.toNat]? = some fn ∧ ∀ body, fn.dfn = .loc body →
      ∃ ops s, operatorsOf f body = .ok (ops, s) ∧ s.finish = .ok () ∧ ∀ op ∈ ops, OpFine op
  | (.global, i) => ∃ g, m.globals[i.toNat]? = some g ∧ ∀ e, g.dfn = .loc e →
      ∃ ops s, initOps f e = .ok (ops, s) ∧ s.finish = .ok () ∧ ∀ op ∈ ops, OpFine op
  | (.table, i) => ∃ t, m.tables[i.toNat]? = some t ∧ RefFine t.ty.elementType
  | (.type, i) => ∃ t, m.types[i.toNat]? = some t ∧ ∀ v, v ∈ t.params ∨ v ∈ t.results → ValFine v
  | _ => True

end Verif.Gc.Spec
