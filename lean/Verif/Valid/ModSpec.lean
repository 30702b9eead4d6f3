import Verif.Valid.ConstSpec
import Verif.Op.Body
import Verif.Op.TypingSound
import Verif.TypeList.HistSpec
import Verif.Parser.Spec
/-! # Valid modules

What a core module in the binary format says, and when it is valid, in the manner of the
WebAssembly specification (version 3.0, sections 5.5 and 3.5, with the proposals of the
operators). Contexts and function bodies are those of `Verif.Op.Typing`. -/
namespace Verif.Valid.Spec
open Verif.Reader Verif.Items
open Verif.Types (RefType ValType)
open Verif.TypeList.Spec (SubT Ref CompSub RefSub rollAll)
open Verif.Op.Typing
open Verif.Instr (Operator)

/-! ## What a module says -/

/-- Where the elements of a segment go. -/
inductive ElemMode where
  | passive
  | active (table : BitVec 32) (offset : List Operator)
  | declared

inductive ElemItems where
  | funcs (is : List (BitVec 32))
  | exprs (ty : RefType) (es : List (List Operator))

/-- A module: its recursion groups of types (references are type indices), imports, and so on.
A data segment is passive (`none`) or active: the index of a memory and an offset. A body has
declarations of locals and operators. -/
structure Mod where
  types : List (List (SubT Nat))
  imports : List Import
  funcs : List (BitVec 32)
  tables : List (TableType × Option (List Operator))
  mems : List MemoryType
  tags : List TagType
  globals : List (GlobalType × List Operator)
  exports : List Export
  start : Option (BitVec 32)
  elems : List (ElemMode × ElemItems)
  dataCount : Option (BitVec 32)
  bodies : List (List (BitVec 32 × ValType) × List Operator)
  datas : List (Option (BitVec 32 × List Operator))

/-- The section of a run of the parser with this id. -/
def sectionAt (tr : List Parser.Event) (id : UInt8) : Option SectionLimited :=
  tr.findSome? fun e => match e.payload with
    | .limited i count reader => if i = id then some ⟨reader, count⟩ else none
    | _ => none

/-- The items of that section; an absent section has none. -/
def Holds {α : Type} (tr : List Parser.Event) (id : UInt8) (item : R α) (xs : List α) : Prop :=
  match sectionAt tr id with
  | some sec => sec.collect item = .ok xs
  | none => xs = []

def startAt (tr : List Parser.Event) : Option (BitVec 32) :=
  tr.findSome? fun e => match e.payload with
    | .start func _ => some func
    | _ => none

def dataCountAt (tr : List Parser.Event) : Option (BitVec 32) :=
  tr.findSome? fun e => match e.payload with
    | .dataCount count _ => some count
    | _ => none

/-- The bytes of the function bodies. -/
def bodiesAt (tr : List Parser.Event) : List Reader :=
  tr.filterMap fun e => match e.payload with
    | .codeEntry body => some body
    | _ => none

/-- The imports that an entry of the import section stands for. -/
def ImportsAre (f : Instr.Features) : Imports → List Import → Prop
  | .single _ i, is => is = [i]
  | .compact1 module s, is => ∃ xs, s.collect (readImportItem f) = .ok xs ∧
      is = xs.map fun x => ⟨module, x.name, x.ty⟩
  | .compact2 module ty s, is => ∃ ns, s.collect readString = .ok ns ∧
      is = ns.map fun n => ⟨module, n, ty⟩

def TableSays (f : Instr.Features) (t : Table) (x : TableType × Option (List Operator)) : Prop :=
  x.1 = t.ty ∧ match t.init, x.2 with
    | .refNull, none => True
    | .expr e, some os => ConstOps f e os
    | _, _ => False

def GlobalSays (f : Instr.Features) (g : Global) (x : GlobalType × List Operator) : Prop :=
  x.1 = g.ty ∧ ConstOps f g.initExpr x.2

/-- An absent table index is table 0. -/
def ElemModeIs (f : Instr.Features) : ElementKind → ElemMode → Prop
  | .passive, .passive | .declared, .declared => True
  | .active i e, .active t os => t = i.getD 0 ∧ ConstOps f e os
  | _, _ => False

def ElemItemsAre (f : Instr.Features) : ElementItems → ElemItems → Prop
  | .functions s, .funcs is => s.collect readVarU32 = .ok is
  | .expressions t s, .exprs ty os => ty = t ∧
      ∃ es, s.collect (readConstExpr f) = .ok es ∧ List.Forall₂ (ConstOps f) es os
  | _, _ => False

def ElemSays (f : Instr.Features) (e : Element) (x : ElemMode × ElemItems) : Prop :=
  ElemModeIs f e.kind x.1 ∧ ElemItemsAre f e.items x.2

def DataSays (f : Instr.Features) (d : Data) (x : Option (BitVec 32 × List Operator)) : Prop :=
  match d.kind, x with
  | .passive, none => True
  | .active i e, some (j, os) => j = i ∧ ConstOps f e os
  | _, _ => False

/-- A run of the parser over the bytes of a module shows this module. -/
structure Says (f : Items.Feats) (tr : List Parser.Event) (M : Mod) : Prop where
  types : ∃ gs, Holds tr 1 Types.readRecGroup gs ∧ List.Forall₂ TypeList.Src gs M.types
  imports : ∃ is parts, Holds tr 2 (readImports f) is ∧
    List.Forall₂ (ImportsAre f.toFeatures) is parts ∧ M.imports = parts.flatten
  funcs : Holds tr 3 readVarU32 M.funcs
  tables : ∃ ts, Holds tr 4 (readTable f.toFeatures) ts ∧
    List.Forall₂ (TableSays f.toFeatures) ts M.tables
  mems : Holds tr 5 (readMemoryType f.toFeatures) M.mems
  tags : Holds tr 13 readTagType M.tags
  globals : ∃ gs, Holds tr 6 (readGlobal f.toFeatures) gs ∧
    List.Forall₂ (GlobalSays f.toFeatures) gs M.globals
  exports : Holds tr 7 readExport M.exports
  start : M.start = startAt tr
  elems : ∃ es, Holds tr 9 (readElement f.toFeatures) es ∧
    List.Forall₂ (ElemSays f.toFeatures) es M.elems
  dataCount : M.dataCount = dataCountAt tr
  bodies : List.Forall₂ (fun r b => Op.Parsed f.toFeatures r b.1 b.2) (bodiesAt tr) M.bodies
  datas : ∃ ds, Holds tr 11 (readData f.toFeatures) ds ∧
    List.Forall₂ (DataSays f.toFeatures) ds M.datas

/-! ## Imports by kind -/

def importedFuncs (is : List Import) : List (BitVec 32) := is.filterMap fun i => match i.ty with
  | .func t | .funcExact t => some t
  | _ => none

def importedTables (is : List Import) : List TableType := is.filterMap fun i => match i.ty with
  | .table t => some t
  | _ => none

def importedMems (is : List Import) : List MemoryType := is.filterMap fun i => match i.ty with
  | .memory t => some t
  | _ => none

def importedTags (is : List Import) : List TagType := is.filterMap fun i => match i.ty with
  | .tag t => some t
  | _ => none

def importedGlobals (is : List Import) : List GlobalType := is.filterMap fun i => match i.ty with
  | .global t => some t
  | _ => none

/-! ## Validity -/

/-- Limits within the range 0 to `n`. -/
def LimitsOk (initial : BitVec 64) (maximum : Option (BitVec 64)) (n : Nat) : Prop :=
  initial.toNat ≤ n ∧ ∀ m, maximum = some m → initial.toNat ≤ m.toNat ∧ m.toNat ≤ n

def addrBits (is64 : Bool) : Nat := if is64 then 64 else 32

def TableOk (C : Ctx) (t : TableType) (tt : TableT) : Prop :=
  C.RefTy t.elementType tt.elem ∧ tt.is64 = t.table64 ∧ tt.shared = t.shared ∧
  LimitsOk t.initial t.maximum (2 ^ addrBits t.table64 - 1) ∧
  (t.shared = true → C.sharedHeap tt.elem.heap = true)

/-- A memory has pages of 1 or of 2^16 bytes; its size in bytes is at most 2^32 or 2^64, and its
number of pages is a number of 32 or 64 bits. -/
def MemOk (t : MemoryType) (is64 : Bool) : Prop :=
  is64 = t.memory64 ∧ (∀ p, t.pageSizeLog2 = some p → p = 0 ∨ p = 16) ∧
  LimitsOk t.initial t.maximum
    (min (2 ^ addrBits is64 / 2 ^ (t.pageSizeLog2.getD 16).toNat) (2 ^ addrBits is64 - 1)) ∧
  (t.shared = true → t.maximum.isSome)

/-- The type with this index is a function type. -/
def FuncAt (C : Ctx) (i : BitVec 32) (x : SubT Nat) (ps rs : List V) : Prop :=
  C.type i = some x ∧ x.comp = .func ps rs

def TagOk (C : Ctx) (t : TagType) (ty : List V × List V) : Prop :=
  ∃ x, FuncAt C t.funcTypeIdx x ty.1 ty.2

def sharedVal (C : Ctx) : V → Prop
  | .ref r => C.sharedHeap r.heap = true
  | _ => True

def GlobalOk (C : Ctx) (t : GlobalType) (g : GlobalT) : Prop :=
  C.ValTy t.contentType g.content ∧ g.mutable = t.mutable ∧ g.shared = t.shared ∧
  (t.shared = true → sharedVal C g.content)

/-- A table without an initial value has a nullable element type. -/
def TableInitOk (C : Ctx) (tt : TableT) : Option (List Operator) → Prop
  | none => tt.elem.nullable = true
  | some os => ConstTy C os (.ref tt.elem)

def ExportOk (C : Ctx) (x : Export) : Prop :=
  match x.kind with
  | .func => x.index.toNat < C.funcs.length
  | .table => x.index.toNat < C.tables.length
  | .memory => x.index.toNat < C.mems.length
  | .global => x.index.toNat < C.globals.length
  | .tag => x.index.toNat < C.tags.length
  | .funcExact => False

def addrTy (is64 : Bool) : V := if is64 then .i64 else .i32

def ElemModeOk (C : Ctx) (ty : Ref Nat) : ElemMode → Prop
  | .passive | .declared => True
  | .active t os => ∃ tt, C.tables[t.toNat]? = some tt ∧ RefSub C.decls ty tt.elem ∧
      ConstTy C os (addrTy tt.is64)

def ElemItemsOk (C : Ctx) (ty : Ref Nat) : ElemItems → Prop
  | .funcs is => ty = ⟨false, .abs false .func⟩ ∧ ∀ i ∈ is, i.toNat < C.funcs.length
  | .exprs t es => C.RefTy t ty ∧ ∀ os ∈ es, ConstTy C os (.ref ty)

def ElemOk (C : Ctx) (e : ElemMode × ElemItems) (ty : Ref Nat) : Prop :=
  ElemModeOk C ty e.1 ∧ ElemItemsOk C ty e.2

def DataOk (C : Ctx) : Option (BitVec 32 × List Operator) → Prop
  | none => True
  | some (i, os) => ∃ is64, C.mems[i.toNat]? = some is64 ∧ ConstTy C os (addrTy is64)

/-- A function occurs in an expression. -/
def Refs (os : List Operator) (i : BitVec 32) : Prop := Operator.idx .refFunc i ∈ os

def ElemItems.Mentions (i : BitVec 32) : ElemItems → Prop
  | .funcs is => i ∈ is
  | .exprs _ es => ∃ os ∈ es, Refs os i

def ElemMode.Mentions (i : BitVec 32) : ElemMode → Prop
  | .active _ os => Refs os i
  | _ => False

/-- A function occurs in the module outside of the bodies and the start function. -/
def Mentions (M : Mod) (i : BitVec 32) : Prop :=
  (∃ t ∈ M.tables, ∃ os, t.2 = some os ∧ Refs os i) ∨
  (∃ g ∈ M.globals, Refs g.2 i) ∨
  (∃ x ∈ M.exports, x.kind = .func ∧ x.index = i) ∨
  (∃ e ∈ M.elems, e.1.Mentions i ∨ e.2.Mentions i) ∨
  (∃ d ∈ M.datas, ∃ j os, d = some (j, os) ∧ Refs os i)

/-- The types of a module: references go to types of the same or of earlier groups; a type has an
identifier, which stands for the type with references replaced by identifiers; declared
supertypes come earlier, are not final and match; shared types have shared parts; continuations
are of function types. -/
structure TypesOk (C : Ctx) (gs : List (List (SubT Nat))) : Prop where
  length : C.types.length = gs.flatten.length
  scope : ∀ (k : Nat) g, gs[k]? = some g → ∀ x ∈ g, ∀ r ∈ x.refs,
    r < (gs.take (k + 1)).flatten.length
  defs : ∀ (i : Nat) x, gs.flatten[i]? = some x → ∃ id, C.types[i]? = some id ∧
    C.defs id = some (x.map fun r => (C.types[r]?).getD 0)
  /-- Types with the same identifier are the same defined type. -/
  ids : ∀ i j : Nat, i < C.types.length → C.types[i]? = C.types[j]? →
    (rollAll gs)[i]? = (rollAll gs)[j]?
  super : ∀ id x j, C.defs id = some x → x.supertype = some j → j < id ∧ ∃ y, C.defs j = some y ∧
    y.final = false ∧ x.shared = y.shared ∧ CompSub C.decls x.comp y.comp
  shared : ∀ id x, C.defs id = some x → x.shared = true → TypeList.compShared C.decls x.comp
  cont : ∀ id x j, C.defs id = some x → x.comp = .cont j →
    ∃ y ps rs, C.defs j = some y ∧ y.comp = .func ps rs

/-- Locals with types, and operators that are valid. -/
def BodyOk (C : Ctx) (ty : BitVec 32) (b : List (BitVec 32 × ValType) × List Operator) : Prop :=
  ∃ x ps rs vs, FuncAt C ty x ps rs ∧
    List.Forall₂ (fun d v => d.1 = v.1 ∧ C.ValTy d.2 v.2) b.1 vs ∧
    Valid (Fn.body C ps rs (Op.InitSpec.expand vs) x.shared) b.2

/-- The module is valid, and its parts have the types that `C` gives them; `body` is the rule for
function bodies. -/
structure ModuleOk (C : Ctx)
    (body : BitVec 32 → List (BitVec 32 × ValType) × List Operator → Prop) (M : Mod) : Prop where
  types : TypesOk C M.types
  funcs : C.funcs = importedFuncs M.imports ++ M.funcs
  funcTypes : ∀ i ∈ C.funcs, ∃ x ps rs, FuncAt C i x ps rs
  tables : List.Forall₂ (TableOk C) (importedTables M.imports ++ M.tables.map (·.1)) C.tables
  mems : List.Forall₂ MemOk (importedMems M.imports ++ M.mems) C.mems
  tags : List.Forall₂ (TagOk C) (importedTags M.imports ++ M.tags) C.tags
  globals : List.Forall₂ (GlobalOk C) (importedGlobals M.imports ++ M.globals.map (·.1)) C.globals
  /-- Initial values of tables can refer to imported globals. -/
  tableInits : List.Forall₂
    (TableInitOk { C with globals := C.globals.take (importedGlobals M.imports).length })
    (C.tables.drop (importedTables M.imports).length) (M.tables.map (·.2))
  /-- Initial values of globals can refer to earlier globals. -/
  globalInits : ∀ (k : Nat) t os g, M.globals[k]? = some (t, os) →
    C.globals[(importedGlobals M.imports).length + k]? = some g →
    ConstTy { C with globals := C.globals.take ((importedGlobals M.imports).length + k) } os g.content
  exports : ∀ x ∈ M.exports, ExportOk C x
  exportNames : (M.exports.map (·.name)).Nodup
  start : ∀ i, M.start = some i → ∃ t x, C.funcs[i.toNat]? = some t ∧ FuncAt C t x [] []
  elems : List.Forall₂ (ElemOk C) M.elems C.elems
  /-- Bodies know of data segments when there is a data count. -/
  dataCount : C.datas = (M.dataCount.map (·.toNat)).getD 0 ∧
    ∀ n, M.dataCount = some n → M.datas.length = n.toNat
  datas : ∀ d ∈ M.datas, DataOk C d
  bodies : List.Forall₂ body M.funcs M.bodies
  refs : ∀ i, i ∈ C.refs ↔ Mentions M i

end Verif.Valid.Spec
