import Verif.Gc.Spec
/-! What it means that a module is a part of another one with renamed indices. -/
namespace Verif.Gc.Spec
open Verif.Reader Verif.Instr Verif.Items Verif.Reenc Verif.Reenc.Spec

/-! ### Renamed items -/

section
variable (ρ : Maps)

/-- The heap type given to the encoder is this one with its index renamed. -/
def HeapRen : Types.HeapType → Types.Enc.HeapType → Prop
  | .abstract s t, .abstract s' t' => s' = s ∧ t' = t
  | .concrete (.module i), .concrete j => j = ρ.type i
  | .exact (.module i), .exact j => j = ρ.type i
  | _, _ => False

def ValRen : Types.ValType → Types.Enc.ValType → Prop
  | .i32, .i32 | .i64, .i64 | .f32, .f32 | .f64, .f64 | .v128, .v128 => True
  | .ref r, .ref e => e.nullable = r.isNullable ∧ ∃ h, r.heapType = some h ∧ HeapRen ρ h e.heapType
  | _, _ => False

def FuncTypeRen (t : Types.FuncType) (e : Types.Enc.FuncType) : Prop :=
  List.Forall₂ (ValRen ρ) t.params e.params ∧ List.Forall₂ (ValRen ρ) t.results e.results

def MemoryRen (t : MemoryType) (e : Items.Enc.MemoryType) : Prop :=
  e.minimum = t.initial ∧ e.maximum = t.maximum ∧ e.memory64 = t.memory64 ∧ e.shared = t.shared ∧
    e.pageSizeLog2 = t.pageSizeLog2

def GlobalTypeRen (t : GlobalType) (e : Items.Enc.GlobalType) : Prop :=
  ValRen ρ t.contentType e.valType ∧ e.mutable = t.mutable ∧ e.shared = t.shared

/-- Whoever reads the bytes of the initial value gets the renamed operators. -/
def InitRen (f : Instr.Features) (c : ConstExpr) (e : Items.Enc.ConstExpr) : Prop :=
  ∀ (q : Reader) (tail : List UInt8), q.rest = e.encode ++ tail → ∃ c',
    readConstExpr f q = .ok (c', { q with position := q.position + e.encode.length }) ∧
      ConstRenamed ρ f c c'

/-- Whoever reads the body gets the renamed locals, the operators `first`, and the renamed
operators. -/
def BodyRen (f : Instr.Features) (first : List Operator) (body : Reader) (b : List UInt8) : Prop :=
  ∀ q : Reader, q.rest = b → ∃ ds ops s ds' ops' s', localsOf body = .ok ds ∧
    operatorsOf f body = .ok (ops, s) ∧ localsOf q = .ok ds' ∧
    operatorsOf f q = .ok (first ++ ops', s') ∧ List.Forall₂ (LocalRenamed ρ) ds ds' ∧
    List.Forall₂ (OpRenamed ρ) ops ops' ∧ s'.stack = s.stack ∧ s.reader.eof = true ∧
    s'.reader.eof = true

def ExportRen (x : Export) (e : Items.Enc.Export) : Prop :=
  e.name = x.name ∧ e.index = into ρ (exportSpace x.kind) x.index ∧
    match x.kind, e.kind with
    | .func, .func | .table, .table | .memory, .memory | .global, .global => True
    | _, _ => False

end

/-! ### The index spaces of the result -/

inductive OutFunc where
  | imp (module name : List UInt8) (ty : BitVec 32)
  | loc (ty : BitVec 32) (body : List UInt8)

inductive OutGlobal where
  | imp (module name : List UInt8) (ty : Items.Enc.GlobalType)
  | loc (g : Items.Enc.Global)

abbrev OutImport := List UInt8 × List UInt8 × Items.Enc.EntityType

def importedFunc : OutImport → Option OutFunc
  | (m, n, .function ty) => some (.imp m n ty)
  | _ => none

def importedGlobal : OutImport → Option OutGlobal
  | (m, n, .global ty) => some (.imp m n ty)
  | _ => none

def importedMemory : OutImport → Option (List UInt8 × List UInt8 × Items.Enc.MemoryType)
  | (m, n, .memory ty) => some (m, n, ty)
  | _ => none

/-- Imported functions come first, then those of the function and code sections. -/
def outFuncs (o : Out) : List OutFunc :=
  o.imports.filterMap importedFunc ++ List.zipWith OutFunc.loc o.funcs o.code

def outGlobals (o : Out) : List OutGlobal :=
  o.imports.filterMap importedGlobal ++ o.globals.map OutGlobal.loc

/-! ### The relation -/

/-- What becomes of a function, where `first` is put before the operators of exported functions. -/
def FuncRen (ρ : Maps) (f : Instr.Features) (m : Module) (main : Option (List UInt8))
    (first : List Operator) (i : BitVec 32) (fn : Func) : OutFunc → Prop
  | .imp mm n ty => ty = ρ.type fn.ty ∧ ∃ n0, fn.dfn = .imp mm n0 ∧
      if isRealloc mm n0 then main = some n else n = n0
  | .loc ty b => ty = ρ.type fn.ty ∧
      match fn.dfn with
      | .imp mm n0 => isRealloc mm n0 = true ∧ main = none ∧ reallocFunction = .ok b
      | .loc body =>
        BodyRen ρ f (if ∃ e ∈ m.exports, e.kind = .func ∧ e.index = i then first else []) body b

def GlobalRen (ρ : Maps) (f : Instr.Features) (g : Global) : OutGlobal → Prop
  | .imp mm n t => g.dfn = .imp mm n ∧ GlobalTypeRen ρ g.ty t
  | .loc x => GlobalTypeRen ρ g.ty x.ty ∧ ∃ c, g.dfn = .loc c ∧ InitRen ρ f c x.init

/-- Functions that are in no adapter: `cabi_realloc` of the main module, `realloc_via_memory_grow`
and the function that allocates the stack, each with its type. -/
def Helper (main : Option (List UInt8)) (types : List Types.Enc.FuncType) : OutFunc → Prop
  | .imp mm n ty => mm = mainModule ∧ main = some n ∧ types[ty.toNat]? = some reallocType
  | .loc ty b => reallocFunction = .ok b ∧ types[ty.toNat]? = some reallocType ∨
      types[ty.toNat]? = some emptyFuncType ∧ ∃ realloc sp st, stackFunction realloc sp st = .ok b

/-- The item is in the module. -/
def Present (m : Module) : Item → Prop
  | (.type, i) => i.toNat < m.types.length
  | (.func, i) => i.toNat < m.funcs.length
  | (.table, i) => i.toNat < m.tables.length
  | (.memory, i) => i.toNat < m.memories.length
  | (.global, i) => i.toNat < m.globals.length
  | _ => False

/-- The result has a copy, with renamed indices, of each item that is live, in a place of its own
which the renaming tells, and besides only helpers. -/
structure Part (f : Instr.Features) (m : Module) (main : Option (List UInt8)) (L : Live) (o : Out)
    (ρ : Maps) (first : List Operator) : Prop where
  /-- Different live items have different places. -/
  inj : ∀ s i j, Present m (s, i) → Present m (s, j) → live L (s, i) = true →
    live L (s, j) = true → into ρ s i = into ρ s j → i = j
  /-- What is exported is live. -/
  roots : ∀ x ∈ m.exports, Present m (exportSpace x.kind, x.index) ∧
    live L (exportSpace x.kind, x.index) = true
  /-- What a live item refers to is live, so that renamed indices are those of copies. -/
  closed : ∀ x y, Present m x → live L x = true → Refs f m x y → collected y.1 = true →
    Present m y ∧ live L y = true
  /-- There are as many bodies as functions. -/
  code : o.code.length = o.funcs.length
  type : ∀ i t, m.types[i.toNat]? = some t → live L (.type, i) = true →
    ∃ t', o.types[(ρ.type i).toNat]? = some t' ∧ FuncTypeRen ρ t t'
  func : ∀ i fn, m.funcs[i.toNat]? = some fn → live L (.func, i) = true →
    ∃ fn', (outFuncs o)[(ρ.func i).toNat]? = some fn' ∧ FuncRen ρ f m main first i fn fn'
  global : ∀ i g, m.globals[i.toNat]? = some g → live L (.global, i) = true →
    ∃ g', (outGlobals o)[(ρ.global i).toNat]? = some g' ∧ GlobalRen ρ f g g'
  memory : ∀ i t, m.memories[i.toNat]? = some t → live L (.memory, i) = true →
    ∃ mm n e, (o.imports.filterMap importedMemory)[(ρ.memory i).toNat]? = some (mm, n, e) ∧
      t.dfn = .imp mm n ∧ MemoryRen t.ty e
  /-- The types that nothing refers to are those of helpers. -/
  typeOnly : ∀ k t', o.types[k]? = some t' → (∃ i t, m.types[i.toNat]? = some t ∧
    live L (.type, i) = true ∧ (ρ.type i).toNat = k) ∨ t' = reallocType ∨ t' = emptyFuncType
  funcOnly : ∀ k fn', (outFuncs o)[k]? = some fn' → (∃ i fn, m.funcs[i.toNat]? = some fn ∧
    live L (.func, i) = true ∧ (ρ.func i).toNat = k) ∨ Helper main o.types fn'
  globalOnly : ∀ k g', (outGlobals o)[k]? = some g' → ∃ i g, m.globals[i.toNat]? = some g ∧
    live L (.global, i) = true ∧ (ρ.global i).toNat = k
  memoryOnly : ∀ k e', (o.imports.filterMap importedMemory)[k]? = some e' →
    ∃ i t, m.memories[i.toNat]? = some t ∧ live L (.memory, i) = true ∧ (ρ.memory i).toNat = k
  /-- No tables, no memories and nothing else imported. -/
  rest : o.tables = [] ∧ o.memories = [] ∧ ∀ x ∈ o.imports, (importedFunc x).isSome ∨
    (importedGlobal x).isSome ∨ (importedMemory x).isSome
  exports : List.Forall₂ (ExportRen ρ) m.exports o.exports

/-! ### What `Module::parse` guarantees -/

def Def.isImp : Def α → Bool
  | .imp _ _ => true
  | .loc _ => false

/-- Imports have the lowest indices. -/
def ImportsFirst (ds : List (Def α)) : Prop :=
  ds.Pairwise fun a b => Def.isImp b = true → Def.isImp a = true

/-- The imports of an index space come before its definitions, initial values were read with
`ConstExpr::from_reader`, and the index spaces have room for the helpers. -/
structure Parsed (f : Instr.Features) (m : Module) : Prop where
  funcs : ImportsFirst (m.funcs.map (·.dfn))
  globals : ImportsFirst (m.globals.map (·.dfn))
  inits : ∀ g ∈ m.globals, ∀ c, g.dfn = .loc c → ∃ r r', readConstExpr f r = .ok (c, r')
  types : m.types.length + 3 < 2 ^ 32
  numFuncs : m.funcs.length + 4 < 2 ^ 32
  numGlobals : m.globals.length < 2 ^ 32
  numMemories : m.memories.length < 2 ^ 32
  names : (m.exports.map (·.name)).Nodup

end Verif.Gc.Spec
