/-!
# Text format: type uses and their expansion (`crates/wast/src/core/resolve/types.rs`)

A type use in the text format, such as `(func (param i32))`, may leave out the
index of its type.  The expansion pass gives every such use an index: that of
a type definition with the same signature when one is written in the module,
else that of a new definition appended to the module.
-/

namespace Verif.Expand

/-- `Id`, `crates/wast/src/token.rs:54-59, 100-113`: the span takes no part in
equality and is left out.  Generation zero is an identifier of the source,
anything else was made up by `gensym`. -/
structure Id where
  name : String
  gen : Nat
deriving DecidableEq, Repr

/-- `Index`, `crates/wast/src/token.rs:164-171, 219-227`. -/
inductive Index where
  | num (n : Nat)
  | id (i : Id)
deriving DecidableEq, Repr

/-- `HeapType`, `crates/wast/src/core/types.rs:110-120`: abstract heap types are
only told apart by a number. -/
inductive Heap where
  | abs (shared : Bool) (k : Nat)
  | concrete (i : Index)
  | exact (i : Index)
deriving DecidableEq, Repr

/-- `ValType`, `crates/wast/src/core/types.rs:11-18`: the five number and vector
types are told apart by a number. -/
inductive ValTy where
  | num (k : Nat)
  | ref (nullable : Bool) (h : Heap)
deriving DecidableEq, Repr

/-- `FunctionType`, `crates/wast/src/core/types.rs:695-702`: parameters carry an
optional identifier (their `@name` is left out). -/
structure FuncTy where
  params : List (Option Id × ValTy)
  results : List ValTy
deriving DecidableEq, Repr

/-- `FunctionType::default`, derived at `crates/wast/src/core/types.rs:693`. -/
def FuncTy.empty : FuncTy := ⟨[], []⟩

/-- `StorageType`, `crates/wast/src/core/types.rs:530-534`. -/
inductive Storage where
  | packed (k : Nat)
  | val (v : ValTy)
deriving DecidableEq, Repr

/-- `InnerTypeKind`, `crates/wast/src/core/types.rs:920-930`: mutability of
fields and elements is left out. -/
inductive Kind where
  | func (f : FuncTy)
  | struct (fields : List (Option Id × Storage))
  | array (s : Storage)
  | cont (i : Index)
deriving DecidableEq, Repr

/-- `Type` with its `TypeDef`, `crates/wast/src/core/types.rs:954-967, 1061-1070`. -/
structure TypeDef where
  id : Option Id
  kind : Kind
  shared : Bool
  parent : Option Index
  descriptor : Option Index
  describes : Option Index
  final : Option Bool
deriving DecidableEq, Repr

/-- `TypeUse<FunctionType>`, `crates/wast/src/core/types.rs:1120-1125`. -/
structure TypeUse where
  index : Option Index
  inline : Option FuncTy
deriving DecidableEq, Repr

/-- Index spaces, `crates/wast/src/core/resolve/names.rs:16-32`. -/
inductive Space where
  | func | table | global | memory | tag | type | data | elem
deriving DecidableEq, Repr

/-- What an ordinary instruction refers to, in the order in which
`crates/wast/src/core/resolve/names.rs:391-712` resolves it. -/
inductive Ref where
  | item (s : Space) (i : Index)
  | loc (i : Index)
  | label (i : Index)
  | field (t f : Index)
  | val (v : ValTy)
  | heap (h : Heap)
deriving DecidableEq, Repr

/-- `Instruction`, `crates/wast/src/core/expr.rs:588-1320`: instructions with a
type use or that open or close blocks are kept apart; all others are an opcode
with the list of what they refer to. -/
inductive Instr where
  /-- `block`, `if`, `loop` and `try` -/
  | block (op : Nat) (label : Option Id) (ty : TypeUse)
  | tryTable (label : Option Id) (ty : TypeUse) (catches : List (Option Index × Index))
  | else_ (label : Option Id)
  | end_ (label : Option Id)
  | delegate (i : Index)
  /-- `call_indirect` and `return_call_indirect` -/
  | callIndirect (op : Nat) (table : Index) (ty : TypeUse)
  | plain (op : Nat) (refs : List Ref)
deriving DecidableEq, Repr

/-- `ItemKind`, `crates/wast/src/core/import.rs:282-296`: functions and exact
functions are told apart by a flag. -/
inductive ItemKind where
  | func (exact : Bool) (ty : TypeUse)
  | table (elem : Heap)
  | memory
  | global (ty : ValTy)
  | tag (ty : TypeUse)
deriving DecidableEq, Repr

/-- `ItemSig`, `crates/wast/src/core/import.rs:267-276`. -/
structure ItemSig where
  id : Option Id
  kind : ItemKind
deriving DecidableEq, Repr

/-- `ElemPayload`, `crates/wast/src/core/table.rs:160-170`. -/
inductive Payload where
  | indices (is : List Index)
  | exprs (ty : Heap) (es : List (List Instr))
deriving DecidableEq, Repr

/-- `ModuleField`, `crates/wast/src/core/module.rs:130-147`, after the inline
imports and exports were taken apart (`resolve/deinline_import_export.rs`).
An import group is the list of its signatures.  The limits, contents and names
that no pass looks at are left out. -/
inductive Field where
  | type (t : TypeDef)
  | recGroup (ts : List TypeDef)
  | import (sigs : List ItemSig)
  | func (id : Option Id) (ty : TypeUse) (body : Option (List (Option Id × ValTy) × List Instr))
  | table (id : Option Id) (elem : Heap) (init : Option (List Instr))
  | memory (id : Option Id)
  | global (id : Option Id) (ty : ValTy) (init : Option (List Instr))
  | tag (id : Option Id) (ty : TypeUse)
  | export (space : Space) (i : Index)
  | start (i : Index)
  | elem (id : Option Id) (active : Option (Option Index × List Instr)) (payload : Payload)
  | data (id : Option Id) (active : Option (Index × List Instr))
  | custom
deriving DecidableEq, Repr

/-- `FuncKey`, `crates/wast/src/core/resolve/types.rs:242`. -/
abbrev Key := List ValTy × List ValTy

/-- `FunctionType::key`, `crates/wast/src/core/resolve/types.rs:247-251`. -/
def FuncTy.key (f : FuncTy) : Key := (f.params.map (·.2), f.results)

/-- `Expander`, `crates/wast/src/core/resolve/types.rs:11-22`, with the counter
of `crates/wast/src/gensym.rs:4`.  The map is a list whose first entry for a
key counts. -/
structure Expander where
  map : List (Key × Index)
  toPrepend : List TypeDef
  next : Nat
deriving DecidableEq, Repr

/-- `gensym::generate`, `crates/wast/src/gensym.rs:10-16`, and `Id::gensym`,
`crates/wast/src/token.rs:73-80`. -/
def generate (cx : Expander) : Id × Expander :=
  (⟨"gensym", cx.next + 1⟩, { cx with next := cx.next + 1 })

/-- `FuncKey::lookup`, `crates/wast/src/core/resolve/types.rs:257-259`. -/
def lookup (k : Key) (cx : Expander) : Option Index :=
  (cx.map.find? (fun e => e.1 = k)).map (·.2)

/-- `FuncKey::insert`, `crates/wast/src/core/resolve/types.rs:275-277`: an
existing entry stays. -/
def insert (k : Key) (cx : Expander) (i : Index) : Expander :=
  { cx with map := if (lookup k cx).isSome then cx.map else (k, i) :: cx.map }

/-- `FuncKey::to_def`, `crates/wast/src/core/resolve/types.rs:261-273`, with the
identifier given at `:216-225`. -/
def toDef (k : Key) (id : Id) : TypeDef :=
  { id := some id, kind := .func ⟨k.1.map (fun t => (none, t)), k.2⟩, shared := false,
    parent := none, descriptor := none, describes := none, final := none }

/-- `Expander::expand_header`, `crates/wast/src/core/resolve/types.rs:50-64`,
with `gensym::fill`, `crates/wast/src/gensym.rs:18-20`. -/
def expandHeader : Field → Expander → Field × Expander
  | .type t, cx =>
    let r := match t.id with
      | some i => (i, cx)
      | none => generate cx
    let t' := { t with id := some r.1 }
    match t.kind with
    | .func f => (.type t', insert f.key r.2 (.id r.1))
    | _ => (.type t', r.2)
  | f, cx => (f, cx)

/-- `Expander::key_to_idx`, `crates/wast/src/core/resolve/types.rs:206-229`. -/
def keyToIdx (k : Key) (cx : Expander) : Index × Expander :=
  match lookup k cx with
  | some i => (i, cx)
  | none =>
    let r := generate cx
    let cx := { r.2 with toPrepend := r.2.toPrepend ++ [toDef k r.1] }
    (.id r.1, insert k cx (.id r.1))

/-- `Expander::expand_type_use`, `crates/wast/src/core/resolve/types.rs:183-204`. -/
def expandTypeUse (u : TypeUse) (cx : Expander) : TypeUse × Expander :=
  match u.index with
  | some _ => (u, cx)
  | none =>
    let k := match u.inline with
      | some f => f.key
      | none => FuncTy.empty.key
    let r := keyToIdx k cx
    ({ u with index := some r.1 }, r.2)

/-- The block type arm of `Expander::expand_instr`,
`crates/wast/src/core/resolve/types.rs:139-175`. -/
def expandBlockType (u : TypeUse) (cx : Expander) : TypeUse × Expander :=
  if u.index.isSome then (u, cx)
  else match u.inline with
    | some f =>
      if f.params.length = 0 ∧ f.results.length ≤ 1 then (u, cx) else expandTypeUse u cx
    | none => ({ u with inline := some FuncTy.empty }, cx)

/-- `Expander::expand_instr`, `crates/wast/src/core/resolve/types.rs:137-181`. -/
def expandInstr : Instr → Expander → Instr × Expander
  | .block op l u, cx => let r := expandBlockType u cx; (.block op l r.1, r.2)
  | .tryTable l u cs, cx => let r := expandBlockType u cx; (.tryTable l r.1 cs, r.2)
  | .callIndirect op t u, cx => let r := expandTypeUse u cx; (.callIndirect op t r.1, r.2)
  | i, cx => (i, cx)

/-- A `for` loop over a vector that changes its elements and the expander. -/
def each {α β : Type} (f : α → Expander → β × Expander) : List α → Expander → List β × Expander
  | [], cx => ([], cx)
  | a :: as, cx =>
    let r := f a cx
    let rs := each f as r.2
    (r.1 :: rs.1, rs.2)

/-- An `if let Some(x)` that changes `x` and the expander. -/
def ifSome {α : Type} (f : α → Expander → α × Expander) : Option α → Expander → Option α × Expander
  | none, cx => (none, cx)
  | some a, cx => let r := f a cx; (some r.1, r.2)

/-- `Expander::expand_expression`, `crates/wast/src/core/resolve/types.rs:131-135`. -/
def expandExpression : List Instr → Expander → List Instr × Expander := each expandInstr

/-- `Expander::expand_item_sig`, `crates/wast/src/core/resolve/types.rs:122-129`. -/
def expandItemSig (s : ItemSig) (cx : Expander) : ItemSig × Expander :=
  match s.kind with
  | .func e u => let r := expandTypeUse u cx; ({ s with kind := .func e r.1 }, r.2)
  | .tag u => let r := expandTypeUse u cx; ({ s with kind := .tag r.1 }, r.2)
  | _ => (s, cx)

/-- The second component of a pair is an expression to expand. -/
def expandSnd {α : Type} (p : α × List Instr) (cx : Expander) : (α × List Instr) × Expander :=
  let r := expandExpression p.2 cx; ((p.1, r.1), r.2)

/-- The payload part of the element arm,
`crates/wast/src/core/resolve/types.rs:93-97`. -/
def expandPayload : Payload → Expander → Payload × Expander
  | .indices is, cx => (.indices is, cx)
  | .exprs t es, cx => let r := each expandExpression es cx; (.exprs t r.1, r.2)

/-- `Expander::expand`, `crates/wast/src/core/resolve/types.rs:66-120`. -/
def expandField : Field → Expander → Field × Expander
  | .import sigs, cx => let r := each expandItemSig sigs cx; (.import r.1, r.2)
  | .func id u body, cx =>
    let r := expandTypeUse u cx
    let b := ifSome expandSnd body r.2
    (.func id r.1 b.1, b.2)
  | .global id t init, cx => let r := ifSome expandExpression init cx; (.global id t r.1, r.2)
  | .data id act, cx => let r := ifSome expandSnd act cx; (.data id r.1, r.2)
  | .elem id act p, cx =>
    let r := ifSome expandSnd act cx
    let q := expandPayload p r.2
    (.elem id r.1 q.1, q.2)
  | .tag id u, cx => let r := expandTypeUse u cx; (.tag id r.1, r.2)
  | .table id t init, cx => let r := ifSome expandExpression init cx; (.table id t r.1, r.2)
  | f, cx => (f, cx)

/-- `expand` and `Expander::process`,
`crates/wast/src/core/resolve/types.rs:6-9, 25-48`: no header leaves anything
to prepend, so the inner loop of the first pass inserts nothing.  `next` is the
value of the counter of generated identifiers at entry. -/
def expand (next : Nat) (fields : List Field) : List Field :=
  let h := each expandHeader fields ⟨[], [], next⟩
  let r := each expandField h.1 h.2
  r.1 ++ r.2.toPrepend.map .type

end Verif.Expand
