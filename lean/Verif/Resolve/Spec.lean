import Verif.Resolve.Model
import Verif.Expand.Spec

/-!
# What it means for the names of a module to be resolved

Stated on the module before and after, without the resolver: an identifier
stands for the position at which it is declared.
-/

namespace Verif.Resolve

open Verif.Expand

/-- Something a module declares. -/
inductive Decl where
  | item (s : Space) (id : Option Id)
  | type (t : TypeDef)
deriving DecidableEq

/-- The space of an imported item. -/
def importSpace : ItemKind → Space
  | .func _ _ => .func
  | .table _ => .table
  | .memory => .memory
  | .global _ => .global
  | .tag _ => .tag

/-- What a field declares, in order. -/
def decls : Field → List Decl
  | .type t => [.type t]
  | .recGroup ts => ts.map .type
  | .import sigs => sigs.map fun s => .item (importSpace s.kind) s.id
  | .func id _ _ => [.item .func id]
  | .table id _ _ => [.item .table id]
  | .memory id => [.item .memory id]
  | .global id _ _ => [.item .global id]
  | .tag id _ => [.item .tag id]
  | .elem id _ _ => [.item .elem id]
  | .data id _ => [.item .data id]
  | .export _ _ => []
  | .start _ => []
  | .custom => []

/-- The identifier a declaration adds to a space, if it is of that space. -/
def Decl.nameIn (s : Space) : Decl → Option (Option Id)
  | .item s' id => if s' = s then some id else none
  | .type t => if s = .type then some t.id else none

/-- The index space `s`: the identifier, if any, of each of its items. -/
def space (s : Space) (ds : List Decl) : List (Option Id) := ds.filterMap (Decl.nameIn s)

/-- A declared type. -/
def Decl.typeDef? : Decl → Option TypeDef
  | .type t => some t
  | .item _ _ => none

/-- The types declared. -/
def types (ds : List Decl) : List TypeDef := ds.filterMap Decl.typeDef?

/-- No identifier is declared twice. -/
def Uniq (l : List (Option Id)) : Prop :=
  ∀ (n m : Nat) (x : Id), l[n]? = some (some x) → l[m]? = some (some x) → n = m

/-- The names of the fields of a structure. -/
def fieldNames (t : TypeDef) : List (Option Id) :=
  match t.kind with
  | .struct fs => fs.map (·.1)
  | _ => []

/-- No identifier is declared twice in any space or structure. -/
def AllUniq (ds : List Decl) : Prop :=
  (∀ s, Uniq (space s ds)) ∧ ∀ t ∈ types ds, Uniq (fieldNames t)

/-- What an index stands for: itself, or the position of the identifier. -/
inductive Denotes (l : List (Option Id)) : Index → Nat → Prop
  | num (n) : Denotes l (.num n) n
  | id (x n) : l[n]? = some (some x) → Denotes l (.id x) n

/-- An index is replaced by the number it stands for. -/
inductive IndexR (l : List (Option Id)) : Index → Index → Prop
  | mk (i n) : Denotes l i n → IndexR l i (.num n)

/-- Heap types after resolution. -/
inductive HeapR (ds : List Decl) : Heap → Heap → Prop
  | abs (s k) : HeapR ds (.abs s k) (.abs s k)
  | concrete (i i') : IndexR (space .type ds) i i' → HeapR ds (.concrete i) (.concrete i')
  | exact (i i') : IndexR (space .type ds) i i' → HeapR ds (.exact i) (.exact i')

/-- Value types after resolution. -/
inductive ValR (ds : List Decl) : ValTy → ValTy → Prop
  | num (k) : ValR ds (.num k) (.num k)
  | ref (n h h') : HeapR ds h h' → ValR ds (.ref n h) (.ref n h')

/-- Storage types after resolution. -/
inductive StorageR (ds : List Decl) : Storage → Storage → Prop
  | packed (k) : StorageR ds (.packed k) (.packed k)
  | val (v v') : ValR ds v v' → StorageR ds (.val v) (.val v')

/-- The first component stays. -/
inductive SndR {α β : Type} (R : β → β → Prop) : α × β → α × β → Prop
  | mk (a b b') : R b b' → SndR R (a, b) (a, b')

/-- Something optional stays there or stays away. -/
inductive OptR {α β : Type} (R : α → β → Prop) : Option α → Option β → Prop
  | none : OptR R none none
  | some (a b) : R a b → OptR R (some a) (some b)

/-- Function types after resolution. -/
inductive FuncR (ds : List Decl) : FuncTy → FuncTy → Prop
  | mk (ps ps' rs rs') : List.Forall₂ (SndR (ValR ds)) ps ps' → List.Forall₂ (ValR ds) rs rs' →
      FuncR ds ⟨ps, rs⟩ ⟨ps', rs'⟩

/-- The contents of types after resolution. -/
inductive KindR (ds : List Decl) : Kind → Kind → Prop
  | func (f f') : FuncR ds f f' → KindR ds (.func f) (.func f')
  | struct (fs fs') : List.Forall₂ (SndR (StorageR ds)) fs fs' → KindR ds (.struct fs) (.struct fs')
  | array (s s') : StorageR ds s s' → KindR ds (.array s) (.array s')
  | cont (i i') : IndexR (space .type ds) i i' → KindR ds (.cont i) (.cont i')

/-- Type definitions after resolution. -/
structure TypeDefR (ds : List Decl) (t t' : TypeDef) : Prop where
  id : t'.id = t.id
  kind : KindR ds t.kind t'.kind
  shared : t'.shared = t.shared
  parent : OptR (IndexR (space .type ds)) t.parent t'.parent
  descriptor : OptR (IndexR (space .type ds)) t.descriptor t'.descriptor
  describes : OptR (IndexR (space .type ds)) t.describes t'.describes
  final : t'.final = t.final

/-- The resolved function type `f'` is that of type `n`. -/
def Matches (ds : List Decl) (n : Nat) (f' : FuncTy) : Prop :=
  ∃ t g g', (types ds)[n]? = some t ∧ t.kind = .func g ∧ FuncR ds g g' ∧
    g'.params.map (·.2) = f'.params.map (·.2) ∧ g'.results = f'.results

/-- A type use stands for type `n`; if it also has a type inline, that resolves
to `inl` and is the type of `n`. -/
inductive TypeUseR (ds : List Decl) : TypeUse → Nat → Option FuncTy → Prop
  | bare (i n) : Denotes (space .type ds) i n → TypeUseR ds ⟨some i, none⟩ n none
  | both (i n f f') : Denotes (space .type ds) i n → FuncR ds f f' → Matches ds n f' →
      TypeUseR ds ⟨some i, some f⟩ n (some f')

/-- Type uses after resolution: only the number is kept. -/
inductive UseR (ds : List Decl) : TypeUse → TypeUse → Prop
  | mk (u n inl) : TypeUseR ds u n inl → UseR ds u ⟨some (.num n), none⟩

/-- Block types after resolution. -/
inductive BlockTypeR (ds : List Decl) : TypeUse → TypeUse → Prop
  | index (u u') : u.index ≠ none → UseR ds u u' → BlockTypeR ds u u'
  | inline (f f') : OptR (FuncR ds) f f' → BlockTypeR ds ⟨none, f⟩ ⟨none, f'⟩

/-- What a label stands for: the number of blocks that are between the one with
the label, the innermost that has it, and the instruction. -/
inductive LabelR (blocks : List (Option Id)) : Index → Index → Prop
  | num (n) : LabelR blocks (.num n) (.num n)
  | id (x) (inner outer) : blocks = inner ++ some x :: outer → some x ∉ inner →
      LabelR blocks (.id x) (.num inner.length)

/-- A field of a structure type. -/
inductive FieldAccR (ds : List Decl) : Index → Index → Index → Index → Prop
  | num (t n k) : Denotes (space .type ds) t n → FieldAccR ds t (.num k) (.num n) (.num k)
  | id (t n x d k) : Denotes (space .type ds) t n → (types ds)[n]? = some d →
      (fieldNames d)[k]? = some (some x) → FieldAccR ds t (.id x) (.num n) (.num k)

/-- References of instructions after resolution; `locals` are the names of
parameters and locals. -/
inductive RefR (ds : List Decl) (locals blocks : List (Option Id)) : Ref → Ref → Prop
  | item (s i i') : IndexR (space s ds) i i' → RefR ds locals blocks (.item s i) (.item s i')
  | loc (i i') : IndexR locals i i' → RefR ds locals blocks (.loc i) (.loc i')
  | label (i i') : LabelR blocks i i' → RefR ds locals blocks (.label i) (.label i')
  | field (t f t' f') : FieldAccR ds t f t' f' → RefR ds locals blocks (.field t f) (.field t' f')
  | val (v v') : ValR ds v v' → RefR ds locals blocks (.val v) (.val v')
  | heap (h h') : HeapR ds h h' → RefR ds locals blocks (.heap h) (.heap h')

/-- Catch clauses after resolution. -/
inductive CatchR (ds : List Decl) (blocks : List (Option Id)) : Option Index × Index → Option Index × Index → Prop
  | mk (t t' l l') : OptR (IndexR (space .tag ds)) t t' → LabelR blocks l l' → CatchR ds blocks (t, l) (t', l')

/-- The label after `else` and `end` is absent, or that of the innermost block,
or there is no block. -/
def LabelOk (blocks : List (Option Id)) (l : Option Id) : Prop :=
  blocks = [] ∨ l = none ∨ blocks.head? = some l

/-- Instructions in the blocks `bs` after resolution, and the blocks they leave. -/
inductive InstrR (ds : List Decl) (locals : List (Option Id)) : List (Option Id) → Instr → Instr → List (Option Id) → Prop
  | block (bs op l u u') : BlockTypeR ds u u' → InstrR ds locals bs (.block op l u) (.block op l u') (l :: bs)
  | tryTable (bs l u u' cs cs') : BlockTypeR ds u u' → List.Forall₂ (CatchR ds bs) cs cs' →
      InstrR ds locals bs (.tryTable l u cs) (.tryTable l u' cs') (l :: bs)
  | else_ (bs l) : LabelOk bs l → InstrR ds locals bs (.else_ l) (.else_ l) bs
  | end_ (bs l) : LabelOk bs l → InstrR ds locals bs (.end_ l) (.end_ l) bs.tail
  | delegate (bs i i') : LabelR bs.tail i i' → InstrR ds locals bs (.delegate i) (.delegate i') bs.tail
  | callIndirect (bs op t t' u u') : IndexR (space .table ds) t t' → UseR ds u u' →
      InstrR ds locals bs (.callIndirect op t u) (.callIndirect op t' u') bs
  | plain (bs op rs rs') : List.Forall₂ (RefR ds locals bs) rs rs' → InstrR ds locals bs (.plain op rs) (.plain op rs') bs

/-- Sequences of instructions after resolution. -/
inductive InstrsR (ds : List Decl) (locals : List (Option Id)) : List (Option Id) → List Instr → List Instr → Prop
  | nil (bs) : InstrsR ds locals bs [] []
  | cons (bs bs' i i' is is') : InstrR ds locals bs i i' bs' → InstrsR ds locals bs' is is' →
      InstrsR ds locals bs (i :: is) (i' :: is')

/-- Constant expressions after resolution: there are no locals. -/
abbrev ExprR (ds : List Decl) : List Instr → List Instr → Prop := InstrsR ds [] []

/-- The names of the parameters of a function: those of the inline type, or as
many nameless ones as its type has. -/
def paramsOf (ds : List Decl) (n : Nat) : Option FuncTy → List (Option Id)
  | some f => f.params.map (·.1)
  | none =>
    match (types ds)[n]? with
    | some t => match t.kind with
      | .func g => g.params.map (fun _ => none)
      | _ => []
    | none => []

/-- Bodies of functions after resolution. -/
inductive BodyR (ds : List Decl) (params : List (Option Id)) : List (Option Id × ValTy) × List Instr → List (Option Id × ValTy) × List Instr → Prop
  | mk (ls ls' is is') : List.Forall₂ (SndR (ValR ds)) ls ls' → Uniq (params ++ ls.map (·.1)) →
      InstrsR ds (params ++ ls.map (·.1)) [] is is' → BodyR ds params (ls, is) (ls', is')

/-- Imports after resolution. -/
inductive SigR (ds : List Decl) : ItemSig → ItemSig → Prop
  | func (id e u u') : UseR ds u u' → SigR ds ⟨id, .func e u⟩ ⟨id, .func e u'⟩
  | tag (id u u') : UseR ds u u' → SigR ds ⟨id, .tag u⟩ ⟨id, .tag u'⟩
  | global (id t t') : ValR ds t t' → SigR ds ⟨id, .global t⟩ ⟨id, .global t'⟩
  | table (id h h') : HeapR ds h h' → SigR ds ⟨id, .table h⟩ ⟨id, .table h'⟩
  | memory (id) : SigR ds ⟨id, .memory⟩ ⟨id, .memory⟩

/-- Payloads after resolution. -/
inductive PayR (ds : List Decl) : Payload → Payload → Prop
  | indices (is is') : List.Forall₂ (IndexR (space .func ds)) is is' → PayR ds (.indices is) (.indices is')
  | exprs (t t' es es') : List.Forall₂ (ExprR ds) es es' → HeapR ds t t' → PayR ds (.exprs t es) (.exprs t' es')

/-- Places of active segments after resolution. -/
inductive AtR {α : Type} (R : α → α → Prop) (ds : List Decl) : α × List Instr → α × List Instr → Prop
  | mk (a a' is is') : R a a' → ExprR ds is is' → AtR R ds (a, is) (a', is')

/-- Fields after resolution. -/
inductive FieldR (ds : List Decl) : Field → Field → Prop
  | type (t t') : TypeDefR ds t t' → FieldR ds (.type t) (.type t')
  | recGroup (ts ts') : List.Forall₂ (TypeDefR ds) ts ts' → FieldR ds (.recGroup ts) (.recGroup ts')
  | import (ss ss') : List.Forall₂ (SigR ds) ss ss' → FieldR ds (.import ss) (.import ss')
  | funcDecl (id u u') : UseR ds u u' → FieldR ds (.func id u none) (.func id u' none)
  | func (id u n inl b b') : TypeUseR ds u n inl → BodyR ds (paramsOf ds n inl) b b' →
      FieldR ds (.func id u (some b)) (.func id ⟨some (.num n), inl⟩ (some b'))
  | table (id h h' e e') : HeapR ds h h' → OptR (ExprR ds) e e' → FieldR ds (.table id h e) (.table id h' e')
  | memory (id) : FieldR ds (.memory id) (.memory id)
  | global (id t t' e e') : ValR ds t t' → OptR (ExprR ds) e e' → FieldR ds (.global id t e) (.global id t' e')
  | tag (id u u') : UseR ds u u' → FieldR ds (.tag id u) (.tag id u')
  | export (s i i') : IndexR (space s ds) i i' → FieldR ds (.export s i) (.export s i')
  | start (i i') : IndexR (space .func ds) i i' → FieldR ds (.start i) (.start i')
  | elem (id a a' p p') : OptR (AtR (OptR (IndexR (space .table ds))) ds) a a' → PayR ds p p' →
      FieldR ds (.elem id a p) (.elem id a' p')
  | data (id a a') : OptR (AtR (IndexR (space .memory ds)) ds) a a' → FieldR ds (.data id a) (.data id a')
  | custom : FieldR ds .custom .custom

/-- `out` is `fields` with every name resolved. -/
def Resolved (fields out : List Field) : Prop :=
  AllUniq (fields.flatMap decls) ∧ List.Forall₂ (FieldR (fields.flatMap decls)) fields out

/-- No import comes after a function, table, memory or global. -/
def ImportsFirst (fields : List Field) : Prop :=
  ∀ l f m ss r, fields = l ++ f :: m ++ .import ss :: r →
    (∀ id u b, f ≠ .func id u b) ∧ (∀ id h e, f ≠ .table id h e) ∧ (∀ id, f ≠ .memory id) ∧
      ∀ id t e, f ≠ .global id t e

/-- Whether a field is an import. -/
def isImport : Field → Bool
  | .import _ => true
  | _ => false

/-- The index space `s` of the binary that a module is written as: first the
imports, then what is defined (`crates/wast/src/core/binary.rs:114-165`: each
kind of field has its section, the one of imports is before all those of items). -/
def binarySpace (s : Space) (fields : List Field) : List (Option Id) :=
  space s ((fields.filter isImport).flatMap decls) ++
    space s ((fields.filter (fun f => !isImport f)).flatMap decls)

end Verif.Resolve
