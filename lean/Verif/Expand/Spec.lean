import Verif.Expand.Model
import Mathlib.Data.List.Forall2

/-!
# What it means for the type uses of a module to be expanded

Stated on the module before and the module after, without the expander.
-/

namespace Verif.Expand

/-- The signature of a definition of a function type. -/
def TypeDef.sig (t : TypeDef) : Option Key :=
  match t.kind with
  | .func f => some (f.params.map (·.2), f.results)
  | _ => none

/-- The definitions written as a `type` field of their own. -/
def plains : List Field → List TypeDef
  | [] => []
  | .type t :: fs => t :: plains fs
  | _ :: fs => plains fs

/-- The type index space of a module: the definitions of all `type` and `rec`
fields in order. -/
def typeSpace : List Field → List TypeDef
  | [] => []
  | .type t :: fs => t :: typeSpace fs
  | .recGroup ts :: fs => ts ++ typeSpace fs
  | _ :: fs => typeSpace fs

/-- The signature a type use stands for when it names no type: what is written
inline, or that of a function without parameters and results. -/
def TypeUse.sig (u : TypeUse) : Key :=
  match u.inline with
  | some f => (f.params.map (·.2), f.results)
  | none => ([], [])

/-- `x` is the identifier of the first definition with signature `k`. -/
def First (ds : List TypeDef) (k : Key) (x : Id) : Prop :=
  ∃ l d r, ds = l ++ d :: r ∧ d.id = some x ∧ d.sig = some k ∧ ∀ e ∈ l, e.sig ≠ some k

/-- A type use after expansion: one that names a type is as it was, another one
names the first definition with its signature. -/
inductive Use (ds : List TypeDef) : TypeUse → TypeUse → Prop
  | named (i inl) : Use ds ⟨some i, inl⟩ ⟨some i, inl⟩
  | found (inl x) : First ds (TypeUse.sig ⟨none, inl⟩) x → Use ds ⟨none, inl⟩ ⟨some (.id x), inl⟩

/-- A block type can be written without a type index: no parameters and at most
one result. -/
def Short (u : TypeUse) : Prop := u.index = none ∧ u.sig.1 = [] ∧ u.sig.2.length ≤ 1

/-- A block type after expansion: a short one names no type but states its
signature, any other one is treated like a type use. -/
inductive BlockUse (ds : List TypeDef) : TypeUse → TypeUse → Prop
  | short (inl) : Short ⟨none, inl⟩ →
      BlockUse ds ⟨none, inl⟩ ⟨none, some (inl.getD ⟨[], []⟩)⟩
  | long (u u') : ¬ Short u → Use ds u u' → BlockUse ds u u'

/-- Instructions after expansion. -/
inductive InstrRel (ds : List TypeDef) : Instr → Instr → Prop
  | block (op l u u') : BlockUse ds u u' → InstrRel ds (.block op l u) (.block op l u')
  | tryTable (l u u' cs) : BlockUse ds u u' → InstrRel ds (.tryTable l u cs) (.tryTable l u' cs)
  | else_ (l) : InstrRel ds (.else_ l) (.else_ l)
  | end_ (l) : InstrRel ds (.end_ l) (.end_ l)
  | delegate (i) : InstrRel ds (.delegate i) (.delegate i)
  | callIndirect (op t u u') : Use ds u u' → InstrRel ds (.callIndirect op t u) (.callIndirect op t u')
  | plain (op rs) : InstrRel ds (.plain op rs) (.plain op rs)

/-- Expressions after expansion. -/
abbrev ExprRel (ds : List TypeDef) : List Instr → List Instr → Prop := List.Forall₂ (InstrRel ds)

/-- Something optional stays there or stays away. -/
inductive OptRel {α : Type} (R : α → α → Prop) : Option α → Option α → Prop
  | none : OptRel R none none
  | some (a b) : R a b → OptRel R (some a) (some b)

/-- Something beside an expression stays as it is. -/
inductive SndRel {α : Type} (ds : List TypeDef) : α × List Instr → α × List Instr → Prop
  | mk (a e e') : ExprRel ds e e' → SndRel ds (a, e) (a, e')

/-- Imports after expansion. -/
inductive SigRel (ds : List TypeDef) : ItemSig → ItemSig → Prop
  | func (id e u u') : Use ds u u' → SigRel ds ⟨id, .func e u⟩ ⟨id, .func e u'⟩
  | tag (id u u') : Use ds u u' → SigRel ds ⟨id, .tag u⟩ ⟨id, .tag u'⟩
  | table (id h) : SigRel ds ⟨id, .table h⟩ ⟨id, .table h⟩
  | memory (id) : SigRel ds ⟨id, .memory⟩ ⟨id, .memory⟩
  | global (id t) : SigRel ds ⟨id, .global t⟩ ⟨id, .global t⟩

/-- Payloads of element segments after expansion. -/
inductive PayloadRel (ds : List TypeDef) : Payload → Payload → Prop
  | indices (is) : PayloadRel ds (.indices is) (.indices is)
  | exprs (t es es') : List.Forall₂ (ExprRel ds) es es' → PayloadRel ds (.exprs t es) (.exprs t es')

/-- Fields after expansion: a `type` field has an identifier, type uses are
expanded, everything else is as it was. -/
inductive FieldRel (ds : List TypeDef) : Field → Field → Prop
  | type (t x) : (∀ y, t.id = some y → x = y) → FieldRel ds (.type t) (.type { t with id := some x })
  | recGroup (ts) : FieldRel ds (.recGroup ts) (.recGroup ts)
  | import (ss ss') : List.Forall₂ (SigRel ds) ss ss' → FieldRel ds (.import ss) (.import ss')
  | func (id u u' b b') : Use ds u u' → OptRel (SndRel ds) b b' → FieldRel ds (.func id u b) (.func id u' b')
  | table (id h e e') : OptRel (ExprRel ds) e e' → FieldRel ds (.table id h e) (.table id h e')
  | memory (id) : FieldRel ds (.memory id) (.memory id)
  | global (id t e e') : OptRel (ExprRel ds) e e' → FieldRel ds (.global id t e) (.global id t e')
  | tag (id u u') : Use ds u u' → FieldRel ds (.tag id u) (.tag id u')
  | export (s i) : FieldRel ds (.export s i) (.export s i)
  | start (i) : FieldRel ds (.start i) (.start i)
  | elem (id a a' p p') : OptRel (SndRel ds) a a' → PayloadRel ds p p' → FieldRel ds (.elem id a p) (.elem id a' p')
  | data (id a a') : OptRel (SndRel ds) a a' → FieldRel ds (.data id a) (.data id a')
  | custom : FieldRel ds .custom .custom

/-- The signature a type use needs a definition for. -/
def TypeUse.needs (u : TypeUse) : List Key := if u.index = none then [u.sig] else []

instance (u : TypeUse) : Decidable (Short u) := by unfold Short; infer_instance

/-- The signature a block type needs a definition for. -/
def TypeUse.blockNeeds (u : TypeUse) : List Key := if Short u then [] else u.needs

/-- The signatures an instruction needs. -/
def Instr.needs : Instr → List Key
  | .block _ _ u => u.blockNeeds
  | .tryTable _ u _ => u.blockNeeds
  | .callIndirect _ _ u => u.needs
  | _ => []

/-- The signatures an expression needs, in order. -/
def exprNeeds (e : List Instr) : List Key := e.flatMap Instr.needs

/-- The signatures an import needs. -/
def ItemSig.needs (s : ItemSig) : List Key :=
  match s.kind with
  | .func _ u => u.needs
  | .tag u => u.needs
  | _ => []

/-- The signatures an optional part needs. -/
def optNeeds {α : Type} (f : α → List Key) : Option α → List Key
  | none => []
  | some a => f a

/-- The signatures a payload needs. -/
def Payload.needs : Payload → List Key
  | .indices _ => []
  | .exprs _ es => es.flatMap exprNeeds

/-- The signatures a field needs, in order. -/
def Field.needs : Field → List Key
  | .import ss => ss.flatMap ItemSig.needs
  | .func _ u b => u.needs ++ optNeeds (fun p => exprNeeds p.2) b
  | .table _ _ e => optNeeds exprNeeds e
  | .global _ _ e => optNeeds exprNeeds e
  | .tag _ u => u.needs
  | .elem _ a p => optNeeds (fun p => exprNeeds p.2) a ++ p.needs
  | .data _ a => optNeeds (fun p => exprNeeds p.2) a
  | _ => []

/-- The signatures of a list that were not seen before, each once, in order. -/
def unseen (seen : List Key) : List Key → List Key
  | [] => []
  | k :: ks => if k ∈ seen then unseen seen ks else k :: unseen (seen ++ [k]) ks

/-- A definition such as the text format's abbreviation asks for: a function
type that is final, has no parent and no other attribute. -/
def TypeDef.Simple (t : TypeDef) : Prop :=
  t.shared = false ∧ t.parent = none ∧ t.descriptor = none ∧ t.describes = none ∧
    t.final ≠ some false

/-- `out` is `fields` with every type use expanded. -/
def Expanded (fields out : List Field) : Prop :=
  ∃ (mid : List Field) (news : List TypeDef), out = mid ++ news.map .type ∧
    List.Forall₂ (FieldRel (plains out)) fields mid ∧
    (∀ t ∈ news, t.Simple) ∧
    news.map TypeDef.sig =
      (unseen ((plains fields).filterMap TypeDef.sig) (fields.flatMap Field.needs)).map some

/-- The identifiers of the type index space. -/
def typeIds (fields : List Field) : List Id := (typeSpace fields).filterMap TypeDef.id

end Verif.Expand
