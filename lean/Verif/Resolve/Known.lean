import Verif.Resolve.Spec

/-!
# Generated identifiers that are referred to are declared

With `e` the type uses that need an index have one, as after expansion.
-/

namespace Verif.Resolve

open Verif.Expand

/-- An index that is a number, an identifier of the source, or a generated one
that is declared in `l`. -/
def Known (l : List (Option Id)) (i : Index) : Prop := ∀ x, i = .id x → x.gen = 0 ∨ some x ∈ l

/-- `Known` in heap types. -/
def kHeap (ds : List Decl) : Heap → Prop
  | .abs _ _ => True
  | .concrete i => Known (space .type ds) i
  | .exact i => Known (space .type ds) i

/-- `Known` in value types. -/
def kVal (ds : List Decl) : ValTy → Prop
  | .num _ => True
  | .ref _ h => kHeap ds h

/-- `Known` in storage types. -/
def kStorage (ds : List Decl) : Storage → Prop
  | .packed _ => True
  | .val v => kVal ds v

/-- `Known` in function types. -/
def kFunc (ds : List Decl) (f : FuncTy) : Prop :=
  (∀ p ∈ f.params, kVal ds p.2) ∧ ∀ v ∈ f.results, kVal ds v

/-- `Known` in contents of types. -/
def kKind (ds : List Decl) : Kind → Prop
  | .func f => kFunc ds f
  | .struct fs => ∀ p ∈ fs, kStorage ds p.2
  | .array s => kStorage ds s
  | .cont i => Known (space .type ds) i

/-- `Known` in type definitions. -/
def kTypeDef (ds : List Decl) (t : TypeDef) : Prop :=
  (∀ i ∈ t.parent, Known (space .type ds) i) ∧ (∀ i ∈ t.descriptor, Known (space .type ds) i) ∧
    (∀ i ∈ t.describes, Known (space .type ds) i) ∧ kKind ds t.kind

/-- `Known` in type uses. -/
def kUse (e : Bool) (ds : List Decl) (u : TypeUse) : Prop :=
  (e = true → u.index ≠ none) ∧ (∀ i ∈ u.index, Known (space .type ds) i) ∧ ∀ f ∈ u.inline, kFunc ds f

/-- `Known` in references; names of locals, labels and fields are never generated. -/
def kRef (ds : List Decl) : Ref → Prop
  | .item s i => Known (space s ds) i
  | .loc i => Known [] i
  | .label i => Known [] i
  | .field t f => Known (space .type ds) t ∧ Known [] f
  | .val v => kVal ds v
  | .heap h => kHeap ds h

/-- `Known` in catch clauses. -/
def kCatch (ds : List Decl) (c : Option Index × Index) : Prop :=
  (∀ i ∈ c.1, Known (space .tag ds) i) ∧ Known [] c.2

/-- `Known` in instructions. -/
def kInstr (e : Bool) (ds : List Decl) : Instr → Prop
  | .block _ _ u => kUse false ds u
  | .tryTable _ u cs => kUse false ds u ∧ ∀ c ∈ cs, kCatch ds c
  | .else_ _ => True
  | .end_ _ => True
  | .delegate i => Known [] i
  | .callIndirect _ t u => Known (space .table ds) t ∧ kUse e ds u
  | .plain _ rs => ∀ r ∈ rs, kRef ds r

/-- `Known` in expressions. -/
def kExpr (e : Bool) (ds : List Decl) (is : List Instr) : Prop := ∀ i ∈ is, kInstr e ds i

/-- `Known` in imports. -/
def kSig (e : Bool) (ds : List Decl) (s : ItemSig) : Prop :=
  match s.kind with
  | .func _ u => kUse e ds u
  | .tag u => kUse e ds u
  | .global t => kVal ds t
  | .table h => kHeap ds h
  | .memory => True

/-- `Known` in payloads of element segments. -/
def kPayload (e : Bool) (ds : List Decl) : Payload → Prop
  | .indices is => ∀ i ∈ is, Known (space .func ds) i
  | .exprs t es => (∀ i ∈ es, kExpr e ds i) ∧ kHeap ds t

/-- `Known` in fields. -/
def kField (e : Bool) (ds : List Decl) : Field → Prop
  | .type t => kTypeDef ds t
  | .recGroup ts => ∀ t ∈ ts, kTypeDef ds t
  | .import ss => ∀ s ∈ ss, kSig e ds s
  | .func _ u b => kUse e ds u ∧ ∀ p ∈ b, (∀ l ∈ p.1, kVal ds l.2) ∧ kExpr e ds p.2
  | .table _ h i => kHeap ds h ∧ ∀ is ∈ i, kExpr e ds is
  | .memory _ => True
  | .global _ t i => kVal ds t ∧ ∀ is ∈ i, kExpr e ds is
  | .tag _ u => kUse e ds u
  | .export s i => Known (space s ds) i
  | .start i => Known (space .func ds) i
  | .elem _ a p => (∀ q ∈ a, (∀ i ∈ q.1, Known (space .table ds) i) ∧ kExpr e ds q.2) ∧ kPayload e ds p
  | .data _ a => ∀ q ∈ a, Known (space .memory ds) q.1 ∧ kExpr e ds q.2
  | .custom => True

/-- Every generated identifier that a module refers to is declared in it. -/
def AllKnown (fields : List Field) : Prop := ∀ f ∈ fields, kField false (fields.flatMap decls) f

end Verif.Resolve
