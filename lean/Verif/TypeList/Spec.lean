import Mathlib.Logic.Relation
import Mathlib.Data.List.Forall2
import Verif.TypeList.Model
/-!
# Types, recursion groups and subtyping as in the WebAssembly specification

`ρ` is what a reference to a defined type is: an index while types are being written down,
or the defined type itself once everything is closed.
-/
namespace Verif.TypeList.Spec
open Verif.Types (AbsHeap)

/-- Heap types. `exact` is from the custom descriptors proposal. -/
inductive Heap (ρ : Type) where
  | abs (shared : Bool) (ty : AbsHeap)
  | concrete (r : ρ)
  | exact (r : ρ)
  deriving DecidableEq, Repr

/-- Reference types. -/
structure Ref (ρ : Type) where
  nullable : Bool
  heap : Heap ρ
  deriving DecidableEq, Repr

/-- Value types. -/
inductive Val (ρ : Type) where
  | i32 | i64 | f32 | f64 | v128
  | ref (r : Ref ρ)
  deriving DecidableEq, Repr

/-- Storage types. -/
inductive Storage (ρ : Type) where
  | i8 | i16
  | val (v : Val ρ)
  deriving DecidableEq, Repr

/-- Field types. -/
structure Field (ρ : Type) where
  mutable : Bool
  storage : Storage ρ
  deriving DecidableEq, Repr

/-- Composite types. -/
inductive Comp (ρ : Type) where
  | func (params results : List (Val ρ))
  | array (f : Field ρ)
  | struct (fs : List (Field ρ))
  | cont (r : ρ)
  deriving DecidableEq, Repr

/-- SubT types. -/
structure SubT (ρ : Type) where
  final : Bool
  supertype : Option ρ
  shared : Bool
  descriptor : Option ρ
  describes : Option ρ
  comp : Comp ρ
  deriving DecidableEq, Repr

section map
variable {ρ σ : Type} (g : ρ → σ)

/-- Replacing the references. -/
def Heap.map : Heap ρ → Heap σ
  | .abs s t => .abs s t
  | .concrete r => .concrete (g r)
  | .exact r => .exact (g r)
def Ref.map (t : Ref ρ) : Ref σ := ⟨t.nullable, t.heap.map g⟩
def Val.map : Val ρ → Val σ
  | .i32 => .i32 | .i64 => .i64 | .f32 => .f32 | .f64 => .f64 | .v128 => .v128
  | .ref r => .ref (r.map g)
def Storage.map : Storage ρ → Storage σ
  | .i8 => .i8 | .i16 => .i16
  | .val v => .val (v.map g)
def Field.map (f : Field ρ) : Field σ := ⟨f.mutable, f.storage.map g⟩
def Comp.map : Comp ρ → Comp σ
  | .func ps rs => .func (ps.map (Val.map g)) (rs.map (Val.map g))
  | .array f => .array (f.map g)
  | .struct fs => .struct (fs.map (Field.map g))
  | .cont r => .cont (g r)
def SubT.map (s : SubT ρ) : SubT σ :=
  ⟨s.final, s.supertype.map g, s.shared, s.descriptor.map g, s.describes.map g, s.comp.map g⟩

/-- The references in a type. -/
def Heap.refs : Heap ρ → List ρ
  | .abs _ _ => []
  | .concrete r | .exact r => [r]
def Val.refs : Val ρ → List ρ
  | .ref r => r.heap.refs
  | _ => []
def Storage.refs : Storage ρ → List ρ
  | .val v => v.refs
  | _ => []
def Field.refs (f : Field ρ) : List ρ := f.storage.refs
def Comp.refs : Comp ρ → List ρ
  | .func ps rs => ps.flatMap Val.refs ++ rs.flatMap Val.refs
  | .array f => f.refs
  | .struct fs => fs.flatMap Field.refs
  | .cont r => [r]
def SubT.refs (s : SubT ρ) : List ρ :=
  s.supertype.toList ++ s.descriptor.toList ++ s.describes.toList ++ s.comp.refs
end map

/-! ## Defined types: rolled up recursion groups

A defined type is a position in a recursion group. Inside the group a reference is either a
position in the same group, or a (closed) defined type. Two defined types are the same type
iff they are equal. -/

/-- `deftype ::= rectype.i` of the specification, closed. -/
inductive DefType where
  | mk (group : List (SubT (Nat ⊕ DefType))) (i : Nat)

/-- The defined types of a recursion group whose references are module type indices, when the
module already has the defined types `ds`: references below `ds.length` are to those, the
others are into the group itself. -/
def roll (ds : List DefType) (g : List (SubT Nat)) : List DefType :=
  (List.range g.length).map (DefType.mk (g.map (SubT.map fun i =>
    match ds[i]? with
    | some d => .inr d
    | none => .inl (i - ds.length))))

/-- The defined types of a module, from its recursion groups. -/
def rollAll (gs : List (List (SubT Nat))) : List DefType :=
  gs.foldl (fun ds g => ds ++ roll ds g) []

/-! ## Subtyping -/

/-- The kinds of defined types. -/
inductive Kind where
  | func | array | struct | cont
  deriving DecidableEq, Repr

/-- The kind of a composite type. -/
def Comp.kind {ρ : Type} : Comp ρ → Kind
  | .func .. => .func
  | .array _ => .array
  | .struct _ => .struct
  | .cont _ => .cont

/-- The abstract heap type directly above all defined types of a kind. -/
def Kind.top : Kind → AbsHeap
  | .func => .func
  | .array => .array
  | .struct => .struct
  | .cont => .cont

/-- The bottom of the hierarchy of a kind. -/
def Kind.bot : Kind → AbsHeap
  | .func => .noFunc
  | .array | .struct => .none
  | .cont => .noCont

/-- Immediate subtyping of abstract heap types, in the order of the specification. -/
inductive AbsStep : AbsHeap → AbsHeap → Prop
  | eq_any : AbsStep .eq .any
  | i31_eq : AbsStep .i31 .eq
  | struct_eq : AbsStep .struct .eq
  | array_eq : AbsStep .array .eq
  | none_i31 : AbsStep .none .i31
  | none_struct : AbsStep .none .struct
  | none_array : AbsStep .none .array
  | nofunc_func : AbsStep .noFunc .func
  | noextern_extern : AbsStep .noExtern .extern
  | noexn_exn : AbsStep .noExn .exn
  | nocont_cont : AbsStep .noCont .cont

/-- What subtyping needs to know about defined types: sharedness and kind, and the declared
supertype. -/
structure Decls where
  info : Nat → Option (Bool × Kind)
  super : Nat → Option Nat

/-- The axioms of heap subtyping. -/
inductive HeapStep (D : Decls) : Heap Nat → Heap Nat → Prop
  | abs {s a b} : AbsStep a b → HeapStep D (.abs s a) (.abs s b)
  | top {i s k} : D.info i = some (s, k) → HeapStep D (.concrete i) (.abs s k.top)
  | super {i j} : D.super i = some j → HeapStep D (.concrete i) (.concrete j)
  | exact {i s k} : D.info i = some (s, k) → HeapStep D (.exact i) (.concrete i)
  | bot {i s k} : D.info i = some (s, k) → HeapStep D (.abs s k.bot) (.exact i)

/-- Heap subtyping: the axioms, closed under reflexivity and transitivity. -/
def HeapSub (D : Decls) : Heap Nat → Heap Nat → Prop := Relation.ReflTransGen (HeapStep D)

/-- Reference subtyping. -/
def RefSub (D : Decls) (a b : Ref Nat) : Prop :=
  (a.nullable = true → b.nullable = true) ∧ HeapSub D a.heap b.heap

/-- Value subtyping. -/
inductive ValSub (D : Decls) : Val Nat → Val Nat → Prop
  | refl {a} : ValSub D a a
  | ref {a b} : RefSub D a b → ValSub D (.ref a) (.ref b)

/-- Storage subtyping. -/
inductive StorageSub (D : Decls) : Storage Nat → Storage Nat → Prop
  | i8 : StorageSub D .i8 .i8
  | i16 : StorageSub D .i16 .i16
  | val {a b} : ValSub D a b → StorageSub D (.val a) (.val b)

/-- Field subtyping: immutable fields are covariant, mutable ones invariant (up to mutual
subtyping). -/
inductive FieldSub (D : Decls) : Field Nat → Field Nat → Prop
  | const {a b} : StorageSub D a b → FieldSub D ⟨false, a⟩ ⟨false, b⟩
  | var {a b} : StorageSub D a b → StorageSub D b a → FieldSub D ⟨true, a⟩ ⟨true, b⟩

/-- Composite subtyping: functions are contravariant in parameters and covariant in results,
structures may have more fields. -/
inductive CompSub (D : Decls) : Comp Nat → Comp Nat → Prop
  | func {ps rs ps' rs'} : List.Forall₂ (fun p p' => ValSub D p' p) ps ps' →
      List.Forall₂ (ValSub D) rs rs' → CompSub D (.func ps rs) (.func ps' rs')
  | array {a b} : FieldSub D a b → CompSub D (.array a) (.array b)
  | struct {fs extra fs'} : List.Forall₂ (FieldSub D) fs fs' →
      CompSub D (.struct (fs ++ extra)) (.struct fs')
  | cont {i j} : HeapSub D (.concrete i) (.concrete j) → CompSub D (.cont i) (.cont j)


/-! ## Proposals

Which features a type belongs to. `gcTypes` is a flag of the code: it is on unless support for
garbage collected types has been compiled out. -/

section feats
variable {ρ : Type} (f : Features)

/-- The features that a reference type needs. -/
def RefFeats (r : Ref ρ) : Prop :=
  f.referenceTypes = true ∧ match r.heap with
  | .concrete _ => f.gc = true ∨ f.functionReferences = true
  | .exact _ => f.customDescriptors = true
  | .abs shared ty =>
    (shared = true → f.sharedEverythingThreads = true) ∧
    (ty ≠ .func → ty ≠ .exn → f.gcTypes = true) ∧
    match ty with
    | .func | .extern => r.nullable = false → f.functionReferences = true
    | .exn | .noExn => f.exceptions = true
    | .cont | .noCont => f.stackSwitching = true
    | _ => f.gc = true

def ValFeats : Val ρ → Prop
  | .i32 | .i64 => True
  | .f32 | .f64 => f.floats = true
  | .v128 => f.simd = true
  | .ref r => RefFeats f r

def StorageFeats : Storage ρ → Prop
  | .i8 | .i16 => True
  | .val v => ValFeats f v

def CompFeats : Comp ρ → Prop
  | .func ps rs => (∀ v ∈ ps ++ rs, ValFeats f v) ∧ (1 < rs.length → f.multiValue = true)
  | .array x => f.gc = true ∧ f.gcTypes = true ∧ StorageFeats f x.storage
  | .struct xs => f.gc = true ∧ f.gcTypes = true ∧ ∀ x ∈ xs, StorageFeats f x.storage
  | .cont _ => f.stackSwitching = true ∧ f.gcTypes = true

/-- The features that a type definition needs, except for descriptors. -/
def SubFeats (x : SubT ρ) : Prop :=
  (x.final = false ∨ x.supertype.isSome → f.gc = true) ∧
  (x.shared = true → f.sharedEverythingThreads = true) ∧ CompFeats f x.comp

end feats

end Verif.TypeList.Spec
