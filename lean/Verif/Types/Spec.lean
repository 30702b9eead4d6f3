import Verif.Types.Model
import Mathlib.Data.List.Forall2
/-! Specification side for the packed reference types and the type codecs. -/
namespace Verif.Types

/-- The index fits the 20 bits the packed representation has for it. -/
def UnpackedIndex.Fits : UnpackedIndex → Prop
  | .module i | .recGroup i | .id i => i.toNat < 2 ^ 20

instance : (u : UnpackedIndex) → Decidable u.Fits
  | .module i | .recGroup i | .id i => inferInstanceAs (Decidable (i.toNat < 2 ^ 20))

/-- Only concrete and exact heap types have an index. -/
def HeapType.Fits : HeapType → Prop
  | .abstract .. => True
  | .concrete u | .exact u => u.Fits

instance : (h : HeapType) → Decidable h.Fits
  | .abstract .. => inferInstanceAs (Decidable True)
  | .concrete u | .exact u => inferInstanceAs (Decidable u.Fits)

/-- A reference type as users see it through `is_nullable` and `heap_type`. -/
def RefType.Is (t : RefType) (nullable : Bool) (h : HeapType) : Prop :=
  t.isNullable = nullable ∧ t.heapType = some h

instance (t : RefType) (n h) : Decidable (t.Is n h) := inferInstanceAs (Decidable (_ ∧ _))

/-- Reference types that the API can produce. -/
inductive RefType.Made : RefType → Prop
  | new {n h t} : RefType.new n h = some t → RefType.Made t
  | asNonNull {t} : RefType.Made t → RefType.Made t.asNonNull
  | nullable {t} : RefType.Made t → RefType.Made t.nullable
  | shared {t t'} : RefType.Made t → t.shared = some t' → RefType.Made t'
  | difference {a b t} : RefType.Made a → RefType.Made b → RefType.difference a b = some t →
      RefType.Made t

/-! ### What an encoder type denotes -/

/-- The heap type meant by an encoder heap type: indices are module indices. -/
def Enc.HeapType.denote : Enc.HeapType → Verif.Types.HeapType
  | .abstract s t => .abstract s t
  | .concrete i => .concrete (.module i)
  | .exact i => .exact (.module i)

/-- `v` is the parser's value for the type `e`: for references, what the public constructor
`RefType::new` makes of it (`c12_roundtrip` says what the accessors then return). -/
def ValType.Is : ValType → Enc.ValType → Prop
  | .i32, .i32 | .i64, .i64 | .f32, .f32 | .f64, .f64 | .v128, .v128 => True
  | .ref t, .ref e => RefType.new e.nullable e.heapType.denote = some t
  | _, _ => False

instance : (v : ValType) → (e : Enc.ValType) → Decidable (v.Is e) := fun v e => by
  cases v <;> cases e <;> simp only [ValType.Is] <;> infer_instance

/-- All indices in the type are below 2^20 (wasmparser's limit). -/
def Enc.ValType.Fits : Enc.ValType → Prop
  | .ref e => e.heapType.denote.Fits
  | _ => True

instance : (e : Enc.ValType) → Decidable e.Fits := fun e => by
  cases e <;> simp only [Enc.ValType.Fits] <;> infer_instance

/-! ### Composite types, subtypes and recursion groups -/

/-- The packed index stands for the module type index `i`. -/
def PackedIndex.Is (p : PackedIndex) (i : BitVec 32) : Prop :=
  PackedIndex.fromModuleIndex i = some p

/-- Both absent, or both present and related. -/
def OptIs (P : α → β → Prop) : Option α → Option β → Prop
  | none, none => True
  | some a, some b => P a b
  | _, _ => False

def StorageType.Is : StorageType → Enc.StorageType → Prop
  | .i8, .i8 | .i16, .i16 => True
  | .val v, .val e => v.Is e
  | _, _ => False

def FieldType.Is (f : FieldType) (e : Enc.FieldType) : Prop :=
  f.elementType.Is e.elementType ∧ f.mutable = e.mutable

def FuncType.Is (f : FuncType) (e : Enc.FuncType) : Prop :=
  List.Forall₂ ValType.Is f.params e.params ∧ List.Forall₂ ValType.Is f.results e.results ∧
    f.lenParams ≤ f.paramsResults.length

def CompositeInnerType.Is : CompositeInnerType → Enc.CompositeInnerType → Prop
  | .func f, .func e => f.Is e
  | .array f, .array e => f.Is e
  | .struct fs, .struct es => List.Forall₂ FieldType.Is fs es
  | .cont p, .cont i => p.Is i
  | _, _ => False

def CompositeType.Is (c : CompositeType) (e : Enc.CompositeType) : Prop :=
  c.inner.Is e.inner ∧ c.shared = e.shared ∧ OptIs PackedIndex.Is c.descriptorIdx e.descriptor ∧
    OptIs PackedIndex.Is c.describesIdx e.describes

def SubType.Is (t : SubType) (e : Enc.SubType) : Prop :=
  t.isFinal = e.isFinal ∧ OptIs PackedIndex.Is t.supertypeIdx e.supertypeIdx ∧
    t.compositeType.Is e.compositeType

/-! Implementation limits of the parser: indices below 2^20, at most 1000 parameters and
results, 10000 fields, 1000000 types in a group. -/

def Enc.StorageType.Fits : Enc.StorageType → Prop
  | .val v => v.Fits
  | _ => True

def OptFits (o : Option (BitVec 32)) : Prop := ∀ i ∈ o, i.toNat < 2 ^ 20

def Enc.CompositeInnerType.Fits : Enc.CompositeInnerType → Prop
  | .func f => f.params.length ≤ 1000 ∧ f.results.length ≤ 1000 ∧ (∀ v ∈ f.params, v.Fits) ∧
      ∀ v ∈ f.results, v.Fits
  | .array f => f.elementType.Fits
  | .struct fs => fs.length ≤ 10000 ∧ ∀ f ∈ fs, f.elementType.Fits
  | .cont i => i.toNat < 2 ^ 20

def Enc.SubType.Fits (e : Enc.SubType) : Prop :=
  OptFits e.supertypeIdx ∧ OptFits e.compositeType.describes ∧
    OptFits e.compositeType.descriptor ∧ e.compositeType.inner.Fits

end Verif.Types
