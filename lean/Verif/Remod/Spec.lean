import Verif.Reenc.Spec
import Verif.Items.Spec
/-! What the items of a re-encoded section should be. -/
namespace Verif.Remod.Spec
open Verif.Reader Verif.Items Verif.Items.Spec Verif.Reenc Verif.Reenc.Spec

variable (m : Maps)

/-- The same reference type with its type index renamed. -/
def RefRenamed (t t' : Types.RefType) : Prop :=
  ∃ e : Types.Enc.RefType, RefIs t e ∧ RefIs t' (renameRef m e)

def ValRenamed (t t' : Types.ValType) : Prop :=
  ∃ e : Types.Enc.ValType, t.Is e ∧ t'.Is (e.rename m.type)

def SubTypeRenamed (t t' : Types.SubType) : Prop :=
  ∃ e : Types.Enc.SubType, t.Is e ∧ t'.Is (e.rename m.type)

/-- The same kind of group, with the same types in it, renamed. -/
def RecGroupRenamed : Types.RecGroup → Types.RecGroup → Prop
  | .implicit _ t, .implicit _ t' => SubTypeRenamed m t t'
  | .explicit ts, .explicit ts' => List.Forall₂ (fun t t' => SubTypeRenamed m t.2 t'.2) ts ts'
  | _, _ => False

def TableTypeRenamed (t t' : TableType) : Prop :=
  RefRenamed m t.elementType t'.elementType ∧ t'.table64 = t.table64 ∧ t'.initial = t.initial ∧
    t'.maximum = t.maximum ∧ t'.shared = t.shared

def TableInitRenamed (f : Instr.Features) : TableInit → TableInit → Prop
  | .refNull, .refNull => True
  | .expr c, .expr c' => ConstRenamed m f c c'
  | _, _ => False

def TableRenamed (f : Instr.Features) (t t' : Table) : Prop :=
  TableTypeRenamed m t.ty t'.ty ∧ TableInitRenamed m f t.init t'.init

def GlobalTypeRenamed (t t' : GlobalType) : Prop :=
  ValRenamed m t.contentType t'.contentType ∧ t'.mutable = t.mutable ∧ t'.shared = t.shared

def GlobalRenamed (f : Instr.Features) (g g' : Global) : Prop :=
  GlobalTypeRenamed m g.ty g'.ty ∧ ConstRenamed m f g.initExpr g'.initExpr

def TypeRefRenamed : TypeRef → TypeRef → Prop
  | .func i, .func j => j = m.type i
  | .funcExact i, .funcExact j => j = m.type i
  | .table t, .table t' => TableTypeRenamed m t t'
  | .memory t, .memory t' => t' = t
  | .global t, .global t' => GlobalTypeRenamed m t t'
  | .tag t, .tag t' => t'.funcTypeIdx = m.type t.funcTypeIdx
  | _, _ => False

/-- A nested sequence of items that can be read, and its counterpart. -/
def Nested (item : R α) (P : α → α → Prop) (s s' : SectionLimited) : Prop :=
  ∃ xs ys, s.collect item = .ok xs ∧ s'.collect item = .ok ys ∧ List.Forall₂ P xs ys

/-- The same form of import with the same names. -/
def ImportsRenamed (f : Instr.Features) : Imports → Imports → Prop
  | .single _ i, .single _ i' =>
    i'.module = i.module ∧ i'.name = i.name ∧ TypeRefRenamed m i.ty i'.ty
  | .compact1 mod s, .compact1 mod' s' => mod' = mod ∧
    Nested (readImportItem f) (fun i i' => i'.name = i.name ∧ TypeRefRenamed m i.ty i'.ty) s s'
  | .compact2 mod t s, .compact2 mod' t' s' =>
    mod' = mod ∧ TypeRefRenamed m t t' ∧ Nested readString (fun n n' => n' = n) s s'
  | _, _ => False

/-- The index space of an export. -/
def exportSpace : ExternalKind → BitVec 32 → BitVec 32
  | .func | .funcExact => m.func
  | .table => m.table
  | .memory => m.memory
  | .global => m.global
  | .tag => m.tag

def ExportRenamed (x x' : Export) : Prop :=
  x'.name = x.name ∧ x'.kind = x.kind ∧ x'.index = exportSpace m x.kind x.index

/-- An absent table index is table 0; it may be written or not. -/
def ElementKindRenamed (f : Instr.Features) : ElementKind → ElementKind → Prop
  | .passive, .passive | .declared, .declared => True
  | .active t c, .active t' c' => t'.getD 0 = m.table (t.getD 0) ∧ ConstRenamed m f c c'
  | _, _ => False

def ElementItemsRenamed (f : Instr.Features) : ElementItems → ElementItems → Prop
  | .functions s, .functions s' => Nested readVarU32 (fun i j => j = m.func i) s s'
  | .expressions t s, .expressions t' s' =>
    RefRenamed m t t' ∧ Nested (readConstExpr f) (ConstRenamed m f) s s'
  | _, _ => False

def ElementRenamed (f : Instr.Features) (x x' : Element) : Prop :=
  ElementKindRenamed m f x.kind x'.kind ∧ ElementItemsRenamed m f x.items x'.items

def DataKindRenamed (f : Instr.Features) : DataKind → DataKind → Prop
  | .passive, .passive => True
  | .active i c, .active j c' => j = m.memory i ∧ ConstRenamed m f c c'
  | _, _ => False

def DataRenamed (f : Instr.Features) (x x' : Data) : Prop :=
  DataKindRenamed m f x.kind x'.kind ∧ x'.data = x.data

/-- The items of two sections of the same kind are, one by one, the same up to the renaming. -/
def ItemsRenamed (f : Instr.Features) : Items → Items → Prop
  | .types xs, .types ys => List.Forall₂ (RecGroupRenamed m) xs ys
  | .imports xs, .imports ys => List.Forall₂ (ImportsRenamed m f) xs ys
  | .functions xs, .functions ys => ys = xs.map m.type
  | .tables xs, .tables ys => List.Forall₂ (TableRenamed m f) xs ys
  | .memories xs, .memories ys => ys = xs
  | .tags xs, .tags ys => List.Forall₂ (fun t t' => t'.funcTypeIdx = m.type t.funcTypeIdx) xs ys
  | .globals xs, .globals ys => List.Forall₂ (GlobalRenamed m f) xs ys
  | .exports xs, .exports ys => List.Forall₂ (ExportRenamed m) xs ys
  | .elements xs, .elements ys => List.Forall₂ (ElementRenamed m f) xs ys
  | .data xs, .data ys => List.Forall₂ (DataRenamed m f) xs ys
  | _, _ => False

/-- The names of imports in a compact form are only skipped when the section is read; here they
are also readable. -/
def ImportsReadable (f : Instr.Features) : Imports → Prop
  | .single .. => True
  | .compact1 _ s => ∃ xs, s.collect (readImportItem f) = .ok xs
  | .compact2 _ _ s => ∃ ns, s.collect readString = .ok ns

def ItemsReadable (f : Instr.Features) : Items → Prop
  | .imports xs => ∀ x ∈ xs, ImportsReadable f x
  | _ => True

end Verif.Remod.Spec
