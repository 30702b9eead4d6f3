import Verif.Items.EncModel
import Verif.Instr.Spec
import Verif.Types.Spec
/-! What the items of sections should be after a round trip. -/
namespace Verif.Items.Spec
open Verif.Reader Verif.Types

/-! ### Correspondence of what is read with what was written -/

/-- The operators of a constant expression, up to the final `end` at the end of its bytes,
correspond to the instructions with which the encoder's expression was made, and the bytes are
those of the encoder. -/
def ConstIs (f : Instr.Features) (c : ConstExpr) (e : Enc.ConstExpr) : Prop :=
  c.reader.rest = e.encode ∧
  ∃ (is : List Instr.Enc.Instr) (ops : List Instr.Operator) (s' : Instr.OperatorsReader),
    Instr.Enc.encodeSeq is = some e.bytes ∧
    (Instr.OperatorsReader.new c.reader).collect f = .ok (ops, s') ∧ s'.finish = .ok () ∧
    List.Forall₂ Instr.Spec.Corr (is ++ [.end_]) ops

def RefIs (t : RefType) (e : Types.Enc.RefType) : Prop :=
  RefType.new e.nullable e.heapType.denote = some t

def TableTypeIs (t : TableType) (e : Enc.TableType) : Prop :=
  RefIs t.elementType e.elementType ∧ t.table64 = e.table64 ∧ t.initial = e.minimum ∧
    t.maximum = e.maximum ∧ t.shared = e.shared

def TableInitIs (f : Instr.Features) : TableInit → Option Enc.ConstExpr → Prop
  | .refNull, none => True
  | .expr c, some e => ConstIs f c e
  | _, _ => False

def TableIs (f : Instr.Features) (t : Table) (e : Enc.Table) : Prop :=
  TableTypeIs t.ty e.ty ∧ TableInitIs f t.init e.init

def MemoryTypeIs (t : MemoryType) (e : Enc.MemoryType) : Prop :=
  t.memory64 = e.memory64 ∧ t.shared = e.shared ∧ t.initial = e.minimum ∧
    t.maximum = e.maximum ∧ t.pageSizeLog2 = e.pageSizeLog2

def GlobalTypeIs (t : GlobalType) (e : Enc.GlobalType) : Prop :=
  t.contentType.Is e.valType ∧ t.mutable = e.mutable ∧ t.shared = e.shared

def GlobalIs (f : Instr.Features) (g : Global) (e : Enc.Global) : Prop :=
  GlobalTypeIs g.ty e.ty ∧ ConstIs f g.initExpr e.init

def TagTypeIs (t : TagType) (e : Enc.TagType) : Prop := t.funcTypeIdx = e.funcTypeIdx

def TypeRefIs : TypeRef → Enc.EntityType → Prop
  | .func i, .function j => i = j
  | .funcExact i, .functionExact j => i = j
  | .table t, .table e => TableTypeIs t e
  | .memory t, .memory e => MemoryTypeIs t e
  | .global t, .global e => GlobalTypeIs t e
  | .tag t, .tag e => TagTypeIs t e
  | _, _ => False

def ImportItemIs (i : ImportItemCompact) (e : Enc.ImportCompact) : Prop :=
  i.name = e.name ∧ TypeRefIs i.ty e.ty

/-- The items of a group of imports are those that iterating over it yields. -/
def ImportsIs (f : Instr.Features) : Imports → Enc.Imports → Prop
  | .single _ i, .single m n t => i.module = m ∧ i.name = n ∧ TypeRefIs i.ty t
  | .compact1 m s, .compact1 m' es =>
    m = m' ∧ ∃ xs, s.collect (readImportItem f) = .ok xs ∧ List.Forall₂ ImportItemIs xs es
  | .compact2 m t s, .compact2 m' t' ns =>
    m = m' ∧ TypeRefIs t t' ∧ s.collect readString = .ok ns
  | _, _ => False

def KindIs : ExternalKind → Enc.ExportKind → Prop
  | .func, .func | .table, .table | .memory, .memory | .global, .global | .tag, .tag => True
  | _, _ => False

def ExportIs (x : Export) (e : Enc.Export) : Prop :=
  x.name = e.name ∧ KindIs x.kind e.kind ∧ x.index = e.index

/-- The same table index, except that the encoder may have to write the index of table 0 to
write the element type as well. -/
def TableIndexIs (t e : Option (BitVec 32)) : Prop := t = e ∨ (e = none ∧ t = some 0)

def ElementKindIs (f : Instr.Features) : ElementKind → Enc.ElementMode → Prop
  | .passive, .passive | .declared, .declared => True
  | .active t c, .active t' e => TableIndexIs t t' ∧ ConstIs f c e
  | _, _ => False

/-- The elements are those that iterating over the segment yields. -/
def ElementItemsIs (f : Instr.Features) : ElementItems → Enc.Elements → Prop
  | .functions s, .functions fs => s.collect readVarU32 = .ok fs
  | .expressions t s, .expressions t' es =>
    RefIs t t' ∧ ∃ cs, s.collect (readConstExpr f) = .ok cs ∧ List.Forall₂ (ConstIs f) cs es
  | _, _ => False

def ElementIs (f : Instr.Features) (x : Element) (e : Enc.ElementSegment) : Prop :=
  ElementKindIs f x.kind e.mode ∧ ElementItemsIs f x.items e.elements

def DataKindIs (f : Instr.Features) : DataKind → Enc.DataSegmentMode → Prop
  | .passive, .passive => True
  | .active m c, .active m' e => m = m' ∧ ConstIs f c e
  | _, _ => False

def DataIs (f : Instr.Features) (x : Data) (e : Enc.DataSegment) : Prop :=
  DataKindIs f x.kind e.mode ∧ x.data = e.data

/-- A recursion group of one type without the group syntax, or an explicit group. -/
def TypeEntryIs : RecGroup → Enc.TypeEntry → Prop
  | .implicit _ t, .single e => t.Is e
  | .explicit ts, .group es => List.Forall₂ (fun t e => SubType.Is t.2 e) ts es
  | _, _ => False

def ItemsIs (f : Instr.Features) : Items → Enc.Section → Prop
  | .types xs, .types es => List.Forall₂ TypeEntryIs xs es
  | .imports xs, .imports es => List.Forall₂ (ImportsIs f) xs es
  | .functions xs, .functions es => xs = es
  | .tables xs, .tables es => List.Forall₂ (TableIs f) xs es
  | .memories xs, .memories es => List.Forall₂ MemoryTypeIs xs es
  | .tags xs, .tags es => List.Forall₂ TagTypeIs xs es
  | .globals xs, .globals es => List.Forall₂ (GlobalIs f) xs es
  | .exports xs, .exports es => List.Forall₂ ExportIs xs es
  | .elements xs, .elements es => List.Forall₂ (ElementIs f) xs es
  | .data xs, .data es => List.Forall₂ (DataIs f) xs es
  | _, _ => False

/-! ### What wasmparser accepts -/

/-- A string the reader accepts: at most 100000 bytes of UTF-8 (the latter always holds of a
Rust `&str`). -/
def StrFits (s : List UInt8) : Prop := s.length ≤ 100000 ∧ validUtf8 s = true

/-- The expression was made from instructions that fit; there is no `end` among them, since
the parser refuses an `end` that is not the last one, and apart from that they nest properly (which leaves `try .. delegate`). -/
def ConstFits (f : Instr.Features) (e : Enc.ConstExpr) : Prop :=
  ∃ is : List Instr.Enc.Instr, Instr.Enc.encodeSeq is = some e.bytes ∧
    (∀ i ∈ is, Instr.Spec.Fits f i) ∧ Instr.Spec.Body true (is.map Instr.Spec.tok) ∧
    Instr.Enc.Instr.end_ ∉ is

def RefFits (e : Types.Enc.RefType) : Prop := e.heapType.denote.Fits

/-- Sizes from 2^32 on need memory64. -/
def LimitFits (f : Instr.Features) (n : BitVec 64) : Prop := f.memory64 ∨ n.toNat < 2 ^ 32

def TableTypeFits (f : Instr.Features) (e : Enc.TableType) : Prop :=
  RefFits e.elementType ∧ LimitFits f e.minimum ∧ ∀ m ∈ e.maximum, LimitFits f m

def TableFits (f : Instr.Features) (e : Enc.Table) : Prop :=
  TableTypeFits f e.ty ∧ ∀ c ∈ e.init, ConstFits f c

def MemoryTypeFits (f : Instr.Features) (e : Enc.MemoryType) : Prop :=
  LimitFits f e.minimum ∧ (∀ m ∈ e.maximum, LimitFits f m) ∧
    ∀ p ∈ e.pageSizeLog2, p.toNat < 64

def GlobalFits (f : Instr.Features) (e : Enc.Global) : Prop :=
  e.ty.valType.Fits ∧ ConstFits f e.init

def EntityFits (f : Instr.Features) : Enc.EntityType → Prop
  | .table t => TableTypeFits f t
  | .memory t => MemoryTypeFits f t
  | .global t => t.valType.Fits
  | _ => True

def ImportsFits (f : Feats) : Enc.Imports → Prop
  | .single m n t => StrFits m ∧ StrFits n ∧ EntityFits f.toFeatures t
  | .compact1 m is => f.compactImports ∧ StrFits m ∧ is.length < 2 ^ 32 ∧
    ∀ i ∈ is, StrFits i.name ∧ EntityFits f.toFeatures i.ty
  | .compact2 m t ns => f.compactImports ∧ StrFits m ∧ EntityFits f.toFeatures t ∧
    ns.length < 2 ^ 32 ∧ ∀ n ∈ ns, StrFits n

def ExportFits (e : Enc.Export) : Prop := StrFits e.name

def ElementsFit (f : Instr.Features) : Enc.Elements → Prop
  | .functions fs => fs.length < 2 ^ 32
  | .expressions t es => RefFits t ∧ es.length < 2 ^ 32 ∧ ∀ e ∈ es, ConstFits f e

def ElementFits (f : Instr.Features) (e : Enc.ElementSegment) : Prop :=
  (match e.mode with | .active _ c => ConstFits f c | _ => True) ∧ ElementsFit f e.elements

def DataFits (f : Instr.Features) (e : Enc.DataSegment) : Prop :=
  (match e.mode with | .active _ c => ConstFits f c | _ => True) ∧ e.data.length < 2 ^ 32

def TypeEntryFits : Enc.TypeEntry → Prop
  | .single e => e.Fits
  | .group es => es.length ≤ 1000000 ∧ ∀ e ∈ es, e.Fits

def SectionFits (f : Feats) : Enc.Section → Prop
  | .types es => es.length < 2 ^ 32 ∧ ∀ e ∈ es, TypeEntryFits e
  | .imports es => es.length < 2 ^ 32 ∧ ∀ e ∈ es, ImportsFits f e
  | .functions es => es.length < 2 ^ 32
  | .tables es => es.length < 2 ^ 32 ∧ ∀ e ∈ es, TableFits f.toFeatures e
  | .memories es => es.length < 2 ^ 32 ∧ ∀ e ∈ es, MemoryTypeFits f.toFeatures e
  | .tags es => es.length < 2 ^ 32
  | .globals es => es.length < 2 ^ 32 ∧ ∀ e ∈ es, GlobalFits f.toFeatures e
  | .exports es => es.length < 2 ^ 32 ∧ ∀ e ∈ es, ExportFits e
  | .elements es => es.length < 2 ^ 32 ∧ ∀ e ∈ es, ElementFits f.toFeatures e
  | .data es => es.length < 2 ^ 32 ∧ ∀ e ∈ es, DataFits f.toFeatures e

end Verif.Items.Spec
