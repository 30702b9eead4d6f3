import Verif.Valid.ModSpec
import Verif.Valid.Model
import Verif.Op.VisitAll
import Verif.TypeList.NumberedSpec
/-! # What the validator asks of a valid module

Valid modules are accepted when they keep to the implementation limits of the validator
(crates/wasmparser/src/limits.rs) and use enabled features. The context of a module is determined
up to the choice of identifiers of its types; this is about the choice that the validator makes. -/
namespace Verif.Valid.Spec
open Verif.Op.Typing
open Verif.TypeList (Numbered)
open Verif.TypeList.Spec (SubT rollAll)
open Verif.Reader Verif.Items
open Verif.Op.View (NoExact NoExactVal)
open Verif.Instr (Operator)

/-- The number of supertypes above a type. -/
inductive Above (defs : Nat → Option (SubT Nat)) : Nat → Nat → Prop
  | top {i x} : defs i = some x → x.supertype = none → Above defs i 0
  | sub {i x j d} : defs i = some x → x.supertype = some j → Above defs j d → Above defs i (d + 1)

/-- The types of a module: identifiers are given out in the order in which defined types appear,
there are not too many, chains of supertypes are not too long, and only enabled features are
used; descriptors are not. -/
structure TypesFit (f : Feats) (C : Ctx) (gs : List (List (SubT Nat))) : Prop where
  numbered : ∃ n, Numbered (rollAll gs) C.types n ∧ ∀ id x, C.defs id = some x → id < n
  few : gs.flatten.length ≤ 1000000
  depth : ∀ id x, C.defs id = some x → ∃ d, d ≤ 63 ∧ Above C.defs id d
  feats : ∀ x ∈ gs.flatten,
    TypeList.Spec.SubFeats f.types x ∧ x.descriptor = none ∧ x.describes = none

/-! ## Sizes -/

/-- The size that counts for a function type. -/
def sigSize (ps rs : List V) : Nat := 2 + ps.length + rs.length

def compSize : TypeList.Spec.Comp Nat → Nat
  | .func ps rs => sigSize ps rs
  | _ => 0

def typeSize (C : Ctx) (t : BitVec 32) : Nat :=
  ((C.type t).map fun x : SubT Nat => compSize x.comp).getD 0

/-- What an import adds to the size of the type of the module. -/
def importSize (C : Ctx) (i : Import) : Nat := match i.ty with
  | .func t | .funcExact t => typeSize C t
  | .tag t => typeSize C t.funcTypeIdx
  | _ => 1

/-- What an export adds to the size of the type of the module. -/
def exportSize (C : Ctx) (x : Export) : Nat := match x.kind with
  | .func => ((C.funcs[x.index.toNat]?).map (typeSize C)).getD 0
  | .tag => ((C.tags[x.index.toNat]?).map fun t => sigSize t.1 t.2).getD 0
  | _ => 1

def ElemItems.length : ElemItems → Nat
  | .funcs is => is.length
  | .exprs _ es => es.length

/-! ## Exact types, which belong to custom descriptors -/

def Plainly (os : List Operator) : Prop := ∀ o ∈ os, NoExact o

def ElemMode.Plainly : ElemMode → Prop
  | .active _ os => Spec.Plainly os
  | _ => True

def ElemItems.Plainly : ElemItems → Prop
  | .funcs _ => True
  | .exprs t es => NoExactVal (.ref t) ∧ ∀ os ∈ es, Spec.Plainly os

/-- The limits of limits.rs, and no exact types. `tr` is the run of the parser over the bytes of the
module. -/
structure Fits (f : Feats) (tr : List Parser.Event) (C : Ctx) (M : Mod) : Prop where
  types : TypesFit f C M.types
  groups : M.types.length ≤ 1000000
  /-- The entries of the import section; with compact encodings one entry can be several imports. -/
  imports : ∀ sec, sectionAt tr 2 = some sec → sec.count.toNat ≤ 1000000
  funcs : C.funcs.length ≤ 1000000
  tables : C.tables.length ≤ 100
  mems : C.mems.length ≤ 100
  tags : C.tags.length ≤ 1000000
  globals : C.globals.length ≤ 1000000
  exports : M.exports.length ≤ 1000000
  elems : M.elems.length ≤ 100000
  items : ∀ e ∈ M.elems, e.2.length ≤ 10000000
  datas : M.datas.length ≤ 100000
  size : 1 + (M.imports.map (importSize C)).sum + (M.exports.map (exportSize C)).sum < 1000000
  bodies : ∀ r ∈ bodiesAt tr, r.bytesRemaining ≤ 7654321
  locals : List.Forall₂ (fun t b => ∀ x ps rs, FuncAt C t x ps rs →
    ps.length + (b.1.map (·.1.toNat)).sum ≤ 50000) M.funcs M.bodies
  plainImports : ∀ i ∈ M.imports, match i.ty with
    | .table t => NoExactVal (.ref t.elementType)
    | .global t => NoExactVal t.contentType
    | _ => True
  plainTables : ∀ t ∈ M.tables, NoExactVal (.ref t.1.elementType) ∧ ∀ os, t.2 = some os → Plainly os
  plainGlobals : ∀ g ∈ M.globals, NoExactVal g.1.contentType ∧ Plainly g.2
  plainElems : ∀ e ∈ M.elems, e.1.Plainly ∧ e.2.Plainly
  plainDatas : ∀ d ∈ M.datas, ∀ i os, d = some (i, os) → Plainly os
  plainBodies : ∀ b ∈ M.bodies, (∀ d ∈ b.1, NoExactVal d.2) ∧ Plainly b.2

/-- All features of core modules but custom descriptors. -/
structure AllFeats (f : Feats) : Prop where
  ops : f.toFeatures = Verif.Op.View.fullFeatures
  multiMemory : f.multiMemory = true
  memory64 : f.memory64 = true
  mutableGlobal : f.mutableGlobal = true
  extendedConst : f.extendedConst = true
  customPageSizes : f.customPageSizes = true

end Verif.Valid.Spec
