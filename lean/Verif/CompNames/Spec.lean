import Verif.CompNames.Model
import Verif.Names.Spec
import Verif.Custom.LinkSpec
/-! What a `component-name` section says, after "Name Section" and "Sorts" in the binary format of
the component model (Binary.md). -/
namespace Verif.CompNames.Spec
open Verif.Reader Verif.Items Verif.Custom

/-- What a subsection says: the name of the component, the names of the items of a sort, or it
is of an unknown kind. -/
inductive Sub where
  | component (name : List UInt8)
  | names (k : Kind) (l : List (BitVec 32 × List UInt8))
  | other (id : UInt8) (data : List UInt8)
  deriving DecidableEq, Repr

/-- `core:sort`. -/
def coreSorts : List (UInt8 × Kind) :=
  [(0x00, .coreFuncs), (0x01, .coreTables), (0x02, .coreMemories), (0x03, .coreGlobals),
   (0x04, .coreTags), (0x10, .coreTypes), (0x11, .coreModules), (0x12, .coreInstances)]

/-- `sort` without `core:sort`. -/
def sorts : List (UInt8 × Kind) :=
  [(0x01, .funcs), (0x02, .values), (0x03, .types), (0x04, .components), (0x05, .instances)]

/-- `sort ::= 0x00 core:sort | 0x01 | ⋯ | 0x05`. -/
inductive IsSort : Grammar Kind
  | core {c k} : (c, k) ∈ coreSorts → IsSort k [0x00, c]
  | comp {c k} : (c, k) ∈ sorts → IsSort k [c]

/-- The bytes in place of a sort that are none. -/
inductive NoSort : List UInt8 → Prop
  | core {c} : (∀ k, (c, k) ∉ coreSorts) → NoSort [0x00, c]
  | comp {c} : c ≠ 0x00 → (∀ k, (c, k) ∉ sorts) → NoSort [c]

/-- `nameassoc ::= idx name`. -/
inductive IsNaming : Grammar (BitVec 32 × List UInt8)
  | mk {e b1 b2} : U32 e.1 b1 → Name e.2 b2 → IsNaming e (b1 ++ b2)

/-- `componentnamesubsec ::= namesubsection_0(name)` and `sortnamesubsec ::=
namesubsection_1(sort namemap)`. Of unknown sorts what follows the sort is seen. -/
inductive IsSub : UInt8 → Grammar Sub
  | component {n b} : Name n b → IsSub 0 (.component n) b
  | names {k l b1 b2} : IsSort k b1 → Vec IsNaming l b2 → IsSub 1 (.names k l) (b1 ++ b2)
  | sort {s d} : NoSort s → IsSub 1 (.other 1 d) (s ++ d)
  | other {id d} : id ≠ 0 → id ≠ 1 → IsSub id (.other id d) d

/-- What a subsection read by wasmparser says, when the map in it is read. -/
def Says : CName → Sub → Prop
  | .component n _, .component n' => n = n'
  | .names k s, .names k' l => k = k' ∧ Names.Spec.entries s l
  | .unknown id d _, .other id' d' => id = id' ∧ d = d'
  | _, _ => False

/-- What the section says. -/
def SectionSays (r : Reader) (l : List Sub) : Prop :=
  ∃ xs, subsections r = .ok xs ∧ List.Forall₂ Says xs l

/-- The calls to a `ComponentNameSection` that write this subsection; the map is made with
`NameMap::append`. -/
def Sub.build : Sub → Option (List UInt8)
  | .component n => CompNames.component n
  | .names k l => do decls k (← Names.Spec.buildMap l)
  | .other id d => raw id d

/-- Strings are UTF-8, ids are less than 128 as the reader demands, and not those of known
subsections. -/
def Sub.Fits : Sub → Prop
  | .component n => validUtf8 n
  | .names _ l => l.length < 2 ^ 32 ∧ ∀ e ∈ l, validUtf8 e.2
  | .other id _ => id < 128 ∧ id ≠ 0 ∧ id ≠ 1

/-- The index of an item after re-encoding. -/
def moved (m : Maps) (k : Kind) (i : BitVec 32) : BitVec 32 :=
  match k with
  | .coreFuncs => m.function i
  | .coreTables => m.table i
  | .coreMemories => m.memory i
  | .coreGlobals => m.global i
  | .coreTags => m.tag i
  | .coreTypes => m.type i
  | .coreModules => m.module i
  | .coreInstances => m.instance_ i
  | .funcs => m.componentFunc i
  | .values => m.componentValue i
  | .types => m.componentType i
  | .components => m.component i
  | .instances => m.componentInstance i

/-- Names follow the items they name. -/
def Sub.rename (m : Maps) : Sub → Sub
  | .component n => .component n
  | .names k l => .names k (l.map fun e => (moved m k e.1, e.2))
  | .other id d => .other id d

/-- The property: re-encoding keeps what a section says. -/
def ReencodeKeeps : Prop := ∀ (m : Maps) (r : Reader) (l : List Sub) (b : List UInt8) (off : Nat),
  SectionSays r l → reencode m r = some b → SectionSays (Reader.new b off) (l.map (Sub.rename m))

end Verif.CompNames.Spec
