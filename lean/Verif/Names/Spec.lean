import Verif.Names.Model
import Verif.Reenc.Spec
/-! What a name section says. -/
namespace Verif.Names.Spec
open Verif.Reader Verif.Items Verif.Reenc.Spec

/-- What a subsection names: the module, the items of an index space, or the items of an index
space inside the items of another; or it is of an unknown kind. -/
inductive Sub where
  | module (name : List UInt8)
  | names (k : Direct) (l : List (BitVec 32 × List UInt8))
  | nested (k : Indirect) (l : List (BitVec 32 × List (BitVec 32 × List UInt8)))
  | other (id : UInt8) (data : List UInt8)
  deriving DecidableEq, Repr

/-- The entries of a map. -/
def entries (map : SectionLimited) (l : List (BitVec 32 × List UInt8)) : Prop :=
  ∃ xs, map.collect readNaming = .ok xs ∧ xs.map (fun x => (x.index, x.name)) = l

/-- The entries of a nested map. -/
def nestedEntries (map : SectionLimited)
    (l : List (BitVec 32 × List (BitVec 32 × List UInt8))) : Prop :=
  ∃ xs, map.collect readIndirectNaming = .ok xs ∧
    List.Forall₂ (fun x e => x.index = e.1 ∧ entries x.names e.2) xs l

/-- What a subsection read by wasmparser says, when all the maps in it are read. -/
def Says : Name → Sub → Prop
  | .module n _, .module n' => n = n'
  | .direct k s, .names k' l => k = k' ∧ entries s l
  | .indirect k s, .nested k' l => k = k' ∧ nestedEntries s l
  | .unknown id d _, .other id' d' => id = id' ∧ d = d'
  | _, _ => False

/-- What the section says. -/
def SectionSays (r : Reader) (subs : List Sub) : Prop :=
  ∃ xs, subsections r = .ok xs ∧ List.Forall₂ Says xs subs

/-- The index space of named items (core specification, appendix, "Name Section"; extended name
section proposal). -/
def directSpace : Direct → Space
  | .function => .func
  | .type => .type
  | .table => .table
  | .memory => .memory
  | .global => .global
  | .element => .elem
  | .data => .data
  | .tag => .tag

/-- The index space of the outer items: locals and labels are those of functions, fields those of
types. -/
def indirectSpace : Indirect → Space
  | .local => .func
  | .label => .func
  | .field => .type

/-- Names follow the items they name. -/
def Sub.rename (m : Reenc.Maps) : Sub → Sub
  | .module n => .module n
  | .names k l => .names k (l.map fun e => (into m (directSpace k) e.1, e.2))
  | .nested k l => .nested k (l.map fun e => (into m (indirectSpace k) e.1, e.2))
  | .other id d => .other id d

/-! ### Writing with wasm-encoder -/

/-- A `NameMap` made with `append`. -/
def buildMap (l : List (BitVec 32 × List UInt8)) : Option Enc.Builder :=
  l.foldlM (fun b e => append b e.1 e.2) {}

/-- An `IndirectNameMap` made with `append`. -/
def buildNested (l : List (BitVec 32 × List (BitVec 32 × List UInt8))) : Option Enc.Builder :=
  l.foldlM (fun b e => do pure (appendIndirect b e.1 (← buildMap e.2))) {}

/-- A subsection made with the methods of `NameSection`. -/
def Sub.build : Sub → Option (List UInt8)
  | .module n => moduleSubsection n
  | .names k l => do mapSubsection (directId k) (← buildMap l)
  | .nested k l => do mapSubsection (indirectId k) (← buildNested l)
  | .other id d => rawSubsection id d

/-- Names that wasmparser accepts: of UTF-8, which always holds of a Rust `&str`. -/
def NameFits (n : List UInt8) : Prop := validUtf8 n = true

def Sub.Fits : Sub → Prop
  | .module n => n.length ≤ 100000 ∧ validUtf8 n = true
  | .names _ l => l.length < 2 ^ 32 ∧ ∀ e ∈ l, NameFits e.2
  | .nested _ l => l.length < 2 ^ 32 ∧ ∀ e ∈ l, e.2.length < 2 ^ 32 ∧
      ∀ x ∈ e.2, NameFits x.2 ∧ x.2.length ≤ 100000
  | .other id _ => 12 ≤ id ∧ id < 128

end Verif.Names.Spec
