import Verif.TypeList.Step
/-!
# Histories of a validator, and what its list of types stands for
-/
namespace Verif.TypeList
open Verif.Types
open Spec (SubT Comp Heap Ref Val Storage Field Kind Decls Comp.kind)

/-- What is added to a validator, as written in the modules: references are the module's type
indices. -/
inductive SrcOp where
  | newModule
  | add (module : Nat) (xs : List (SubT Nat))

/-- The operation adds that source. -/
def OpIs : Op → SrcOp → Prop
  | .newModule, .newModule => True
  | .add h g, .add h' xs => h = h' ∧ Src g xs
  | _, _ => False

/-- The recursion groups of every module. -/
def groupsStep (ms : List (List (List (SubT Nat)))) : SrcOp → List (List (List (SubT Nat)))
  | .newModule => ms ++ [[]]
  | .add h xs => ms.modify h (· ++ [xs])

/-- The recursion groups of every module after a history. -/
def groupsOf (os : List SrcOp) : List (List (List (SubT Nat))) := os.foldl groupsStep []

/-- `s` is the state after the history `ops` with sources `os`. -/
def Reaches (f : Features) (ops : List Op) (os : List SrcOp) (s : State) : Prop :=
  List.Forall₂ OpIs ops os ∧ run f .init ops = .ok s

/-- The list of types stands for `L`: references are identifiers, positions of `L`. -/
def View (T : TypeList) (L : List (SubT Nat)) : Prop :=
  List.Forall₂ (fun t x => DSub t (x.map idx)) T.coreTypes L ∧
  ∀ x ∈ L, ∀ r ∈ x.refs, r < 2 ^ 20 ∧ r < L.length

/-- The declarations of a list of types. -/
def declsOf (L : List (SubT Nat)) : Decls where
  info i := (L[i]?).map fun x => (x.shared, x.comp.kind)
  super i := (L[i]?).bind (·.supertype)

/-- The value type `t`, over the list `L`, stands for `x`. -/
def ValIs (L : List (SubT Nat)) (t : ValType) (x : Val Nat) : Prop :=
  DVal t (x.map idx) ∧ ∀ r ∈ x.refs, r < 2 ^ 20 ∧ r < L.length

/-- The same for reference types. -/
def RefIs (L : List (SubT Nat)) (t : RefType) (x : Ref Nat) : Prop :=
  DRef t (x.map idx) ∧ ∀ r ∈ x.heap.refs, r < 2 ^ 20 ∧ r < L.length

/-- Room for the next operation: fewer than 2^20 types in total. -/
def Room (s : State) : SrcOp → Prop
  | .newModule => True
  | .add h xs => h < s.modules.length ∧ s.types.coreTypes.length + xs.length ≤ 2 ^ 20

end Verif.TypeList
