import Verif.Linking.Model
/-! What libraries depend on. -/
namespace Verif.Linking.Spec
variable (exporters : κ → Option String) (libs : List (Lib κ))

/-- Library `i` names library `j`, or imports what it exports. -/
def Direct (i j : Nat) : Prop := ∃ a b, libs[i]? = some a ∧ libs[j]? = some b ∧
  (b.name ∈ a.needed ∨ ∃ k ∈ a.imports, exporters k = some b.name)

/-- Dependencies, also by others. -/
inductive Depends : Nat → Nat → Prop
  | direct {i j} : Direct exporters libs i j → Depends i j
  | trans {i j k} : Direct exporters libs i j → Depends j k → Depends i k

/-- Names stand for one library, and those that are used for some. -/
structure Complete : Prop where
  unique : (libs.map (·.name)).Nodup
  needed : ∀ a ∈ libs, ∀ n ∈ a.needed, ∃ b ∈ libs, b.name = n
  exporters : ∀ k n, exporters k = some n → ∃ b ∈ libs, b.name = n

/-- The map says what all libraries depend on. -/
def Says (D : Nat → List Nat) : Prop := ∀ i j, j ∈ D i ↔ Depends exporters libs i j

/-- `j` comes before `i`. -/
def Before (l : List Nat) (j i : Nat) : Prop := ∃ a b c, l = a ++ j :: b ++ i :: c

/-- All libraries, once, after what they depend on unless this depends on them as well. -/
structure Sorted (l : List Nat) : Prop where
  nodup : l.Nodup
  all : ∀ i, i ∈ l ↔ i < libs.length
  order : ∀ i j, Depends exporters libs i j → ¬ Depends exporters libs j i → Before l j i

/-- A library that is a root or that a root depends on. -/
def Reachable (i : Nat) : Prop := ∃ r lib, libs[r]? = some lib ∧ lib.root = true ∧
  (i = r ∨ Depends exporters libs r i)

end Verif.Linking.Spec
