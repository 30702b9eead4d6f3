import Verif.Lookup.Model
import Verif.Semver.Spec
/-! Which interface the name of a module stands for. -/
namespace Verif.Lookup.Spec
open Verif.Semver (Version PackageName Key Item)
open Verif.Semver.Spec (Compatible)

variable (R : Res) (parse : String → Parsed) (items : List (Key × Item)) (m : String)

/-- The first item of a kind. -/
def First (P : Nat → Prop) (id : Nat) : Prop :=
  ∃ before item after, items = before ++ (.iface id, item) :: after ∧ P id ∧
    ∀ i x, (Key.iface i, x) ∈ before → ¬ P i

/-- An item by this very name. -/
def ByName (id : Nat) : Prop := (Key.name m, Item.iface id) ∈ items

/-- The interface, at this very version. -/
def Means (id : Nat) : Prop := ∃ ns p n v, parse m = .interface ns p n v ∧
  R.named ⟨ns, p, v⟩ n = some id

/-- It is an item of the world. -/
def Offered (id : Nat) : Prop := ∃ x, (Key.iface id, x) ∈ items

def CloneOf (of_ id : Nat) : Prop := (R.ifaces id).cloneOf = some of_

/-- The interface at a version that is compatible. -/
def Fits (id : Nat) : Prop := ∃ ns p n v w, parse m = .interface ns p n (some v) ∧
  (R.ifaces id).package = some ⟨ns, p, some w⟩ ∧ (R.ifaces id).name = some n ∧ Compatible v w

/-- What is to be found, in order of preference. -/
inductive Found (R : Res) (parse : String → Parsed) (m : String) (items : List (Key × Verif.Semver.Item)) :
    Key → Nat → Prop
  | name {id} : ByName items m id → Found R parse m items (.name m) id
  | same {id} : (¬ ∃ i, ByName items m i) → Means R parse m id → Offered items id → Found R parse m items (.iface id) id
  | clone {id of_} : (¬ ∃ i, ByName items m i) → Means R parse m of_ → ¬ Offered items of_ →
      First items (CloneOf R of_) id → Found R parse m items (.iface id) id
  | compatible {id} : (¬ ∃ i, ByName items m i) →
      (∀ of_, Means R parse m of_ → ¬ Offered items of_ ∧ ∀ i, Offered items i → ¬ CloneOf R of_ i) →
      First items (Fits R parse m) id → Found R parse m items (.iface id) id

/-- Items by the names of interfaces have a package and a name. -/
def Named : Prop := ∀ id x, (Key.iface id, x) ∈ items →
  (∃ p, (R.ifaces id).package = some p) ∧ ∃ n, (R.ifaces id).name = some n

end Verif.Lookup.Spec
