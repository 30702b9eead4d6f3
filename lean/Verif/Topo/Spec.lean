import Mathlib.Logic.Relation
import Verif.Topo.Model
/-
Specification of a topological sort, in terms of the dependency map only.
-/
namespace Verif.Topo.Spec

variable {α σ : Type}

/-- The map is well formed: its keys are distinct (it is an `IndexMap`). -/
def WF (deps : Deps α σ) : Prop := (deps.map Prod.fst).Nodup

/-- `x` depends directly on `y`. -/
def Dep (deps : Deps α σ) (x y : α) : Prop :=
  ∃ edges, (x, edges) ∈ deps ∧ ∃ e ∈ edges, e.name = y

/-- Every dependency is itself an item. -/
def Closed (deps : Deps α σ) : Prop :=
  ∀ x y, Dep deps x y → y ∈ deps.map Prod.fst

/-- No item depends on itself, directly or through others. -/
def Acyclic (deps : Deps α σ) : Prop := ∀ x, ¬ Relation.TransGen (Dep deps) x x

/-- Item `x` can be placed after the items `before`: it is not there yet and everything that it
depends on is. -/
def Ready (deps : Deps α σ) (before : List α) (x : α) : Prop :=
  x ∈ deps.map Prod.fst ∧ x ∉ before ∧ ∀ y, Dep deps x y → y ∈ before

/-- `x` is declared before `y`. -/
def DeclaredBefore (deps : Deps α σ) (x y : α) : Prop :=
  ∃ i j : Nat, i < j ∧ (deps.map Prod.fst)[i]? = some x ∧ (deps.map Prod.fst)[j]? = some y

/-- `order` lists every item once, each item after everything it depends on, and at each place the
earliest declared item among those that could be placed there. -/
structure SourceStable (deps : Deps α σ) (order : List α) : Prop where
  perm : order.Perm (deps.map Prod.fst)
  ready : ∀ (before : List α) (x : α) (after : List α), order = before ++ x :: after →
    Ready deps before x
  first : ∀ (before : List α) (x : α) (after : List α), order = before ++ x :: after →
    ∀ y, Ready deps before y → y ≠ x → DeclaredBefore deps x y

/-- `edge` is the first edge, in the order of the source, whose target is not an item. -/
def FirstMissing (deps : Deps α σ) (edge : Id α σ) : Prop :=
  ∃ before after, (deps.map Prod.snd).flatten = before ++ edge :: after ∧
    edge.name ∉ deps.map Prod.fst ∧ ∀ e ∈ before, e.name ∈ deps.map Prod.fst

/-- `x` cannot be sorted: it is on a cycle or depends on an item that is. -/
def Blocked (deps : Deps α σ) (x : α) : Prop :=
  ∃ z, Relation.ReflTransGen (Dep deps) x z ∧ Relation.TransGen (Dep deps) z z

end Verif.Topo.Spec
