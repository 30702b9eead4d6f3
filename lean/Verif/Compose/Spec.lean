import Verif.Compose.Model
/-! What a composition graph is to be. -/
namespace Verif.Compose.Spec

/-- Export `e` of instance `s`, or `s` itself, is the argument for import `i` of instance `t`. -/
def Connected (st : St) (s : Nat) (e : Option Nat) (t i : Nat) : Prop :=
  ∃ x ∈ st.graph, x.source = s ∧ x.target = t ∧ (i, e) ∈ x.map

/-- A graph that makes sense. -/
structure Sound (st : St) : Prop where
  /-- Components go by their names. -/
  names : ∀ n c, st.names n = some c ↔ ∃ x, st.components c = some x ∧ x.name = n
  /-- Instances are those of components. -/
  instances : ∀ c i, (∃ x, st.components c = some x ∧ i ∈ x.instances) ↔
    ∃ x, st.instances i = some x ∧ x.component = c
  /-- Connections are between two instances. -/
  ends : ∀ s e t i, Connected st s e t i → s ≠ t ∧ (∃ x, st.instances s = some x) ∧
    ∃ x, st.instances t = some x
  /-- Instances depend on others by a connection only. -/
  edges : ∀ x ∈ st.graph, ∃ e i, Connected st x.source e x.target i
  /-- It is known what is connected. -/
  connected : ∀ t x i, st.instances t = some x → (i ∈ x.connected ↔ ∃ s e, Connected st s e t i)
  /-- Each import has one argument. -/
  one : ∀ s s' e e' t i, Connected st s e t i → Connected st s' e' t i → s = s' ∧ e = e'

/-- The hash set is visited, in whatever order. -/
def Visits (order : List Nat → List Nat) : Prop := ∀ l x, x ∈ order l ↔ x ∈ l

/-- The property: from the empty graph no sequence of calls panics, and all graphs make sense. -/
def AlwaysSound : Prop := ∀ order ops, Visits order → ∃ st, run order ops {} = .ok st ∧ Sound st

/-- The call does not disconnect an import that is connected to another instance. -/
def Fair (st : St) : Op → Prop
  | .disconnect s t i => ∀ s' e, Connected st s' e t i → s' = s
  | _ => True

/-- All calls are of this kind. -/
def FairRun (order : List Nat → List Nat) : List Op → St → Prop
  | [], _ => True
  | op :: ops, st => Fair st op ∧ ∀ st', (step order op st = .ok st' ∨
      step order op st = .error .refused ∧ st' = st) → FairRun order ops st'

/-- What a call does to the connections. -/
def After (st : St) : Op → Nat → Option Nat → Nat → Nat → Prop
  | .removeComponent c, s, e, t, i => Connected st s e t i ∧
      ∀ x, (st.instances s = some x ∨ st.instances t = some x) → x.component ≠ c
  | .removeInstance n, s, e, t, i => Connected st s e t i ∧ s ≠ n ∧ t ≠ n
  | .connect s' e' t' i' _, s, e, t, i => Connected st s e t i ∨ s = s' ∧ e = e' ∧ t = t' ∧ i = i'
  | .disconnect s' t' i', s, e, t, i => Connected st s e t i ∧ ¬ (s = s' ∧ t = t' ∧ i = i')
  | _, s, e, t, i => Connected st s e t i

end Verif.Compose.Spec
