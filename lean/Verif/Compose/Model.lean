/-! The composition graph of wasm-compose (crates/wasm-compose/src/graph.rs): its components,
instances and connections.

Maps are functions or lists of entries, sets are lists; their order is that of the list, except
for the instances of a component, which are visited in the order `order`. The counters for ids
belong to the graph here and do not overflow. The types of components are left out: whether the
indices given to `connect` exist and the types agree is part of the call. -/
namespace Verif.Compose

/-- `struct ComponentEntry` (graph.rs lines 446-449); of the component only the name. -/
structure Entry where
  name : String
  instances : List Nat
  deriving DecidableEq, Repr

/-- `struct Instance` (graph.rs lines 452-455). -/
structure Inst where
  component : Nat
  connected : List Nat
  deriving DecidableEq, Repr

/-- An edge of `graph` (graph.rs lines 558-561) with its map from imports of the target to exports
of the source. -/
structure Edge where
  source : Nat
  target : Nat
  map : List (Nat × Option Nat)
  deriving DecidableEq, Repr

/-- `struct CompositionGraph` (graph.rs lines 554-563) without the resource mapping, and the counters
`NEXT_COMPONENT_ID` and `NEXT_INSTANCE_ID`. Nodes without edges are left out. -/
structure St where
  names : String → Option Nat := fun _ => none
  components : Nat → Option Entry := fun _ => none
  instances : Nat → Option Inst := fun _ => none
  graph : List Edge := []
  nextComponent : Nat := 0
  nextInstance : Nat := 0

inductive Fail where
  | panic
  | refused
  deriving DecidableEq, Repr

/-- `insert` of a map. -/
def set [DecidableEq κ] (f : κ → Option α) (k : κ) (a : α) : κ → Option α :=
  fun x => if x = k then some a else f x

/-- `remove` of a map. -/
def unset [DecidableEq κ] (f : κ → Option α) (k : κ) : κ → Option α :=
  fun x => if x = k then none else f x

/-- The keys of the map of an edge. -/
def Edge.keys (e : Edge) : List Nat := e.map.map (·.1)

/-- `add_component` (graph.rs lines 705-733) without `unify_imported_resources`, which changes the
resource mapping only. -/
def addComponent (name : String) (st : St) : Except Fail St :=
  match st.names name with
  | some _ => .error .refused
  | none =>
    let id := st.nextComponent
    match st.components id with
    | some _ => .error .panic
    | none => .ok { st with
        names := set st.names name id
        components := set st.components id ⟨name, []⟩
        nextComponent := id + 1 }

/-- The loop over the edges that go out of a removed instance (graph.rs lines 766-774, 839-844). -/
def unlink : List Edge → (Nat → Option Inst) → Except Fail (Nat → Option Inst)
  | [], f => .ok f
  | e :: es, f =>
    match f e.target with
    | none => .error .panic
    | some x => unlink es (set f e.target { x with connected := x.connected.filter (· ∉ e.keys) })

/-- `DiGraphMap::remove_node`. -/
def removeNode (id : Nat) (g : List Edge) : List Edge :=
  g.filter fun e => e.source ≠ id ∧ e.target ≠ id

/-- The loop over the instances (graph.rs lines 761-777). -/
def removeInstances : List Nat → St → Except Fail St
  | [], st => .ok st
  | id :: ids, st =>
    match unlink (st.graph.filter (·.source = id)) (unset st.instances id) with
    | .error e => .error e
    | .ok f => removeInstances ids { st with instances := f, graph := removeNode id st.graph }

/-- `remove_component` (graph.rs lines 751-779). -/
def removeComponent (order : List Nat → List Nat) (id : Nat) (st : St) : Except Fail St :=
  match st.components id with
  | none => .ok st
  | some entry =>
    match st.names entry.name with
    | none => .error .panic
    | some _ => removeInstances (order entry.instances) { st with
        components := unset st.components id
        names := unset st.names entry.name }

/-- `instantiate` (graph.rs lines 781-806). -/
def instantiate (id : Nat) (st : St) : Except Fail St :=
  match st.components id with
  | none => .error .refused
  | some entry =>
    let i := st.nextInstance
    .ok { st with
      instances := set st.instances i ⟨id, []⟩
      components := set st.components id { entry with instances := i :: entry.instances }
      nextInstance := i + 1 }

/-- `remove_instance` (graph.rs lines 825-848). -/
def removeInstance (id : Nat) (st : St) : Except Fail St :=
  match st.instances id with
  | none => .ok st
  | some inst =>
    match st.components inst.component with
    | none => .error .panic
    | some entry =>
      match unlink (st.graph.filter (·.source = id)) (unset st.instances id) with
      | .error e => .error e
      | .ok f => .ok { st with
          components := set st.components inst.component
            { entry with instances := entry.instances.filter (· ≠ id) }
          instances := f
          graph := removeNode id st.graph }

/-- `validate_connection` (graph.rs lines 945-1022); `fits` says that the indices exist and the types
agree. -/
def validateConnection (source target import_ : Nat) (fits : Bool) (st : St) : Except Fail Unit :=
  if source = target then .error .refused
  else match st.instances source with
    | none => .error .refused
    | some s =>
      match st.components s.component with
      | none => .error .panic
      | some _ =>
        match st.instances target with
        | none => .error .refused
        | some t =>
          match st.components t.component with
          | none => .error .panic
          | some _ =>
            if import_ ∈ t.connected then .error .refused
            else if fits then .ok () else .error .refused

/-- The second half of `connect` (graph.rs lines 885-892). -/
def addEdge (source target import_ : Nat) (export_ : Option Nat) (g : List Edge) :
    Except Fail (List Edge) :=
  if g.any fun e => e.source = source ∧ e.target = target then
    if g.any fun e => e.source = source ∧ e.target = target ∧ import_ ∈ e.keys then .error .panic
    else .ok (g.map fun e => if e.source = source ∧ e.target = target then
      { e with map := e.map ++ [(import_, export_)] } else e)
  else .ok (g ++ [⟨source, target, [(import_, export_)]⟩])

/-- `connect` (graph.rs lines 856-895). -/
def connect (source : Nat) (export_ : Option Nat) (target import_ : Nat) (fits : Bool) (st : St) :
    Except Fail St :=
  match validateConnection source target import_ fits st with
  | .error e => .error e
  | .ok () =>
    match st.instances target with
    | none => .error .panic
    | some t =>
      match addEdge source target import_ export_ st.graph with
      | .error e => .error e
      | .ok g => .ok { st with
          instances := set st.instances target { t with connected := import_ :: t.connected }
          graph := g }

/-- `disconnect` (graph.rs lines 902-938). -/
def disconnect (source target import_ : Nat) (st : St) : Except Fail St :=
  match st.instances source with
  | none => .error .refused
  | some _ =>
    match st.instances target with
    | none => .error .refused
    | some t => .ok { st with
        instances := set st.instances target
          { t with connected := t.connected.filter (· ≠ import_) }
        graph := (st.graph.map fun e => if e.source = source ∧ e.target = target then
            { e with map := e.map.filter (·.1 ≠ import_) } else e).filter fun e =>
          ¬ (e.source = source ∧ e.target = target ∧ e.map = []) }

/-- The public methods that change the graph. -/
inductive Op where
  | addComponent (name : String)
  | removeComponent (id : Nat)
  | instantiate (id : Nat)
  | removeInstance (id : Nat)
  | connect (source : Nat) (export_ : Option Nat) (target import_ : Nat) (fits : Bool)
  | disconnect (source target import_ : Nat)
  deriving DecidableEq, Repr

def step (order : List Nat → List Nat) : Op → St → Except Fail St
  | .addComponent name => addComponent name
  | .removeComponent id => removeComponent order id
  | .instantiate id => instantiate id
  | .removeInstance id => removeInstance id
  | .connect s e t i f => connect s e t i f
  | .disconnect s t i => disconnect s t i

/-- Calls one after another; those that return an error do not change the graph. -/
def run (order : List Nat → List Nat) : List Op → St → Except Fail St
  | [], st => .ok st
  | op :: ops, st =>
    match step order op st with
    | .error .panic => .error .panic
    | .error .refused => run order ops st
    | .ok st' => run order ops st'

end Verif.Compose
