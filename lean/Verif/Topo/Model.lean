/-
Model of `crates/wit-parser/src/ast/toposort.rs`.

The dependency map `IndexMap<&str, Vec<Id>>` is the list of its entries in insertion order (its
keys are distinct, see `Spec.WF`); `get_full` is a search by key, `get_index` is indexing.
Names are an arbitrary type `α` with decidable equality, spans an arbitrary type `σ`; the `kind`
and `hint` strings that are only copied into error messages are omitted.
-/
namespace Verif.Topo

/-- `ast::Id` (crates/wit-parser/src/ast.rs): a name with its source span. -/
structure Id (α σ : Type) where
  name : α
  span : σ

/-- `struct State` (toposort.rs 10-19). -/
structure State where
  outboundRemaining : Nat
  reverseDeps : List Nat

/-- What `toposort` can do: return an order (line 101), report a missing item (line 55), report a
cycle (line 117) or panic (index out of range, overflowing subtraction on line 90, `unwrap`s on
lines 92, 111, 113, `unreachable!` on line 126). `fuel` is not a behaviour of the code: it is the
answer of the model if the bound on the number of iterations of the loop of line 87 were too
small. -/
inductive Res (α σ : Type) where
  | ok (order : List α)
  | itemNotFound (name : α) (span : σ)
  | typeCycle (name : α) (span : σ)
  | panic
  | fuel

variable {α σ : Type} [DecidableEq α]

/-- The dependency map, entries in insertion order. -/
abbrev Deps (α σ : Type) := List (α × List (Id α σ))

/-- `deps.get_full(name)`, of which only the index is used (lines 54 and 113). -/
def getFull (deps : Deps α σ) (name : α) : Option Nat :=
  deps.findIdx? (fun e => e.1 = name)

/-- The inner loop over `edges` (lines 53-63). `none` = the index on line 62 is out of range. -/
def buildEdges (deps : Deps α σ) (i : Nat) :
    List (Id α σ) → List State → Except (Res α σ) (List State)
  | [], states => .ok states
  | edge :: edges, states =>
    match getFull deps edge.name with
    | none => .error (.itemNotFound edge.name edge.span)
    | some j =>
      match states[j]? with
      | none => .error .panic
      | some s =>
        buildEdges deps i edges (states.set j { s with reverseDeps := s.reverseDeps ++ [i] })

/-- The outer loop (lines 51-64), from entry `i` on. -/
def build (deps : Deps α σ) :
    Nat → Deps α σ → List State → Except (Res α σ) (List State)
  | _, [], states => .ok states
  | i, (_, edges) :: rest, states =>
    match states[i]? with
    | none => .error .panic
    | some s =>
      match buildEdges deps i edges (states.set i { s with outboundRemaining := edges.length }) with
      | .error e => .error e
      | .ok states => build deps (i + 1) rest states

/-- An entry of the heap: `(deps.len() - i, name, i)` (lines 80 and 93). -/
abbrev Entry (α : Type) := Nat × α × Nat

/-- Seeding the heap (lines 78-82). The heap is a list; `pop` below picks its maximum. -/
def seed (deps : Deps α σ) (states : List State) : Nat → Deps α σ → List (Entry α) →
    Option (List (Entry α))
  | _, [], heap => some heap
  | i, (dep, _) :: rest, heap =>
    match states[i]? with
    | none => none
    | some s =>
      seed deps states (i + 1) rest
        (if s.outboundRemaining = 0 then (deps.length - i, dep, i) :: heap else heap)

/-- The maximum of a non-empty heap: `BinaryHeap::pop` returns the greatest tuple. Only the first
components are compared: they are pairwise different (`deps.len() - i` for distinct `i`), which
decides the comparison of the tuples. -/
def maxEntry : Entry α → List (Entry α) → Entry α
  | m, [] => m
  | m, e :: es => if m.1 < e.1 then maxEntry e es else maxEntry m es

/-- `BinaryHeap::pop` (line 87): the greatest entry and the others. -/
def pop : List (Entry α) → Option (Entry α × List (Entry α))
  | [] => none
  | e :: es =>
    let m := maxEntry e es
    some (m, (e :: es).erase m)

/-- The loop over the reverse dependencies of the popped node (lines 89-95). -/
def release (deps : Deps α σ) : List Nat → List State → List (Entry α) →
    Option (List State × List (Entry α))
  | [], states, heap => some (states, heap)
  | i :: is, states, heap =>
    match states[i]? with
    | none => none
    | some s =>
      if s.outboundRemaining = 0 then none
      else
        let states := states.set i { s with outboundRemaining := s.outboundRemaining - 1 }
        if s.outboundRemaining - 1 = 0 then
          match deps[i]? with
          | none => none
          | some (dep, _) => release deps is states ((deps.length - i, dep, i) :: heap)
        else release deps is states heap

/-- The main loop (lines 87-96); the first argument bounds the number of iterations. -/
def drain (deps : Deps α σ) : Nat → List State → List (Entry α) → List α →
    Except (Res α σ) (List State × List α)
  | 0, _, _, _ => .error .fuel
  | fuel + 1, states, heap, order =>
    match pop heap with
    | none => .ok (states, order)
    | some ((_, node, i), heap) =>
      match states[i]? with
      | none => .error .panic
      | some s =>
        match release deps s.reverseDeps (states.set i { s with reverseDeps := [] }) heap with
        | none => .error .panic
        | some (states, heap) => drain deps fuel states heap (order ++ [node])

/-- The search for an edge between two nodes with remaining edges: the inner loop
(lines 112-123). `none` = no such edge. -/
def findEdge (deps : Deps α σ) (states : List State) : List (Id α σ) → Option (Res α σ)
  | [] => none
  | dep :: rest =>
    match getFull deps dep.name with
    | none => some .panic
    | some j =>
      match states[j]? with
      | none => some .panic
      | some s =>
        if s.outboundRemaining = 0 then findEdge deps states rest
        else some (.typeCycle dep.name dep.span)

/-- The outer loop (lines 107-126) over the states, from index `i` on. -/
def findCycle (deps : Deps α σ) (all : List State) : Nat → List State → Res α σ
  | _, [] => .panic
  | i, state :: rest =>
    if state.outboundRemaining = 0 then findCycle deps all (i + 1) rest
    else
      match deps[i]? with
      | none => .panic
      | some (_, edges) =>
        match findEdge deps all edges with
        | some r => r
        | none => findCycle deps all (i + 1) rest

/-- `toposort` (lines 44-127). -/
def toposort (deps : Deps α σ) : Res α σ :=
  match build deps 0 deps (List.replicate deps.length ⟨0, []⟩) with
  | .error e => e
  | .ok states =>
    match seed deps states 0 deps [] with
    | none => .panic
    | some heap =>
      match drain deps (deps.length + 1) states heap [] with
      | .error e => e
      | .ok (states, order) =>
        if order.length = deps.length then .ok order
        else findCycle deps states 0 states

end Verif.Topo
