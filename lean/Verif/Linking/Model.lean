/-! Dependencies of the libraries that wit-component links (crates/wit-component/src/linking.rs).

Libraries are numbers, a map from libraries to sets of libraries is a function to lists without
duplicates, and libraries that are not in the map have the empty list. Loops and recursion that
have no obvious end have fuel; `none` is "not finished". -/
namespace Verif.Linking

/-- What is used of `struct Metadata` (crates/wit-component/src/linking/metadata.rs); `κ` is the name
and type of a function. `root` is the condition in `find_reachable` (linking.rs line 1540). -/
structure Lib (κ : Type) where
  name : String
  needed : List String
  imports : List κ
  root : Bool
  deriving DecidableEq, Repr

inductive Fail where
  | panic
  | refused
  deriving DecidableEq, Repr

/-- `IndexSet::insert`. -/
def insert [DecidableEq α] (x : α) (l : List α) : List α := if x ∈ l then l else l ++ [x]

/-- `Extend for IndexSet`. -/
def extend [DecidableEq α] (l : List α) (xs : List α) : List α := xs.foldl (fun l x => insert x l) l

/-- The loop over the imports (linking.rs lines 1320-1325), with the map `exporters`. -/
def addImports (exporters : κ → Option String) : List κ → List String → Except Fail (List String)
  | [], row => .ok row
  | k :: ks, row =>
    match exporters k with
    | none => .error .refused
    | some name => addImports exporters ks (insert name row)

/-- The first loop of `find_dependencies` (linking.rs lines 1312-1326); `seen` are the keys of
`indexes`. -/
def directNames (exporters : κ → Option String) : List (Lib κ) → List String →
    Except Fail (List (List String))
  | [], _ => .ok []
  | lib :: libs, seen =>
    if lib.name ∈ seen then .error .panic
    else match addImports exporters lib.imports (extend [] lib.needed) with
      | .error e => .error e
      | .ok row =>
        match directNames exporters libs (lib.name :: seen) with
        | .error e => .error e
        | .ok rows => .ok (row :: rows)

/-- `indexes[k]`; names are not there twice. -/
def indexOf (name : String) : List (Lib κ) → Option Nat
  | [] => none
  | lib :: libs => if lib.name = name then some 0 else (indexOf name libs).map (· + 1)

/-- The conversion of one set (linking.rs lines 1334-1336) with the assertion of `collect_unique`. -/
def toIndexes (libs : List (Lib κ)) : List String → List Nat → Except Fail (List Nat)
  | [], acc => .ok acc
  | name :: names, acc =>
    match indexOf name libs with
    | none => .error .panic
    | some i => if i ∈ acc then .error .panic else toIndexes libs names (acc ++ [i])

/-- The conversion of the map (linking.rs lines 1329-1339). -/
def convert (libs : List (Lib κ)) : List (List String) → Except Fail (List (List Nat))
  | [] => .ok []
  | row :: rows =>
    match toIndexes libs row [] with
    | .error e => .error e
    | .ok r =>
      match convert libs rows with
      | .error e => .error e
      | .ok rs => .ok (r :: rs)

/-- The new dependencies of one library (linking.rs lines 1348-1354). -/
def newDeps (D : Nat → List Nat) (i : Nat) : List Nat :=
  extend [] (((D i).flatMap D).filter (· ∉ D i))

/-- The fixpoint loop (linking.rs lines 1345-1365) over libraries below `n`. -/
def closure (n : Nat) : Nat → (Nat → List Nat) → Option (Nat → List Nat)
  | 0, _ => none
  | fuel + 1, D =>
    if (List.range n).all fun i => newDeps D i = [] then some D
    else closure n fuel fun i => extend (D i) (newDeps D i)

/-- `find_dependencies` (linking.rs lines 1305-1366). -/
def findDependencies (fuel : Nat) (exporters : κ → Option String) (libs : List (Lib κ)) :
    Except Fail (Option (Nat → List Nat)) :=
  match directNames exporters libs [] with
  | .error e => .error e
  | .ok rows =>
    match convert libs rows with
    | .error e => .error e
    | .ok D => .ok (closure libs.length fuel fun i => D.getD i [])

/-- `topo_add` (linking.rs lines 1266-1290). -/
def topoAdd (D : Nat → List Nat) : Nat → List Nat → Nat → Option (List Nat)
  | 0, _, _ => none
  | fuel + 1, sorted, element =>
    match (D element).foldlM (fun s dep =>
      if dep ∈ s ∨ element ∈ D dep then some s else topoAdd D fuel s dep) sorted with
    | none => none
    | some s => (D element).foldlM (fun s dep =>
      if dep ∉ s ∧ element ∈ D dep then topoAdd D fuel s dep else some s) (insert element s)

/-- `topo_sort` (linking.rs lines 1294-1301). -/
def topoSort (D : Nat → List Nat) (fuel count : Nat) : Option (List Nat) :=
  (List.range count).foldlM (topoAdd D fuel) []

/-- The variable `reachable` (linking.rs lines 1536-1546). -/
def roots (libs : List (Lib κ)) : List Nat :=
  (List.range libs.length).filter fun i =>
    match libs[i]? with
    | some lib => lib.root
    | none => false

/-- `find_reachable` (linking.rs lines 1532-1559); libraries instead of their names. -/
def findReachable (libs : List (Lib κ)) (D : Nat → List Nat) : List Nat :=
  roots libs ++ (roots libs).flatMap D

end Verif.Linking
