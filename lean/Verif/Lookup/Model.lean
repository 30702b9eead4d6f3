import Verif.Semver.Model
/-! How wit-component finds the interface a core module imports from or exports to
(crates/wit-component/src/validation.rs).

The items of a world are a list of entries in order. Parsing of the name of the module
(`ComponentName::new`, `InterfaceName::version`) is a parameter. -/
namespace Verif.Lookup
open Verif.Semver (Version PackageName Key Item track)

/-- What is used of `struct Interface` (crates/wit-parser/src/lib.rs); the package is looked up in
the arena. -/
structure Iface where
  package : Option PackageName
  name : Option String
  cloneOf : Option Nat := none
  deriving DecidableEq, Repr

/-- What becomes of `ComponentName::new(module, 0)` and `name.version(None)` (validation.rs lines
2454-2463). -/
inductive Parsed where
  | notInterface
  | badVersion
  | interface (ns pkg name : String) (version : Option Version)
  deriving DecidableEq, Repr

/-- What is used of `struct Resolve`: `package_names` together with the interfaces of packages, and
the arena of interfaces. -/
structure Res where
  named : PackageName → String → Option Nat
  ifaces : Nat → Iface

inductive Fail where
  | panic
  | refused
  deriving DecidableEq, Repr

variable (R : Res)

/-- `items.get(&bare_name)` (validation.rs lines 2444-2447). -/
def bare (module_ : String) : List (Key × Item) → Option Nat
  | [] => none
  | (k, item) :: xs =>
    if k = .name module_ then
      match item with
      | .iface id => some id
      | .other => none
    else bare module_ xs

/-- The loop that looks for a clone (validation.rs lines 2489-2497). -/
def clone (id : Nat) : List (Key × Item) → Option Nat
  | [] => none
  | (.name _, _) :: xs => clone id xs
  | (.iface i, _) :: xs => if (R.ifaces i).cloneOf = some id then some i else clone id xs

/-- The search for an exact match (validation.rs lines 2465-2499). -/
def exact (ns pkg name : String) (version : Option Version) (items : List (Key × Item)) :
    Option Nat :=
  match R.named ⟨ns, pkg, version⟩ name with
  | none => none
  | some id =>
    if items.any fun x => x.1 = .iface id then some id else clone R id items

/-- The loop that looks for a compatible version (validation.rs lines 2505-2537). -/
def compat (ns pkg name : String) (version : Option Version) : List (Key × Item) →
    Except Fail (Key × Nat)
  | [] => .error .refused
  | (.name _, _) :: xs => compat ns pkg name version xs
  | (.iface id, _) :: xs =>
    match (R.ifaces id).name with
    | none => .error .panic
    | some n =>
      if n ≠ name then compat ns pkg name version xs
      else match (R.ifaces id).package with
        | none => .error .panic
        | some p =>
          if p.namespace_ ≠ ns ∨ p.name ≠ pkg then compat ns pkg name version xs
          else match version, p.version with
            | some v, some w =>
              if track v = track w then .ok (.iface id, id) else compat ns pkg name version xs
            | _, _ => compat ns pkg name version xs

/-- `Legacy::module_to_interface` (validation.rs lines 2437-2540). -/
def moduleToInterface (parse : String → Parsed) (module_ : String) (items : List (Key × Item)) :
    Except Fail (Key × Nat) :=
  match bare module_ items with
  | some id => .ok (.name module_, id)
  | none =>
    match parse module_ with
    | .notInterface => .error .refused
    | .badVersion => .error .refused
    | .interface ns pkg name version =>
      match exact R ns pkg name version items with
      | some id => .ok (.iface id, id)
      | none => compat R ns pkg name version items

end Verif.Lookup
