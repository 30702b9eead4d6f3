/-! Semantic versions in wit-parser: the track of compatible versions (crates/wit-parser/src/lib.rs)
and `Resolve::merge_world_imports_based_on_semver` (crates/wit-parser/src/resolve/mod.rs).

The numbers of a version are unbounded here. The order of versions is that of the crate `semver`
and is a parameter. -/
namespace Verif.Semver

/-- `semver::Version`. -/
structure Version where
  major : Nat
  minor : Nat
  patch : Nat
  pre : List Char := []
  build : List Char := []
  deriving DecidableEq, Repr

/-- `PackageName::version_compat_track` (lib.rs lines 277-292). -/
def track (version : Version) : Version :=
  let version := { version with build := [] }
  if version.pre ≠ [] then version
  else if version.major ≠ 0 then { version with minor := 0, patch := 0 }
  else if version.minor ≠ 0 then { version with patch := 0 }
  else version

/-- `{}` of an integer. -/
def dec (n : Nat) : List Char := Nat.toDigits 10 n

/-- `Display for semver::Version`. -/
def display (v : Version) : List Char :=
  dec v.major ++ '.' :: (dec v.minor ++ '.' :: (dec v.patch ++
    ((if v.pre = [] then [] else '-' :: v.pre) ++ (if v.build = [] then [] else '+' :: v.build))))

/-- `PackageName::version_compat_track_string` (lib.rs lines 298-310). -/
def trackString (version : Version) : List Char :=
  let version := track version
  if version.pre ≠ [] then display version
  else if version.major ≠ 0 then dec version.major
  else if version.minor ≠ 0 then dec version.major ++ '.' :: dec version.minor
  else display version

/-- `struct PackageName` (lib.rs lines 238-245). -/
structure PackageName where
  namespace_ : String
  name : String
  version : Option Version
  deriving DecidableEq, Repr

/-- The package, looked up in the arena, and the name of an `Interface`. -/
structure Iface where
  package : Option PackageName
  name : Option String
  deriving DecidableEq, Repr

/-- `enum WorldKey` (lib.rs lines 440-445). -/
inductive Key where
  | name (s : String)
  | iface (id : Nat)
  deriving DecidableEq, Repr

/-- `enum WorldItem` (lib.rs lines 496-527); functions and types without their contents. -/
inductive Item where
  | iface (id : Nat)
  | other
  deriving DecidableEq, Repr

abbrev Track := PackageName × String

variable (R : Nat → Iface) (cmp : Version → Version → Ordering)

/-- `Resolve::semver_track` (resolve/mod.rs lines 2581-2588). -/
def semverTrack (id : Nat) : Option (Track × Version) := do
  let iface := R id
  let pkg ← iface.package
  let version ← pkg.version
  let name := { pkg with version := some (track version) }
  pure ((name, ← iface.name), version)

/-- The variables `semver_tracks` and `to_remove` (resolve/mod.rs lines 2421-2422); a set is a list
without duplicates. -/
structure St where
  tracks : Track → Option (Version × Nat) := fun _ => none
  toRemove : List Nat := []

/-- `HashSet::insert`. -/
def insert (x : Nat) (l : List Nat) : List Nat := if x ∈ l then l else x :: l

/-- `HashMap::insert`. -/
def update (f : Track → Option (Version × Nat)) (t : Track) (x : Version × Nat) :
    Track → Option (Version × Nat) := fun u => if u = t then some x else f u

/-- The body of the first loop (resolve/mod.rs lines 2423-2452); `id_of(..).unwrap()` in the debug
message, which does not panic where `semver_track` returns a track, is left out. -/
def visit (st : St) (key : Key) : St :=
  match key with
  | .name _ => st
  | .iface id =>
    match semverTrack R id with
    | none => st
    | some (t, v) =>
      match st.tracks t with
      | none => { st with tracks := update st.tracks t (v, id) }
      | some (v', id') =>
        match cmp v v' with
        | .gt => { tracks := update st.tracks t (v, id), toRemove := insert id' st.toRemove }
        | .eq => st
        | .lt => { st with toRemove := insert id st.toRemove }

inductive Fail where
  | panic
  | refused
  deriving DecidableEq, Repr

/-- The loop that makes `replacements` (resolve/mod.rs lines 2456-2462); the order of a hash set is
that of the list. -/
def replacements (st : St) : List Nat → List (Nat × Nat) → Except Fail (List (Nat × Nat))
  | [], acc => .ok acc
  | id :: ids, acc =>
    match semverTrack R id with
    | none => .error .panic
    | some (t, _) =>
      match st.tracks t with
      | none => .error .panic
      | some (_, latest) =>
        if acc.any (·.1 == id) then .error .panic
        else replacements st ids (acc ++ [(id, latest)])

/-- The test in the loop over the imports (resolve/mod.rs lines 2512-2516). -/
def isReplaced (repl : List (Nat × Nat)) : Item → Bool
  | .iface id => repl.any (·.1 == id)
  | .other => false

/-- The loop over the imports (resolve/mod.rs lines 2511-2522). That types of the imports then refer
to the replacements, the exports and `elaborate_world` are left out. -/
def keep (repl : List (Nat × Nat)) : List (Key × Item) → List (Key × Item) →
    Except Fail (List (Key × Item))
  | [], acc => .ok acc
  | (k, item) :: xs, acc =>
    if isReplaced repl item then keep repl xs acc
    else if acc.any (·.1 == k) then .error .panic
    else keep repl xs (acc ++ [(k, item)])

/-- `Resolve::merge_world_imports_based_on_semver` (resolve/mod.rs lines 2410-2549): the replacements
and the imports afterwards. `check` is `merge_world_item` (lines 2471-2500). -/
def merge (check : Nat → Nat → Bool) (imports : List (Key × Item)) :
    Except Fail (List (Nat × Nat) × List (Key × Item)) :=
  let st := (imports.map (·.1)).foldl (visit R cmp) {}
  match replacements R st st.toRemove [] with
  | .error e => .error e
  | .ok repl =>
    if repl.all fun p => check p.1 p.2 then
      match keep repl imports [] with
      | .error e => .error e
      | .ok l => .ok (repl, l)
    else .error .refused

end Verif.Semver
