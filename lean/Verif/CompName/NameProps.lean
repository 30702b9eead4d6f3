import Verif.CompName.Grammar3
import Verif.CompName.Parts

/-!
# C64: the grammar of component names, C65: their parts
-/
namespace Verif.CompName.Spec

/-- C64. `ComponentName::new_with_features` accepts exactly the names of the grammar; the result
consists of the string and the kind whose rule it meets. -/
theorem name_new (nested : Bool) (semver : List Char → Bool) (s : List Char) (n : Name) :
    newName nested semver s = some n ↔ n.raw = s ∧ IsName nested semver n.kind.spec s :=
  newName_iff

/-- C64. A string meets the rule of at most one kind. -/
theorem name_kind (nested : Bool) (semver : List Char → Bool) (s : List Char) (k k' : Kind)
    (h : IsName nested semver k s) (h' : IsName nested semver k' s) : k = k' := by
  have key : ∀ k, IsName nested semver k s → ∃ n, newName nested semver s = some n ∧
      n.kind.spec = k := by
    intro k h
    obtain ⟨p, rfl⟩ : ∃ p : PKind, p.spec = k := by
      cases k with
      | label => exact ⟨.label, rfl⟩
      | constructor => exact ⟨.constructor, rfl⟩
      | method => exact ⟨.method, rfl⟩
      | static => exact ⟨.static, rfl⟩
      | interface => exact ⟨.interface, rfl⟩
      | dependency => exact ⟨.dependency, rfl⟩
      | url => exact ⟨.url, rfl⟩
      | hash => exact ⟨.hash, rfl⟩
    exact ⟨⟨s, p⟩, newName_iff.mpr ⟨rfl, h⟩, rfl⟩
  obtain ⟨n, hn, rfl⟩ := key k h
  obtain ⟨n', hn', rfl⟩ := key k' h'
  rw [hn] at hn'
  cases hn'
  rfl

/-- A stand-in for the semantic versions of the examples. -/
def someVersions (s : List Char) : Bool := s == "1.0.0".toList || s == "2.0.0".toList

example : newName false someVersions "a:b/c@1.0.0".toList =
    some ⟨"a:b/c@1.0.0".toList, .interface⟩ := by decide
example : newName false someVersions "[method]a.B-c".toList =
    some ⟨"[method]a.B-c".toList, .method⟩ := by decide
example : (newName true someVersions "a:b:c/d/e".toList).isSome = true ∧
    newName false someVersions "a:b:c/d/e".toList = none := by decide
example : (newName false someVersions
    "unlocked-dep=<a:b@{>=1.0.0 <2.0.0}>".toList).map (·.kind) = some .dependency := by decide
example : (newName false someVersions
    "locked-dep=<a:b@1.0.0>,integrity=<sha256-AAAA=?x>".toList).map (·.kind) =
      some .dependency := by decide
example : (newName false someVersions "url=<x>,integrity=<sha384-a sha512-b>".toList).map (·.kind) =
    some .url := by decide
example : newName false someVersions "[method]a".toList = none ∧
    newName false someVersions "A:b/c".toList = none ∧
    newName false someVersions "integrity=<sha256-a===>".toList = none := by decide

/-! ## Parts -/

/-- C65. `ResourceFunc::resource` and `method` of a method or static function do not panic and
return the two labels. -/
theorem func_parts (nested : Bool) (semver : List Char → Bool) (k : PKind)
    (hk : k = .method ∨ k = .static) (s : List Char) (h : newName nested semver s = some ⟨s, k⟩) :
    ∃ f r m, ((⟨s, k⟩ : Name).nkind = .method f ∨ (⟨s, k⟩ : Name).nkind = .static f) ∧
      resource f = some r ∧ methodOf f = some m ∧ Label r ∧ Label m ∧
      s = (if k = .method then "[method]".toList else "[static]".toList) ++ r ++ '.' :: m := by
  have hn := (newName_iff.mp h).2
  rcases hk with rfl | rfl
  · generalize hg : PKind.spec (Name.mk s PKind.method).kind = g at hn
    cases hn <;> first | cases hg | skip
    next r m hr hm =>
    refine ⟨r ++ '.' :: m, r, m, .inl ?_, resource_func hr, method_func hr, hr, hm, rfl⟩
    show NKind.method (("[method]".toList ++ r ++ '.' :: m).drop "[method]".toList.length) = _
    rw [List.append_assoc, List.drop_left]
  · generalize hg : PKind.spec (Name.mk s PKind.static).kind = g at hn
    cases hn <;> first | cases hg | skip
    next r m hr hm =>
    refine ⟨r ++ '.' :: m, r, m, .inr ?_, resource_func hr, method_func hr, hr, hm, rfl⟩
    show NKind.static (("[static]".toList ++ r ++ '.' :: m).drop "[static]".toList.length) = _
    rw [List.append_assoc, List.drop_left]

example : newName false someVersions "[static]a-b.C".toList =
      some ⟨"[static]a-b.C".toList, .static⟩ ∧
    resource "a-b.C".toList = some "a-b".toList ∧ methodOf "a-b.C".toList = some "C".toList := by
  decide

/-- The parts of an interface name: the accessors return the namespaces, the package, the
projections, the first of them, and the version with the suffix if that is one. -/
def PartsRight (semver : List Char → Bool) (n : List Char) (ns : List (List Char))
    (pkg p : List Char) (ps : List (List Char)) (v : List Char) : Prop :=
  let s := pathText n (ns ++ [pkg]) (p :: ps) ++ v
  namespaceOf s = some (n ++ joined ':' ns) ∧ packageOf s = some pkg ∧
    interfaceOf s = some p ∧ projectionOf s = some (p ++ joined '/' ps) ∧
    (v = [] → ∀ sfx, versionOf semver s sfx = some none) ∧
    ∀ w sfx, v = '@' :: w →
      versionOf semver s sfx =
        if semver (w ++ sfx.getD []) then some (some (w ++ sfx.getD [])) else none

/-- C65. On every interface name that is accepted the accessors return the parts. -/
def interface_parts : Prop :=
  ∀ (nested : Bool) (semver : List Char → Bool) (n : List Char) (ns : List (List Char))
    (pkg p : List Char) (ps : List (List Char)) (v : List Char),
    Path nested n (ns ++ [pkg]) (p :: ps) → OptText v → PartsRight semver n ns pkg p ps v

/-- C65, the part that holds: `interface`, `projection` and `version` always, `namespace` and
`package` unless there is a colon in the version. Missing: versions with a colon, which
`ComponentName::new` accepts as it does not look at the version of an interface. -/
theorem interface_parts_partial (nested : Bool) (semver : List Char → Bool) (n : List Char)
    (ns : List (List Char)) (pkg p : List Char) (ps : List (List Char)) (v : List Char)
    (h : Path nested n (ns ++ [pkg]) (p :: ps)) (hv : OptText v) :
    (':' ∉ v → PartsRight semver n ns pkg p ps v) ∧
    (let s := pathText n (ns ++ [pkg]) (p :: ps) ++ v
     interfaceOf s = some p ∧ projectionOf s = some (p ++ joined '/' ps) ∧
      (v = [] → ∀ sfx, versionOf semver s sfx = some none) ∧
      ∀ w sfx, v = '@' :: w →
        versionOf semver s sfx =
          if semver (w ++ sfx.getD []) then some (some (w ++ sfx.getD [])) else none) := by
  have h1 := interface_path h hv
  have h2 := projection_path h hv
  have h3 : v = [] → ∀ sfx, versionOf semver (pathText n (ns ++ [pkg]) (p :: ps) ++ v) sfx =
      some none := by
    rintro rfl sfx
    rw [List.append_nil]
    exact version_path h semver sfx
  have h4 : ∀ w sfx, v = '@' :: w →
      versionOf semver (pathText n (ns ++ [pkg]) (p :: ps) ++ v) sfx =
        if semver (w ++ sfx.getD []) then some (some (w ++ sfx.getD [])) else none := by
    rintro w sfx rfl
    exact version_path' h semver w sfx
  refine ⟨fun hc => ⟨?_, package_path h hc, h1, h2, h3, h4⟩, h1, h2, h3, h4⟩
  unfold namespaceOf
  rw [namespace_path h hc]
  rfl

theorem label_of {s : List Char} (h : kebabNew s = some s) : Label s := (kebabNew_some.mp h).2

/-- The path of `a:b/c`. -/
theorem path_abc : Path false "a".toList ([] ++ ["b".toList]) ["c".toList] where
  first := ⟨label_of (by decide), by unfold Upper; decide⟩
  more := by simp
  names := by
    intro x hx
    simp only [List.nil_append, List.mem_cons, List.not_mem_nil, or_false] at hx
    subst hx
    exact ⟨label_of (by decide), by unfold Upper; decide⟩
  projs := by
    intro x hx
    simp only [List.mem_cons, List.not_mem_nil, or_false] at hx
    subst hx
    exact label_of (by decide)
  flat := by simp

/-- C65 does not hold: `package` panics on `a:b/c@1:0`, and `namespace` returns `a:b/c@1`. -/
theorem interface_parts_fails : ¬ interface_parts := by
  intro h
  have := (h false (fun _ => true) "a".toList [] "b".toList "c".toList [] "@1:0".toList
    path_abc (.inr ⟨"1:0".toList, rfl, by decide⟩)).2.1
  exact absurd this (by decide)

example : newName false someVersions "a:b/c@1:0".toList =
      some ⟨"a:b/c@1:0".toList, .interface⟩ ∧
    packageOf "a:b/c@1:0".toList = none ∧
    namespaceOf "a:b/c@1:0".toList = some "a:b/c@1".toList := by decide
example : namespaceOf "a:b:c/d/e@1.0.0".toList = some "a:b".toList ∧
    packageOf "a:b:c/d/e@1.0.0".toList = some "c".toList ∧
    interfaceOf "a:b:c/d/e@1.0.0".toList = some "d".toList ∧
    projectionOf "a:b:c/d/e@1.0.0".toList = some "d/e".toList ∧
    versionOf someVersions "a:b:c/d/e@1.0.0".toList none = some (some "1.0.0".toList) := by decide

end Verif.CompName.Spec
