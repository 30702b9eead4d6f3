import Verif.CompName.NameProps
import Verif.CompName.Unique2

/-!
# C66: strongly unique names
-/
namespace Verif.CompName.Spec

/-! ## Equality, hash and order -/

/-- C66. Names that are equal clash. -/
theorem eq_clash (nested : Bool) (semver : List Char → Bool) (a b : List Char) (x y : Name)
    (ha : newName nested semver a = some x) (hb : newName nested semver b = some y)
    (h : x.eq y = true) : Clash nested a b := by
  have e1 := (newName_iff.mp ha).1
  have e2 := (newName_iff.mp hb).1
  rw [← e1, ← e2]
  exact clash_of_eq (view_of ha) (view_of hb) (eq_iff.mp h)

/-- C66. Names that are equal write the same to a hasher. -/
theorem eq_hash (nested : Bool) (semver : List Char → Bool) (a b : List Char) (x y : Name)
    (ha : newName nested semver a = some x) (hb : newName nested semver b = some y)
    (h : x.eq y = true) : x.hash = y.hash :=
  hash_of_eq (view_of ha) (view_of hb) (eq_iff.mp h)

/-- C66. Equality is reflexive and symmetric and is the equality of the order, which is
antisymmetric. -/
theorem eq_cmp (x y : Name) : x.eq x = true ∧ x.eq y = y.eq x ∧
    (x.eq y = true ↔ x.cmp y = .eq) ∧ y.cmp x = (x.cmp y).swap := by
  refine ⟨eq_refl _, ?_, ?_, cmp_swap _ _⟩
  · exact Bool.eq_iff_iff.mpr ⟨eq_symm, eq_symm⟩
  · exact beq_iff_eq

example : ∃ x y, newName false someVersions "[static]a-B.a-b".toList = some x ∧
    newName false someVersions "A-b".toList = some y ∧ x.eq y = true ∧ x.raw ≠ y.raw :=
  ⟨⟨"[static]a-B.a-b".toList, .static⟩, ⟨"A-b".toList, .label⟩, by decide, by decide, by decide, by decide⟩

/-- C66. Names are equal exactly if they clash. -/
def eq_iff_clash : Prop :=
  ∀ (nested : Bool) (semver : List Char → Bool) (a b : List Char) (x y : Name),
    newName nested semver a = some x → newName nested semver b = some y →
    (x.eq y = true ↔ Clash nested a b)

/-- C66. Equality is transitive on accepted names. -/
def eq_transitive : Prop :=
  ∀ (nested : Bool) (semver : List Char → Bool) (a b c : List Char) (x y z : Name),
    newName nested semver a = some x → newName nested semver b = some y →
    newName nested semver c = some z → x.eq y = true → y.eq z = true → x.eq z = true

/-- C66, the part that holds: names of methods, static functions and interfaces without capitals
are equal exactly if they clash. Missing: the names with capitals (`eq_iff_clash_fails`). -/
theorem eq_iff_clash_partial (nested : Bool) (semver : List Char → Bool) (a b : List Char)
    (x y : Name) (ha : newName nested semver a = some x) (hb : newName nested semver b = some y)
    (hx : ¬ Capital x.kind.spec a) (hy : ¬ Capital y.kind.spec b) :
    x.eq y = true ↔ Clash nested a b := by
  constructor
  · exact eq_clash nested semver a b x y ha hb
  · intro h
    have e1 := (newName_iff.mp ha).1
    have e2 := (newName_iff.mp hb).1
    exact eq_iff.mpr (eq_of_clash ha hb h (by rw [e1]; exact hx) (by rw [e2]; exact hy))

/-- C66, the part that holds: on the same names equality is the equality of what is written to a
hasher, hence an equivalence. -/
theorem eq_iff_hash_partial (nested : Bool) (semver : List Char → Bool) (a b : List Char)
    (x y : Name) (ha : newName nested semver a = some x) (hb : newName nested semver b = some y)
    (hx : ¬ Capital x.kind.spec a) (hy : ¬ Capital y.kind.spec b) :
    x.eq y = true ↔ x.hash = y.hash := by
  constructor
  · exact eq_hash nested semver a b x y ha hb
  · intro h
    have e1 := (newName_iff.mp ha).1
    have e2 := (newName_iff.mp hb).1
    exact eq_iff.mpr (eq_of_hash (view_of ha) (view_of hb) (by rw [e1]; exact hx)
      (by rw [e2]; exact hy) h)

/-- C66, the part that holds: on the same names equality is transitive. -/
theorem eq_transitive_partial (nested : Bool) (semver : List Char → Bool) (a b c : List Char)
    (x y z : Name) (ha : newName nested semver a = some x) (hb : newName nested semver b = some y)
    (hc : newName nested semver c = some z) (hx : ¬ Capital x.kind.spec a)
    (hy : ¬ Capital y.kind.spec b) (hz : ¬ Capital z.kind.spec c)
    (h1 : x.eq y = true) (h2 : y.eq z = true) : x.eq z = true := by
  rw [eq_iff_hash_partial nested semver _ _ x z ha hc hx hz]
  rw [eq_iff_hash_partial nested semver _ _ x y ha hb hx hy] at h1
  rw [eq_iff_hash_partial nested semver _ _ y z hb hc hy hz] at h2
  exact h1.trans h2

example : newName false someVersions "[static]a.a".toList = some ⟨"[static]a.a".toList, .static⟩ ∧
    newName false someVersions "A".toList = some ⟨"A".toList, .label⟩ ∧
    newName false someVersions "[method]a.a".toList = some ⟨"[method]a.a".toList, .method⟩ ∧
    (⟨"[static]a.a".toList, .static⟩ : Name).eq ⟨"A".toList, .label⟩ = true ∧
    (⟨"A".toList, .label⟩ : Name).eq ⟨"[method]a.a".toList, .method⟩ = true := by decide
example : ¬ Capital .static "[static]a.a".toList ∧ ¬ Capital .label "A".toList := by
  unfold Capital Upper
  decide

/-- C66 does not hold: `[method]a.b` and `[method]a.B` clash but are not equal. -/
theorem eq_iff_clash_fails : ¬ eq_iff_clash := by
  intro h
  have := (h false (fun _ => true) "[method]a.b".toList "[method]a.B".toList ⟨"[method]a.b".toList, .method⟩
    ⟨"[method]a.B".toList, .method⟩ (by decide) (by decide)).mpr
    (.func (p := "[method]".toList) (q := "[method]".toList) (r := "a".toList) (m := "b".toList)
      (r' := "a".toList) (m' := "B".toList) (by decide) (by decide) (label_of (by decide))
      (label_of (by decide)) (label_of (by decide)) (label_of (by decide))
      (same_refl _)
      (.cons (.inr (.inr ⟨by unfold Upper; decide, by decide⟩)) .nil))
  exact absurd this (by decide)

/-- C66 does not hold: `[method]a.a` equals `a`, which equals `[method]a.A`, which does not equal
the first one. -/
theorem eq_transitive_fails : ¬ eq_transitive := by
  intro h
  have := h false (fun _ => true) "[method]a.a".toList "a".toList "[method]a.A".toList
    ⟨"[method]a.a".toList, .method⟩ ⟨"a".toList, .label⟩ ⟨"[method]a.A".toList, .method⟩ (by decide) (by decide) (by decide) (by decide)
    (by decide)
  exact absurd this (by decide)

/-- C66. The order is transitive on accepted names. -/
def cmp_transitive : Prop :=
  ∀ (nested : Bool) (semver : List Char → Bool) (a b c : List Char) (x y z : Name),
    newName nested semver a = some x → newName nested semver b = some y →
    newName nested semver c = some z → x.cmp y = .lt → y.cmp z = .lt → x.cmp z = .lt

/-- C66 does not hold, not even without capitals: `a` is before `c`, `c` is before
`[method]a.a`, and `a` is equal to `[method]a.a`. -/
theorem cmp_transitive_fails : ¬ cmp_transitive := by
  intro h
  have := h false (fun _ => true) "a".toList "c".toList "[method]a.a".toList
    ⟨"a".toList, .label⟩ ⟨"c".toList, .label⟩ ⟨"[method]a.a".toList, .method⟩ (by decide) (by decide) (by decide) (by decide)
    (by decide)
  exact absurd this (by decide)

/-- C66. `partial_cmp` is `cmp`. -/
def partial_cmp_agrees : Prop :=
  ∀ (nested : Bool) (semver : List Char → Bool) (a b : List Char) (x y : Name),
    newName nested semver a = some x → newName nested semver b = some y →
    x.partialCmp y = some (x.cmp y)

/-- C66 does not hold: `partial_cmp` of the labels `a` and `b` is `Equal`. -/
theorem partial_cmp_agrees_fails : ¬ partial_cmp_agrees := by
  intro h
  have := h false (fun _ => true) "a".toList "b".toList ⟨"a".toList, .label⟩ ⟨"b".toList, .label⟩ (by decide)
    (by decide)
  exact absurd this (by decide)

/-! ## The names of the imports or exports of a component -/

/-- C66. A sequence of names is accepted exactly if each of them may be used (and its type fits)
and no two of them clash. -/
def externs_unique : Prop :=
  ∀ (nested : Bool) (semver : List Char → Bool) (isExport : Bool) (fits : Name → Bool)
    (names : List (List Char)),
    (validateExterns nested semver isExport fits [] names).isSome = true ↔
      (∀ s ∈ names, ∃ n : Name, n.raw = s ∧ Usable nested semver isExport n.kind.spec s ∧
        fits n = true) ∧
      names.Pairwise fun a b => ¬ Clash nested a b

theorem externs_accepted (nested : Bool) (semver : List Char → Bool) (isExport : Bool)
    (fits : Name → Bool) (names : List (List Char)) (out : List Name)
    (h : validateExterns nested semver isExport fits [] names = some out) :
    out.map (·.raw) = names ∧ (out.Pairwise fun a b => a.eq b = false) ∧
      ∀ n ∈ out, newName nested semver n.raw = some n := by
  obtain ⟨h1, h2, h3⟩ := validateExterns_some .nil (by simp) h
  exact ⟨by simpa using h3, h1, h2⟩

/-- C66, the part that holds: the sequences in which methods, static functions and interfaces
have no capitals, and of the others, what is usable and pairwise without clash is accepted.
Missing: sequences with capitals, where names that clash are accepted
(`externs_unique_fails`). -/
theorem externs_unique_partial (nested : Bool) (semver : List Char → Bool) (isExport : Bool)
    (fits : Name → Bool) (names : List (List Char)) :
    ((validateExterns nested semver isExport fits [] names).isSome = true →
      (∀ s ∈ names, ∃ n : Name, n.raw = s ∧ Usable nested semver isExport n.kind.spec s ∧
        fits n = true) ∧
      ((∀ s ∈ names, ∀ k, IsName nested semver k s → ¬ Capital k s) →
        names.Pairwise fun a b => ¬ Clash nested a b)) ∧
    ((∀ s ∈ names, ∃ n : Name, n.raw = s ∧ Usable nested semver isExport n.kind.spec s ∧
        fits n = true) →
      (names.Pairwise fun a b => ¬ Clash nested a b) →
      (validateExterns nested semver isExport fits [] names).isSome = true) := by
  constructor
  · intro h
    obtain ⟨out, h⟩ := Option.isSome_iff_exists.mp h
    constructor
    · intro s hs
      obtain ⟨n, hn, hu, hf⟩ := validateExterns_usable h s hs
      exact ⟨n, (newName_iff.mp hn).1, hu, hf⟩
    · intro hc
      obtain ⟨rfl, h1, h2⟩ := externs_accepted _ _ _ _ _ _ h
      rw [List.pairwise_map]
      refine h1.imp_of_mem ?_
      intro x y hx hy he hcl
      have cap : ∀ z ∈ out, ¬ Capital z.kind.spec z.raw := fun z hz =>
        hc z.raw (List.mem_map_of_mem hz) _ (newName_iff.mp (h2 z hz)).2
      rw [(eq_iff_clash_partial nested semver _ _ x y (h2 x hx) (h2 y hy) (cap x hx)
        (cap y hy)).mpr hcl] at he
      cases he
  · intro hu hp
    have hn : ∀ s ∈ names, ∃ n, newName nested semver s = some n := by
      intro s hs
      obtain ⟨n, rfl, hu', -⟩ := hu s hs
      exact ⟨n, newName_iff.mpr ⟨rfl, hu'.1⟩⟩
    obtain ⟨ks, rfl, hks⟩ := names_of hn
    rw [List.pairwise_map] at hp
    have := validateExterns_of (nested := nested) (semver := semver) (isExport := isExport) (fits := fits) (seen := []) (ks := ks) ?_
      (by simp) ?_
    · rw [this]; rfl
    · intro n hm
      obtain ⟨n', e, hu', hf⟩ := hu n.raw (List.mem_map_of_mem hm)
      have h1 := newName_iff.mpr ⟨e, hu'.1⟩
      rw [hks n hm] at h1
      cases h1
      exact ⟨hks n hm, hu', hf⟩
    · rw [List.nil_append]
      refine hp.imp_of_mem ?_
      intro x y hx hy hcl
      cases he : x.eq y with
      | false => rfl
      | true => exact absurd (eq_clash nested semver _ _ x y (hks x hx) (hks y hy) he) hcl

example : (validateExterns false someVersions false (fun _ => true) []
    ["a".toList, "[constructor]a".toList, "[method]a.b".toList, "[static]a.c".toList,
      "a:b/c@1.0.0".toList, "a:b/c".toList]).isSome = true := by decide
example : validateExterns false someVersions false (fun _ => true) []
    ["a".toList, "[static]a.a".toList] = none ∧
  validateExterns false someVersions false (fun _ => true) []
    ["[method]a.b".toList, "[static]a.b".toList] = none := by decide

/-- C66 does not hold: `[method]a.b` and `[method]a.B` are accepted together. -/
theorem externs_unique_fails : ¬ externs_unique := by
  intro h
  have := ((h false (fun _ => true) false (fun _ => true)
    ["[method]a.b".toList, "[method]a.B".toList]).mp (by decide)).2
  rw [List.pairwise_cons] at this
  exact this.1 _ (by simp)
    (.func (p := "[method]".toList) (q := "[method]".toList) (r := "a".toList) (m := "b".toList)
      (r' := "a".toList) (m' := "B".toList) (by decide) (by decide) (label_of (by decide))
      (label_of (by decide)) (label_of (by decide)) (label_of (by decide))
      (same_refl _)
      (.cons (.inr (.inr ⟨by unfold Upper; decide, by decide⟩)) .nil))

end Verif.CompName.Spec
