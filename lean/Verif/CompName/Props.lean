import Verif.CompName.Lemmas

/-!
# C63: kebab-case strings
-/
namespace Verif.CompName.Spec

/-- `KebabStr::new` accepts exactly the labels, and keeps them as they are. -/
theorem kebab_new (s k : List Char) : kebabNew s = some k ↔ k = s ∧ Label s := kebabNew_some

example : kebabNew "a0-000-3d4a-54FF".toList = some "a0-000-3d4a-54FF".toList := by decide
example : kebabNew "a0-000-3d4A".toList = none := by decide

/-- `==` on kebab strings ignores the case of letters and nothing else. -/
theorem kebab_eq (a b : List Char) (ha : Label a) (hb : Label b) :
    kebabEq a b = true ↔ Same a b := kebabEq_iff ha hb

/-- Whatever the hasher, kebab strings that are equal have the same hash; what they write to the
hasher is the same only if they are equal. -/
theorem kebab_hash (a b : List Char) (ha : Label a) (hb : Label b) :
    kebabHash a = kebabHash b ↔ kebabEq a b = true := by
  rw [kebabEq_iff ha hb, kebabHash_eq ha hb]

/-- `cmp` is a total order whose equality is `==`. -/
theorem kebab_cmp (a b c : List Char) (ha : Label a) (hb : Label b) :
    (kebabCmp a b = .eq ↔ kebabEq a b = true) ∧
    kebabCmp b a = (kebabCmp a b).swap ∧
    (kebabCmp a b ≠ .gt → kebabCmp b c ≠ .gt → kebabCmp a c ≠ .gt) := by
  refine ⟨by rw [kebabEq_iff ha hb, kebabCmp_eq], cmpStr_swap, ?_⟩
  unfold kebabCmp
  intro h1 h2
  cases h : cmpStr (a.map Char.toLower) (b.map Char.toLower) with
  | gt => exact absurd h h1
  | eq => rw [cmpStr_eq.mp h]; exact h2
  | lt =>
    cases h' : cmpStr (b.map Char.toLower) (c.map Char.toLower) with
    | gt => exact absurd h' h2
    | eq => rw [← cmpStr_eq.mp h', h]; simp
    | lt => rw [cmpStr_lt_trans h h']; simp

theorem label_of_new {s : List Char} (h : kebabNew s = some s) : Label s := (kebabNew_some.mp h).2

example : Label "foo-BAR-b4z".toList ∧ Label "FOO-bar-B4Z".toList ∧ Label "foo-bar".toList :=
  ⟨label_of_new (by decide), label_of_new (by decide), label_of_new (by decide)⟩
example : kebabEq "foo-BAR-b4z".toList "FOO-bar-B4Z".toList = true := by decide
example : kebabHash "foo-BAR".toList = kebabHash "FOO-bar".toList := by decide
example : kebabCmp "foo-BAR-b4z".toList "FOO-bar-B4Z".toList = .eq ∧
    kebabCmp "foo-bar".toList "FOO-bar-B4Z".toList = .lt := by decide

end Verif.CompName.Spec
