import Verif.Linking.Lemmas
/-! Dependencies of libraries are found, and libraries sorted by them. -/
namespace Verif.Linking
open Spec

theorem depends_trans {exporters : κ → Option String} {libs : List (Lib κ)} {i j k : Nat}
    (h : Depends exporters libs i j) (h' : Depends exporters libs j k) :
    Depends exporters libs i k := by
  induction h with
  | direct h => exact .trans h h'
  | trans h _ ih => exact .trans h (ih h')

theorem depends_lt {exporters : κ → Option String} {libs : List (Lib κ)} {i j : Nat}
    (h : Depends exporters libs i j) : i < libs.length ∧ j < libs.length := by
  induction h with
  | direct h =>
    obtain ⟨a, b, h1, h2, -⟩ := h
    exact ⟨(List.getElem?_eq_some_iff.1 h1).1, (List.getElem?_eq_some_iff.1 h2).1⟩
  | trans h _ ih =>
    obtain ⟨a, b, h1, h2, -⟩ := h
    exact ⟨(List.getElem?_eq_some_iff.1 h1).1, ih.2⟩

/-- **`find_dependencies` finds what each library depends on**, directly or by others; it ends after
a number of rounds that depends on the number of libraries only, does not panic, and is refused
exactly if a function that is imported has no exporter. -/
theorem dependencies_ok (exporters : κ → Option String) (libs : List (Lib κ))
    (hc : Complete exporters libs) (fuel : Nat) (hf : libs.length * libs.length < fuel) :
    (findDependencies fuel exporters libs = .error .refused ∧
      ∃ a ∈ libs, ∃ k ∈ a.imports, exporters k = none) ∨
    ((∀ a ∈ libs, ∀ k ∈ a.imports, exporters k ≠ none) ∧
      ∃ D, findDependencies fuel exporters libs = .ok (some D) ∧ Says exporters libs D) := by
  unfold findDependencies
  rcases directNames_ok (exporters := exporters) (libs := libs) (seen := []) hc.unique (by simp) with
    ⟨h1, h2⟩ | ⟨rows, h1, h2, h3⟩
  · rw [h1]
    exact .inl ⟨rfl, h2⟩
  · rw [h1]
    obtain ⟨D, k1, k2, k3⟩ := convert_ok hc (fun _ h => h) h3
    refine .inr ⟨h2, ?_⟩
    simp only [k1]
    have hdir : ∀ i j, j ∈ D.getD i [] ↔ Direct exporters libs i j := fun i j => by
      by_cases hi : i < libs.length
      · have hget : libs[i]? = some libs[i] := List.getElem?_eq_getElem hi
        rw [(k3 i _ hget).2]
        unfold Direct
        constructor
        · rintro ⟨b, j1, j2⟩
          exact ⟨_, b, hget, j1, j2⟩
        · rintro ⟨a, b, j1, j2, j3⟩
          rw [hget] at j1
          cases j1
          exact ⟨b, j2, j3⟩
      · constructor
        · intro k
          rw [List.getD_eq_getElem?_getD, List.getElem?_eq_none (by omega)] at k
          cases k
        · intro k
          exact absurd (depends_lt (.direct k)).1 hi
    have hmiss : missing libs.length (fun i => D.getD i []) < fuel := by
      refine Nat.lt_of_le_of_lt ?_ hf
      have := List.countP_le_length (p := fun p : Nat × Nat => decide (p.2 ∉ D.getD p.1 []))
        (l := pairs libs.length)
      have hl : (pairs libs.length).length = libs.length * libs.length := by
        simp [pairs, List.length_flatMap, List.map_const', List.sum_replicate_nat]
      rw [hl] at this
      exact this
    obtain ⟨D', c1, c2, c3, c4, c5⟩ := closure_ok (n := libs.length)
      (P := Depends exporters libs) (fun _ _ _ => depends_trans) hmiss
      (fun i j h => depends_lt (.direct ((hdir i j).1 h))) (fun i j h => .direct ((hdir i j).1 h))
    refine ⟨D', by rw [c1], fun i j => ⟨c4 i j, fun h => ?_⟩⟩
    induction h with
    | direct h => exact c2 _ _ ((hdir _ _).2 h)
    | trans h _ ih => exact c5 _ _ _ (c2 _ _ ((hdir _ _).2 h)) ih

/-- **`topo_sort` ends, with all libraries once and after what they depend on**, unless this depends
on them in turn. -/
theorem sort_ok (exporters : κ → Option String) (libs : List (Lib κ)) (D : Nat → List Nat)
    (hD : Says exporters libs D) (fuel : Nat)
    (hf : (libs.length + 1) * (libs.length + 1) < fuel) :
    ∃ l, topoSort D fuel libs.length = some l ∧ Sorted exporters libs l := by
  obtain ⟨l, h1, h2, h3⟩ := topoSort_ok (D := D) (n := libs.length)
    (fun i j h => depends_lt ((hD i j).1 h))
    (fun i j k h h' => (hD i k).2 (depends_trans ((hD i j).1 h) ((hD j k).1 h'))) hf
  refine ⟨l, h1, h2.nodup, h3, fun i j hij hji => ?_⟩
  obtain ⟨a, c, rfl⟩ := List.append_of_mem ((h3 i).2 (depends_lt hij).1)
  obtain ⟨a1, a2, rfl⟩ := List.append_of_mem
    (h2.order a i c rfl j ((hD i j).2 hij) fun k => hji ((hD j i).1 k))
  exact ⟨a1, a2, c, rfl⟩

/-- **`find_reachable` finds the libraries that are roots or that roots depend on.** -/
theorem reachable_iff (exporters : κ → Option String) (libs : List (Lib κ)) (D : Nat → List Nat)
    (hD : Says exporters libs D) (i : Nat) :
    i ∈ findReachable libs D ↔ Reachable exporters libs i := by
  have hroot : ∀ r, r ∈ roots libs ↔ ∃ lib, libs[r]? = some lib ∧ lib.root = true := fun r => by
    unfold roots
    rw [List.mem_filter, List.mem_range]
    constructor
    · rintro ⟨h1, h2⟩
      rw [List.getElem?_eq_getElem h1] at h2
      exact ⟨_, List.getElem?_eq_getElem h1, h2⟩
    · rintro ⟨lib, h1, h2⟩
      refine ⟨(List.getElem?_eq_some_iff.1 h1).1, ?_⟩
      rw [h1]
      exact h2
  unfold findReachable
  simp only [List.mem_append, List.mem_flatMap, hroot]
  unfold Reachable
  constructor
  · rintro (⟨lib, h1, h2⟩ | ⟨r, ⟨lib, h1, h2⟩, h3⟩)
    · exact ⟨i, lib, h1, h2, .inl rfl⟩
    · exact ⟨r, lib, h1, h2, .inr ((hD r i).1 h3)⟩
  · rintro ⟨r, lib, h1, h2, rfl | h3⟩
    · exact .inl ⟨lib, h1, h2⟩
    · exact .inr ⟨r, ⟨lib, h1, h2⟩, (hD r i).2 h3⟩

/-- `a` needs `c`; `b` and `c` import from each other, and `c` from `d`; `e` stands alone. -/
def exLibs : List (Lib Nat) := [⟨"a", ["c"], [], true⟩, ⟨"b", [], [2], false⟩,
  ⟨"c", ["b"], [1, 3], false⟩, ⟨"d", [], [], false⟩, ⟨"e", ["d"], [], false⟩]

def exExporters : Nat → Option String
  | 1 => some "b"
  | 2 => some "c"
  | 3 => some "d"
  | _ => none

theorem exComplete : Complete exExporters exLibs where
  unique := by decide
  needed := by decide
  exporters := by
    intro k n h
    unfold exExporters at h
    split at h <;> cases h <;> decide

/-- All that `a`, `b` and `c` depend on, the order, and what is reachable. -/
example : (match findDependencies 26 exExporters exLibs with
    | .ok (some D) => ((List.range 5).map D, topoSort D 37 5, findReachable exLibs D)
    | _ => ([], none, [])) =
    ([[2, 1, 3], [2, 1, 3], [1, 3, 2], [], [3]], some [3, 2, 1, 0, 4], [0, 2, 1, 3]) := by decide

example : ∃ D l, findDependencies 26 exExporters exLibs = .ok (some D) ∧
    topoSort D 37 5 = some l ∧ Sorted exExporters exLibs l := by
  rcases dependencies_ok exExporters exLibs exComplete 26 (by decide) with ⟨-, h⟩ | ⟨-, D, h1, h2⟩
  · exact absurd h (by decide)
  · obtain ⟨l, h3, h4⟩ := sort_ok exExporters exLibs D h2 37 (by decide)
    exact ⟨D, l, h1, h3, h4⟩

end Verif.Linking
