import Verif.Semver.Lemmas
import Mathlib.Data.List.Lex
/-! C79: tracks of compatible versions. C80: merging imports. -/
namespace Verif.Semver
open Spec

/-- Two versions are on the same track exactly if they are compatible. -/
theorem track_iff (v w : Version) : track v = track w ↔ Compatible v w := track_compatible

/-- The canonical names of an interface at two versions are the same exactly if these are
compatible. -/
theorem trackString_iff (v w : Version) : trackString v = trackString w ↔ Compatible v w :=
  string_compatible

/-- The track is itself a version of the track. -/
theorem track_mem (v : Version) : Compatible (track v) v := by
  rw [← track_compatible]
  unfold track
  grind

/-- Merging does not panic, whatever the order of versions. -/
theorem merge_no_panic (R : Nat → Iface) (cmp : Version → Version → Ordering)
    (check : Nat → Nat → Bool) {imports : List (Key × Item)} (hn : (imports.map (·.1)).Nodup) :
    merge R cmp check imports ≠ .error .panic := by
  have hw := weak_pass (R := R) (cmp := cmp) (imports.map (·.1)) weak_start
  obtain ⟨repl, h1, -⟩ := replacements_ok (acc := []) hw.known hw.nodup (by simp)
  unfold merge
  simp only [h1]
  split
  · rw [keep_ok (by simpa using hn)]; simp
  · simp

/-- Each import that goes is replaced by the newest compatible version of the same interface among
the imports, the imports stay in order, and those go whose interface is outdated. Missing for
`MergeKeeps`: imports of outdated interfaces by other names go too. -/
theorem merge_keeps_partial {R : Nat → Iface} {cmp : Version → Version → Ordering}
    {check : Nat → Nat → Bool} {imports imports' : List (Key × Item)} {repl : List (Nat × Nat)}
    (hc : Total cmp) (hd : Distinct R imports) (hn : (imports.map (·.1)).Nodup)
    (h : merge R cmp check imports = .ok (repl, imports')) :
    (∀ id l, (id, l) ∈ repl ↔ Replaces R cmp imports l id) ∧ imports'.Sublist imports ∧
    ∀ k item, (k, item) ∈ imports' ↔ (k, item) ∈ imports ∧
      ∀ id, item = .iface id → ¬ Outdated R cmp imports id := by
  have hw := weak_pass (R := R) (cmp := cmp) (imports.map (·.1)) weak_start
  have hi := inv_pass hc (one_of hd) (imports.map (·.1)) [] (by simp) (inv_start (R := R) (cmp := cmp))
  rw [List.nil_append] at hi
  obtain ⟨repl', h1, h2⟩ := replacements_ok (acc := []) hw.known hw.nodup (by simp)
  unfold merge at h
  simp only [h1] at h
  split at h
  · rw [keep_ok (by simpa using hn)] at h
    cases h
    have hr := replaces_iff hc hd h2
    refine ⟨hr, ?_, fun k item => ?_⟩
    · simp
    · have ho : isReplaced repl item = true ↔ ∃ id, item = .iface id ∧ Outdated R cmp imports id := by
        rw [isReplaced_iff]
        constructor
        · rintro ⟨id, l, h3, h4⟩
          obtain ⟨k1, k2, k3, -⟩ := (hr id l).1 h4
          exact ⟨id, h3, k1, l, k2, k3⟩
        · rintro ⟨id, h3, k1, l, k2, k3⟩
          obtain ⟨t, v, w, n1, n2, n3⟩ := newer_iff.1 k3
          have hm := (hi.old id).2 ⟨t, v, l, w, imported_iff.1 k1, imported_iff.1 k2, n1, n2, n3⟩
          obtain ⟨t', v', h5, ⟨w', l'⟩, h6⟩ := hw.known id hm
          exact ⟨id, l', h3, (h2 id l').2 (.inr ⟨hm, t', v', w', h5, h6⟩)⟩
      simp only [List.nil_append, List.mem_filter, Bool.not_eq_true', ← Bool.not_eq_true, ho]
      simp
  · cases h

/-- Merging is refused exactly if an interface cannot be merged with its replacement. -/
theorem merge_refused_iff {R : Nat → Iface} {cmp : Version → Version → Ordering}
    {check : Nat → Nat → Bool} {imports : List (Key × Item)}
    (hc : Total cmp) (hd : Distinct R imports) (hn : (imports.map (·.1)).Nodup) :
    merge R cmp check imports = .error .refused ↔
      ∃ id l, Replaces R cmp imports l id ∧ check id l = false := by
  have hw := weak_pass (R := R) (cmp := cmp) (imports.map (·.1)) weak_start
  obtain ⟨repl, h1, h2⟩ := replacements_ok (acc := []) hw.known hw.nodup (by simp)
  have hr := replaces_iff hc hd h2
  have ha : (∃ id l, Replaces R cmp imports l id ∧ check id l = false) ↔
      ¬ (repl.all fun p => check p.1 p.2) = true := by
    simp only [List.all_eq_true, ← hr]
    grind
  rw [ha]
  unfold merge
  simp only [h1]
  split
  · next h => rw [keep_ok (by simpa using hn)]; simp [h]
  · next h => simp [h]

/-- An order of versions. -/
def exKey (v : Version) : List Nat :=
  [v.major, v.minor, v.patch, v.pre.length] ++ v.pre.map Char.toNat ++ v.build.map Char.toNat

theorem toNat_inj {l m : List Char} (h : l.map Char.toNat = m.map Char.toNat) : l = m :=
  List.map_injective_iff.2 (fun a b hab => Char.toNat_inj.1 hab) h

theorem exKey_inj {v w : Version} (h : exKey v = exKey w) : v = w := by
  obtain ⟨a, b, c, d, e⟩ := v
  obtain ⟨a', b', c', d', e'⟩ := w
  simp only [exKey, List.cons_append, List.nil_append, List.cons.injEq] at h
  obtain ⟨rfl, rfl, rfl, hl, h⟩ := h
  obtain ⟨h1, h2⟩ := List.append_inj h (by simpa using hl)
  rw [toNat_inj h1, toNat_inj h2]

def exCmp (v w : Version) : Ordering :=
  if exKey v = exKey w then .eq else if exKey v < exKey w then .lt else .gt

theorem exCmp_lt {v w : Version} : exCmp v w = .lt ↔ exKey v < exKey w := by
  unfold exCmp
  split
  · next h => simp [h]
  · split <;> simp [*]

theorem exTotal : Total exCmp where
  eq a b := by
    unfold exCmp
    constructor
    · intro h
      split at h
      · next e => exact exKey_inj e
      · split at h <;> cases h
    · rintro rfl; simp
  swap a b := by
    rw [exCmp_lt]
    unfold exCmp
    constructor
    · intro h
      split at h
      · cases h
      · split at h
        · cases h
        · next h1 h2 => exact lt_of_le_of_ne (not_lt.1 h2) (Ne.symm h1)
    · intro h
      rw [if_neg (ne_of_gt h), if_neg (not_lt.2 h.le)]
  trans a b c h1 h2 := exCmp_lt.2 (lt_trans (exCmp_lt.1 h1) (exCmp_lt.1 h2))

/-- `a:b/c` at versions 1.0.0 and 1.1.0. -/
def exR : Nat → Iface
  | 0 => ⟨some ⟨"a", "b", some ⟨1, 0, 0, [], []⟩⟩, some "c"⟩
  | 1 => ⟨some ⟨"a", "b", some ⟨1, 1, 0, [], []⟩⟩, some "c"⟩
  | _ => ⟨none, none⟩

/-- `import a:b/c@1.0.0; import a:b/c@1.1.0; import x: a:b/c@1.0.0;`. -/
def exImports : List (Key × Item) :=
  [(.iface 0, .iface 0), (.iface 1, .iface 1), (.name "x", .iface 0)]

theorem exDistinct : Distinct exR exImports := by
  intro id id' ns p i v h1 h2 h3 h4
  simp only [Imported, exImports, List.mem_cons, Prod.mk.injEq, Key.iface.injEq, List.not_mem_nil,
    or_false, reduceCtorEq, false_and] at h1 h2
  obtain ⟨_, h1⟩ := h1
  obtain ⟨_, h2⟩ := h2
  rcases h1 with ⟨rfl, -⟩ | ⟨rfl, -⟩ <;> rcases h2 with ⟨rfl, -⟩ | ⟨rfl, -⟩
  · rfl
  · simp [Is, exR] at h3 h4
    exact absurd (h3.1.2.2.trans h4.1.2.2.symm) (by decide)
  · simp [Is, exR] at h3 h4
    exact absurd (h3.1.2.2.trans h4.1.2.2.symm) (by decide)
  · rfl

theorem exMerge : merge exR exCmp (fun _ _ => true) exImports =
    .ok ([(0, 1)], [(.iface 1, .iface 1)]) := by decide +kernel

/-- The import `x` is gone. -/
theorem merge_keeps_fails : ¬ MergeKeeps := by
  intro h
  have := (h exR exCmp (fun _ _ => true) exImports _ _ exTotal exDistinct (by decide)
    (by simp only [exImports, List.mem_cons, Prod.mk.injEq, Key.iface.injEq, List.not_mem_nil, or_false,
      reduceCtorEq, false_and]; rintro _ _ (⟨rfl, rfl⟩ | ⟨rfl, rfl⟩) <;> rfl) exMerge (.name "x")).2 ⟨⟨.iface 0, by simp [exImports]⟩, by simp⟩
  simp at this

/-! ### Examples -/

example : Replaces exR exCmp exImports 1 0 :=
  ((merge_keeps_partial exTotal exDistinct (by decide) exMerge).1 0 1).1 (by simp)

example : merge exR exCmp (fun _ _ => false) exImports = .error .refused := by decide +kernel

example : Compatible ⟨1, 2, 3, [], []⟩ ⟨1, 0, 9, [], ['x']⟩ := .major rfl rfl rfl (by decide)
example : ¬ Compatible ⟨0, 0, 1, [], []⟩ ⟨0, 0, 2, [], []⟩ := by rw [← track_iff]; decide
example : trackString ⟨1, 2, 3, ['r', 'c'], ['b']⟩ = "1.2.3-rc".toList := by decide +kernel
example : trackString ⟨0, 2, 3, [], ['b']⟩ = "0.2".toList := by decide +kernel

end Verif.Semver
