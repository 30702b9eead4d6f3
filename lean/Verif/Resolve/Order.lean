import Verif.Resolve.Spec
import Verif.Resolve.Model
import Verif.Resolve.Refs

/-!
# The order of imports
-/

namespace Verif.Resolve

open Verif.Expand

theorem importsFirst_cons (f : Field) (fs : List Field) : ImportsFirst (f :: fs) ↔ ((endsImports f = true → ∀ ss, .import ss ∉ fs) ∧ ImportsFirst fs) := by
  constructor
  · intro h
    refine ⟨fun he ss hm => ?_, fun l g m ss r e => h (f :: l) g m ss r (by rw [e]; rfl)⟩
    obtain ⟨m, r, rfl⟩ := List.append_of_mem hm
    have := h [] f m ss r rfl
    cases f <;> simp [endsImports] at he
    · exact this.1 _ _ _ rfl
    · exact this.2.1 _ _ _ rfl
    · exact this.2.2.1 _ rfl
    · exact this.2.2.2 _ _ _ rfl
  · rintro ⟨h1, h2⟩ l g m ss r e
    cases l with
    | nil =>
      simp only [List.nil_append, List.cons_append, List.cons.injEq] at e
      obtain ⟨rfl, rfl⟩ := e
      refine ⟨?_, ?_, ?_, ?_⟩ <;> intros <;> rintro rfl <;>
        exact h1 rfl ss (by simp)
    | cons a l =>
      simp only [List.cons_append, List.cons.injEq] at e
      exact h2 l g m ss r (by rw [e.2])

theorem checkImports_iff : ∀ (fs : List Field) (b : Bool) (u : Unit), checkImports b fs = .ok u ↔
    ((b = true → ∀ ss, .import ss ∉ fs) ∧ ImportsFirst fs) := by
  intro fs
  induction fs with
  | nil => intro b u; simp [checkImports, ImportsFirst]
  | cons f fs ih =>
    intro b u
    have cons_iff := importsFirst_cons f fs
    by_cases hf : ∃ ss, f = .import ss
    · obtain ⟨ss, rfl⟩ := hf
      simp only [checkImports]
      cases b with
      | true =>
        simp only [if_true, reduceCtorEq, false_iff]
        rintro ⟨h, -⟩
        exact h trivial ss (by simp)
      | false =>
        simp only [Bool.false_eq_true, if_false, ih, false_imp_iff, true_and, cons_iff]
        simp [endsImports]
    · have hc : checkImports b (f :: fs) = checkImports (b || endsImports f) fs := by
        cases f <;> first | rfl | exact absurd ⟨_, rfl⟩ hf
      rw [hc, ih, cons_iff]
      constructor
      · rintro ⟨h1, h2⟩
        refine ⟨fun hb ss hm => ?_, fun he => h1 (by simp [he]), h2⟩
        rcases List.mem_cons.1 hm with h | h
        · exact hf ⟨ss, h.symm⟩
        · exact h1 (by simp [hb]) ss h
      · rintro ⟨h1, h2, h3⟩
        refine ⟨fun hb ss hm => ?_, h3⟩
        rcases Bool.or_eq_true_iff.1 hb with h | h
        · exact h1 h ss (by simp [hm])
        · exact h2 h ss hm

theorem space_imports (s : Space) (hs : s = .type ∨ s = .elem ∨ s = .data) (fs : List Field) :
    space s ((fs.filter isImport).flatMap decls) = [] := by
  induction fs with
  | nil => rfl
  | cons f fs ih =>
    cases f
    case «import» ss =>
      simp only [List.filter, isImport, List.flatMap_cons, space_append, ih, List.append_nil, decls]
      unfold space
      rw [List.filterMap_eq_nil_iff]
      intro d hd
      obtain ⟨x, -, rfl⟩ := List.mem_map.1 hd
      simp only [Decl.nameIn]
      rcases hs with rfl | rfl | rfl <;> cases x.kind <;> simp [importSpace]
    all_goals simpa [List.filter, isImport] using ih

theorem no_imports (fs : List Field) (h : ∀ ss, .import ss ∉ fs) : fs.filter isImport = [] := by
  rw [List.filter_eq_nil_iff]
  intro f hf
  cases f <;> simp [isImport]
  exact h _ hf

theorem ordered (s : Space) (hs : s ≠ .tag) (fs : List Field) (h : ImportsFirst fs) :
    space s (fs.flatMap decls) = binarySpace s fs := by
  induction fs with
  | nil => rfl
  | cons f fs ih =>
    rw [importsFirst_cons] at h
    have ih := ih h.2
    simp only [List.flatMap_cons, space_append, ih]
    unfold binarySpace
    cases hf : isImport f with
    | true => simp [List.filter, hf, space_append]
    | false =>
      simp only [List.filter, hf, Bool.not_false, List.flatMap_cons, space_append]
      have : space s (decls f) = [] ∨ space s ((fs.filter isImport).flatMap decls) = [] := by
        by_cases ht : s = .type ∨ s = .elem ∨ s = .data
        · exact .inr (space_imports s ht fs)
        · by_cases he : endsImports f = true
          · exact .inr (by rw [no_imports fs (h.1 he)]; rfl)
          · left
            unfold space
            rw [List.filterMap_eq_nil_iff]
            intro d hd
            cases f <;> simp [endsImports, isImport, decls] at he hf hd <;> cases s <;>
              simp_all [Decl.nameIn]
            all_goals (obtain ⟨t, -, rfl⟩ := hd; rfl)
      rcases this with h1 | h1 <;> simp [h1]

/-- Fields of the same kind, as far as the order of imports goes. -/
def SameSort (f g : Field) : Prop := isImport f = isImport g ∧ endsImports f = endsImports g

theorem checkImports_same {fs gs : List Field} (h : List.Forall₂ SameSort fs gs) :
    ∀ b, checkImports b fs = checkImports b gs := by
  induction h with
  | nil => intro b; rfl
  | cons h1 _ ih =>
    intro b
    rename_i f g _ _ _
    obtain ⟨h1, h2⟩ := h1
    cases f <;> cases g <;> simp [isImport, endsImports] at h1 h2 <;> simp [checkImports, ih, endsImports]

theorem checkImports_types (ts : List TypeDef) : ∀ (fs : List Field) (b : Bool),
    checkImports b (fs ++ ts.map .type) = checkImports b fs
  | [], b => by
    induction ts with
    | nil => rfl
    | cons t ts ih => simpa [checkImports, endsImports] using ih
  | f :: fs, b => by
    cases f <;> simp [checkImports, checkImports_types ts fs]

theorem FieldRel.sort {ds : List TypeDef} {f g : Field} (h : FieldRel ds f g) : SameSort f g := by
  cases h <;> exact ⟨rfl, rfl⟩

theorem FieldR.sort {ds : List Decl} {f g : Field} (h : FieldR ds f g) : SameSort f g := by
  cases h <;> exact ⟨rfl, rfl⟩

end Verif.Resolve
