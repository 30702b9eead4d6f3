import Verif.CompName.Model
import Verif.CompName.Spec

/-!
# Strings, characters and labels
-/
namespace Verif.CompName

open Spec (Lower Upper Digit Fragment Label LowerLabel SameChar Same joined)

/-! ## Characters -/

theorem char_le (a b : Char) : a ≤ b ↔ a.toNat ≤ b.toNat := by
  show a.val ≤ b.val ↔ _
  rw [UInt32.le_iff_toNat_le]
  exact Iff.rfl

theorem isLo_iff {c : Char} : isLo c = true ↔ Lower c := by
  simp only [isLo, Bool.and_eq_true, decide_eq_true_eq, char_le, Lower]
  exact Iff.rfl

theorem isUp_iff {c : Char} : isUp c = true ↔ Upper c := by
  simp only [isUp, Bool.and_eq_true, decide_eq_true_eq, char_le, Upper]
  exact Iff.rfl

theorem isDig_iff {c : Char} : isDig c = true ↔ Digit c := by
  simp only [isDig, Bool.and_eq_true, decide_eq_true_eq, char_le, Digit]
  exact Iff.rfl

theorem char_ext {a b : Char} (h : a.toNat = b.toNat) : a = b := by
  apply Char.ext
  exact UInt32.toNat_inj.mp h

theorem char_eq_iff {a b : Char} : a = b ↔ a.toNat = b.toNat := ⟨fun h => h ▸ rfl, char_ext⟩

/-! ## Prefixes and searches -/

theorem stripPrefix_some {p s r : Str} : stripPrefix p s = some r ↔ s = p ++ r := by
  induction p generalizing s with
  | nil => simp [stripPrefix, eq_comm]
  | cons c p ih =>
    cases s with
    | nil => simp [stripPrefix]
    | cons d s =>
      by_cases h : c = d
      · simp [stripPrefix, h, ih]
      · simp only [stripPrefix, if_neg h, List.cons_append, List.cons.injEq]
        constructor
        · intro h'; cases h'
        · rintro ⟨rfl, -⟩; exact absurd rfl h

theorem stripPrefix_append (p r : Str) : stripPrefix p (p ++ r) = some r :=
  stripPrefix_some.mpr rfl

theorem stripPrefix_none {p s : Str} : stripPrefix p s = none ↔ ∀ r, s ≠ p ++ r := by
  constructor
  · intro h r hr
    rw [stripPrefix_some.mpr hr] at h
    cases h
  · intro h
    cases hs : stripPrefix p s with
    | none => rfl
    | some r => exact absurd (stripPrefix_some.mp hs) (h r)

theorem findSplit_none {p : Char → Bool} {s : Str} :
    findSplit p s = none ↔ ∀ c ∈ s, p c = false := by
  induction s with
  | nil => simp [findSplit]
  | cons c s ih =>
    unfold findSplit
    by_cases h : p c = true
    · simp [h]
    · rw [if_neg h]
      cases hs : findSplit p s with
      | none =>
        have h' : p c = false := by simpa using h
        simpa [h'] using ih.mp hs
      | some r =>
        rw [hs] at ih
        simp only [reduceCtorEq, false_iff]
        intro hall
        exact absurd (ih.mpr fun x hx => hall x (List.mem_cons_of_mem _ hx)) (by simp)

theorem findSplit_some {p : Char → Bool} {s a b : Str} :
    findSplit p s = some (a, b) ↔
      s = a ++ b ∧ (∀ c ∈ a, p c = false) ∧ ∃ c cs, b = c :: cs ∧ p c = true := by
  induction s generalizing a with
  | nil =>
    simp only [findSplit, reduceCtorEq, false_iff]
    rintro ⟨h, -, c, cs, rfl, -⟩
    simp at h
  | cons c s ih =>
    unfold findSplit
    by_cases h : p c = true
    · rw [if_pos h]
      constructor
      · intro he
        cases he
        exact ⟨rfl, by simp, c, s, rfl, h⟩
      · rintro ⟨he, ha, d, ds, rfl, hd⟩
        cases a with
        | nil => simp at he; simp [he]
        | cons x a =>
          simp only [List.cons_append, List.cons.injEq] at he
          have := ha x (by simp)
          rw [← he.1, h] at this
          cases this
    · rw [if_neg h]
      constructor
      · intro he
        cases hs : findSplit p s with
        | none => rw [hs] at he; cases he
        | some r =>
          obtain ⟨a', b'⟩ := r
          rw [hs] at he
          cases he
          obtain ⟨h1, h2, h3⟩ := ih.mp hs
          refine ⟨by simp [h1], ?_, h3⟩
          intro x hx
          rcases List.mem_cons.mp hx with rfl | hx
          · simpa using h
          · exact h2 x hx
      · rintro ⟨he, ha, d, ds, rfl, hd⟩
        cases a with
        | nil =>
          simp only [List.nil_append, List.cons.injEq] at he
          rw [he.1] at h
          exact absurd hd h
        | cons x a =>
          simp only [List.cons_append, List.cons.injEq] at he
          obtain ⟨rfl, he⟩ := he
          have := ih.mpr ⟨he, fun y hy => ha y (List.mem_cons_of_mem _ hy), d, ds, rfl, hd⟩
          rw [this]

theorem eatUpTo_some {c : Char} {s a b : Str} :
    eatUpTo c s = some (a, b) ↔ s = a ++ b ∧ c ∉ a ∧ ∃ cs, b = c :: cs := by
  unfold eatUpTo
  rw [findSplit_some]
  constructor
  · rintro ⟨h, ha, d, ds, rfl, hd⟩
    refine ⟨h, ?_, ds, ?_⟩
    · intro hc; have := ha c hc; simp at this
    · simp at hd; rw [hd]
  · rintro ⟨h, ha, cs, rfl⟩
    refine ⟨h, ?_, c, cs, rfl, by simp⟩
    intro x hx
    simp only [beq_eq_false_iff_ne, ne_eq]
    rintro rfl
    exact ha hx

theorem eatUpTo_none {c : Char} {s : Str} : eatUpTo c s = none ↔ c ∉ s := by
  unfold eatUpTo
  rw [findSplit_none]
  constructor
  · intro h hc; have := h c hc; simp at this
  · intro h x hx
    simp only [beq_eq_false_iff_ne, ne_eq]
    rintro rfl
    exact h hx

theorem eatUntil_some {c : Char} {s a b : Str} :
    eatUntil c s = some (a, b) ↔ s = a ++ c :: b ∧ c ∉ a := by
  unfold eatUntil
  constructor
  · intro h
    cases he : eatUpTo c s with
    | none => rw [he] at h; cases h
    | some r =>
      obtain ⟨x, y⟩ := r
      rw [he] at h
      obtain ⟨h1, h2, cs, rfl⟩ := eatUpTo_some.mp he
      cases h
      exact ⟨by simpa using h1, h2⟩
  · rintro ⟨rfl, h⟩
    rw [eatUpTo_some.mpr ⟨rfl, h, b, rfl⟩]
    rfl

theorem eatUntil_none {c : Char} {s : Str} : eatUntil c s = none ↔ c ∉ s := by
  unfold eatUntil
  cases he : eatUpTo c s with
  | none => simpa using eatUpTo_none.mp he
  | some r =>
    obtain ⟨x, y⟩ := r
    obtain ⟨h1, h2, cs, rfl⟩ := eatUpTo_some.mp he
    simp [h1]

/-! ## Labels -/

/-- The fragment being read is not empty. -/
def KState.started (st : KState) : Bool := st.lower || st.upper || st.hasDigit

/-- What holds in every state of the loop. -/
def KState.Inv (st : KState) : Prop :=
  ¬ (st.lower = true ∧ st.upper = true) ∧
    (st.isFirst = true → st.hasDigit = true → st.lower = true ∨ st.upper = true)

theorem joined_nil (c : Char) : joined c [] = [] := rfl

theorem joined_cons (c : Char) (x : List Char) (l : List (List Char)) :
    joined c (x :: l) = c :: (x ++ joined c l) := rfl

/-- What may follow in a state of the loop. -/
def Rest (st : KState) (s : Str) : Prop :=
  ∃ f fs, s = f ++ joined '-' fs ∧
    (∀ c ∈ f, Lower c ∨ Upper c ∨ Digit c) ∧
    ¬ ((st.lower = true ∨ ∃ c ∈ f, Lower c) ∧ (st.upper = true ∨ ∃ c ∈ f, Upper c)) ∧
    (f ≠ [] ∨ st.started = true) ∧
    (st.isFirst = true → st.lower = true ∨ st.upper = true ∨
      ∃ c, f.head? = some c ∧ (Lower c ∨ Upper c)) ∧
    ∀ g ∈ fs, Fragment g

theorem not_lu {c : Char} (h : Lower c) : ¬ Upper c := by
  unfold Lower Upper at *; omega
theorem not_ld {c : Char} (h : Lower c) : ¬ Digit c := by
  unfold Lower Digit at *; omega
theorem not_ud {c : Char} (h : Upper c) : ¬ Digit c := by
  unfold Upper Digit at *; omega
theorem not_dash {c : Char} (h : Lower c ∨ Upper c ∨ Digit c) : c ≠ '-' := by
  rintro rfl
  revert h
  unfold Lower Upper Digit
  decide

theorem bool_of {b : Bool} {p : Prop} (h : b = true ↔ p) (hp : ¬ p) : b = false := by
  cases b
  · rfl
  · exact absurd (h.mp rfl) hp

theorem step_lower {st : KState} {c : Char} (h : Lower c) :
    kebabStep st c = if st.lower then some st
      else if st.upper then none else some { st with lower := true } := by
  have h1 := isLo_iff.mpr h
  have h2 := bool_of isUp_iff (not_lu h)
  have h3 := bool_of isDig_iff (not_ld h)
  have h4 : (c == '-') = false := by simpa using not_dash (.inl h)
  obtain ⟨l, u, f, d⟩ := st
  cases l <;> cases u <;> simp [kebabStep, h1, h2, h3, h4]

theorem step_upper {st : KState} {c : Char} (h : Upper c) :
    kebabStep st c = if st.upper then some st
      else if st.lower then none else some { st with upper := true } := by
  have h1 := bool_of isLo_iff (fun h' => not_lu h' h)
  have h2 := isUp_iff.mpr h
  have h3 := bool_of isDig_iff (not_ud h)
  have h4 : (c == '-') = false := by simpa using not_dash (.inr (.inl h))
  obtain ⟨l, u, f, d⟩ := st
  cases l <;> cases u <;> simp [kebabStep, h1, h2, h3, h4]

theorem step_digit {st : KState} {c : Char} (h : Digit c) :
    kebabStep st c = if st.lower || st.upper || !st.isFirst then some { st with hasDigit := true }
      else none := by
  have h1 := bool_of isLo_iff (fun h' => not_ld h' h)
  have h2 := bool_of isUp_iff (fun h' => not_ud h' h)
  have h3 := isDig_iff.mpr h
  have h4 : (c == '-') = false := by simpa using not_dash (.inr (.inr h))
  obtain ⟨l, u, f, d⟩ := st
  cases l <;> cases u <;> cases f <;> simp [kebabStep, h1, h2, h3, h4]

theorem step_dash {st : KState} :
    kebabStep st '-' = if st.started then some ⟨false, false, false, false⟩ else none := by
  obtain ⟨l, u, f, d⟩ := st
  cases l <;> cases u <;> cases f <;> cases d <;> rfl

theorem step_other {st : KState} {c : Char} (h : ¬ (Lower c ∨ Upper c ∨ Digit c)) (hd : c ≠ '-') :
    kebabStep st c = none := by
  have h1 := bool_of isLo_iff (fun h' => h (.inl h'))
  have h2 := bool_of isUp_iff (fun h' => h (.inr (.inl h')))
  have h3 := bool_of isDig_iff (fun h' => h (.inr (.inr h')))
  have h4 : (c == '-') = false := by simpa using hd
  simp [kebabStep, h1, h2, h3, h4]

theorem step_inv {st st' : KState} {c : Char} (hi : st.Inv) (h : kebabStep st c = some st') :
    st'.Inv ∧ (st'.started = true ↔ c ≠ '-') := by
  by_cases hl : Lower c
  · rw [step_lower hl] at h
    have := not_dash (.inl hl)
    obtain ⟨l, u, f, d⟩ := st
    cases l <;> cases u <;> simp at h <;> subst h <;> simp_all [KState.Inv, KState.started]
  by_cases hu : Upper c
  · rw [step_upper hu] at h
    have := not_dash (.inr (.inl hu))
    obtain ⟨l, u, f, d⟩ := st
    cases l <;> cases u <;> simp at h <;> subst h <;> simp_all [KState.Inv, KState.started]
  by_cases hd : Digit c
  · rw [step_digit hd] at h
    have := not_dash (.inr (.inr hd))
    obtain ⟨l, u, f, d⟩ := st
    cases l <;> cases u <;> cases f <;> simp at h <;> subst h <;>
      simp_all [KState.Inv, KState.started]
  by_cases hx : c = '-'
  · subst hx
    rw [step_dash] at h
    split at h
    · cases h; simp [KState.Inv, KState.started]
    · cases h
  · rw [step_other (by simp [hl, hu, hd]) hx] at h
    cases h

/-- A step on a letter or digit keeps what may follow. -/
theorem rest_alnum {st : KState} {c : Char} {cs : Str} (hi : st.Inv)
    (hc : Lower c ∨ Upper c ∨ Digit c) :
    Rest st (c :: cs) ↔ ∃ st', kebabStep st c = some st' ∧ Rest st' cs := by
  have hnd := not_dash hc
  have key : Rest st (c :: cs) ↔ ∃ f fs, cs = f ++ joined '-' fs ∧
      (∀ x ∈ f, Lower x ∨ Upper x ∨ Digit x) ∧
      ¬ ((st.lower = true ∨ Lower c ∨ ∃ x ∈ f, Lower x) ∧
        (st.upper = true ∨ Upper c ∨ ∃ x ∈ f, Upper x)) ∧
      (st.isFirst = true → st.lower = true ∨ st.upper = true ∨ Lower c ∨ Upper c) ∧
      ∀ g ∈ fs, Fragment g := by
    constructor
    · rintro ⟨f, fs, h1, h2, h3, h4, h5, h6⟩
      cases f with
      | nil =>
        cases fs with
        | nil => simp [joined_nil] at h1
        | cons g gs =>
          simp only [joined_cons, List.nil_append, List.cons.injEq] at h1
          exact absurd h1.1 hnd
      | cons x f =>
        simp only [List.cons_append, List.cons.injEq] at h1
        obtain ⟨rfl, h1⟩ := h1
        refine ⟨f, fs, h1, fun y hy => h2 y (List.mem_cons_of_mem _ hy), ?_, ?_, h6⟩
        · simpa using h3
        · simpa using h5
    · rintro ⟨f, fs, h1, h2, h3, h4, h5⟩
      refine ⟨c :: f, fs, by simp [h1], ?_, ?_, by simp, ?_, h5⟩
      · intro y hy
        rcases List.mem_cons.mp hy with rfl | hy
        · exact hc
        · exact h2 y hy
      · simpa using h3
      · simpa using h4
  rw [key]
  rcases hc with h | h | h
  · have n1 := not_lu h
    rw [step_lower h]
    obtain ⟨l, u, fi, d⟩ := st
    cases l <;> cases u <;>
      simp_all [Rest, KState.started, KState.Inv]
  · have n1 : ¬ Lower c := fun h' => not_lu h' h
    rw [step_upper h]
    obtain ⟨l, u, fi, d⟩ := st
    cases l <;> cases u <;>
      simp_all [Rest, KState.started, KState.Inv]
  · have n1 : ¬ Lower c := fun h' => not_ld h' h
    have n2 : ¬ Upper c := fun h' => not_ud h' h
    rw [step_digit h]
    obtain ⟨l, u, fi, d⟩ := st
    cases l <;> cases u <;> cases fi <;>
      simp_all [Rest, KState.started, KState.Inv]

/-- So does a step on a dash. -/
theorem rest_dash {st : KState} {cs : Str} (hi : st.Inv) :
    Rest st ('-' :: cs) ↔ ∃ st', kebabStep st '-' = some st' ∧ Rest st' cs := by
  rw [step_dash]
  constructor
  · rintro ⟨f, fs, h1, h2, h3, h4, h5, h6⟩
    cases f with
    | cons x f =>
      simp only [List.cons_append, List.cons.injEq] at h1
      exact absurd h1.1.symm (not_dash (h2 x (by simp)))
    | nil =>
      have hs : st.started = true := h4.resolve_left (by simp)
      cases fs with
      | nil => simp [joined_nil] at h1
      | cons g gs =>
        simp only [joined_cons, List.nil_append, List.cons.injEq, true_and] at h1
        rw [if_pos hs]
        obtain ⟨g1, g2, g3⟩ := h6 g (by simp)
        refine ⟨_, rfl, g, gs, h1, g2, by simpa using g3, .inl g1, by simp,
          fun x hx => h6 x (List.mem_cons_of_mem _ hx)⟩
  · rintro ⟨st', h, f, fs, h1, h2, h3, h4, h5, h6⟩
    split at h
    · next hs =>
      cases h
      refine ⟨[], f :: fs, by simp [joined_cons, h1], by simp, ?_, .inr hs, ?_, ?_⟩
      · have := hi.1
        simpa using this
      · intro hf
        have := hi.2 hf
        simp only [KState.started, Bool.or_eq_true] at hs
        rcases hs with (hs | hs) | hs
        · exact .inl hs
        · exact .inr (.inl hs)
        · rcases this hs with h | h
          · exact .inl h
          · exact .inr (.inl h)
      · intro g hg
        rcases List.mem_cons.mp hg with rfl | hg
        · refine ⟨h4.resolve_right (by simp [KState.started]), h2, ?_⟩
          simpa using h3
        · exact h6 g hg
    · cases h

theorem rest_other {st : KState} {c : Char} {cs : Str} (hc : ¬ (Lower c ∨ Upper c ∨ Digit c))
    (hd : c ≠ '-') : ¬ Rest st (c :: cs) := by
  rintro ⟨f, fs, h1, h2, -⟩
  cases f with
  | nil =>
    cases fs with
    | nil => simp [joined_nil] at h1
    | cons g gs =>
      simp only [joined_cons, List.nil_append, List.cons.injEq] at h1
      exact hd h1.1
  | cons x f =>
    simp only [List.cons_append, List.cons.injEq] at h1
    exact hc (h1.1 ▸ h2 x (by simp))

theorem rest_nil {st : KState} (hi : st.Inv) : Rest st [] ↔ st.started = true := by
  constructor
  · rintro ⟨f, fs, h1, -, -, h4, -⟩
    have : f = [] := (List.append_eq_nil_iff.mp h1.symm).1
    exact h4.resolve_left (by simp [this])
  · intro hs
    refine ⟨[], [], rfl, by simp, by simpa using hi.1, .inr hs, ?_, by simp⟩
    intro hf
    have := hi.2 hf
    simp only [KState.started, Bool.or_eq_true] at hs
    rcases hs with (hs | hs) | hs
    · exact .inl hs
    · exact .inr (.inl hs)
    · rcases this hs with h | h
      · exact .inl h
      · exact .inr (.inl h)

theorem kebabLoop_iff {st : KState} {s : Str} (hi : st.Inv) :
    (∃ st', kebabLoop st s = some st' ∧ st'.started = true) ↔ Rest st s := by
  induction s generalizing st with
  | nil =>
    rw [rest_nil hi]
    simp [kebabLoop]
  | cons c s ih =>
    have step : (∃ st', kebabLoop st (c :: s) = some st' ∧ st'.started = true) ↔
        ∃ st', kebabStep st c = some st' ∧ Rest st' s := by
      unfold kebabLoop
      cases h : kebabStep st c with
      | none => simp
      | some st' =>
        simp only [Option.some.injEq, exists_eq_left']
        exact ih (step_inv hi h).1
    rw [step]
    by_cases ha : Lower c ∨ Upper c ∨ Digit c
    · exact (rest_alnum hi ha).symm
    · by_cases hd : c = '-'
      · subst hd; exact (rest_dash hi).symm
      · rw [step_other ha hd]
        simp only [reduceCtorEq, false_and, exists_false, false_iff]
        exact rest_other ha hd

theorem kebabLoop_last {st st' : KState} {s : Str} (hi : st.Inv) (hs : s ≠ [])
    (h : kebabLoop st s = some st') : st'.started = true ↔ s.getLast? ≠ some '-' := by
  induction s generalizing st with
  | nil => exact absurd rfl hs
  | cons c s ih =>
    unfold kebabLoop at h
    cases hc : kebabStep st c with
    | none => rw [hc] at h; cases h
    | some st1 =>
      rw [hc] at h
      dsimp only at h
      obtain ⟨hi1, h1⟩ := step_inv hi hc
      cases s with
      | nil =>
        cases h
        simpa using h1
      | cons d s =>
        rw [ih hi1 (by simp) h]
        simp

theorem rest_init {s : Str} : Rest {} s ↔ Label s := by
  constructor
  · rintro ⟨f, fs, h1, h2, h3, h4, h5, h6⟩
    have hf : f ≠ [] := h4.resolve_right (by simp [KState.started])
    refine ⟨f, fs, h1, ?_, ?_⟩
    · simpa using h5
    · intro g hg
      rcases List.mem_cons.mp hg with rfl | hg
      · exact ⟨hf, h2, by simpa using h3⟩
      · exact h6 g hg
  · rintro ⟨f, fs, h1, h2, h3⟩
    obtain ⟨g1, g2, g3⟩ := h3 f (by simp)
    refine ⟨f, fs, h1, g2, by simpa using g3, .inl g1, ?_,
      fun g hg => h3 g (List.mem_cons_of_mem _ hg)⟩
    intro _
    exact .inr (.inr h2)

theorem isKebabCase_iff {s : Str} : isKebabCase s = true ↔ Label s := by
  have hi : KState.Inv {} := ⟨by simp, by simp⟩
  rw [← rest_init, ← kebabLoop_iff hi]
  unfold isKebabCase
  cases h : kebabLoop {} s with
  | none => simp
  | some st =>
    simp only [Option.some.injEq, exists_eq_left']
    cases s with
    | nil =>
      cases h
      simp [KState.started]
    | cons c s =>
      rw [kebabLoop_last hi (by simp) h]
      simp

theorem kebabNew_some {s k : Str} : kebabNew s = some k ↔ k = s ∧ Label s := by
  unfold kebabNew
  split
  · next h => simp [isKebabCase_iff.mp h, eq_comm]
  · next h =>
    have : ¬ Label s := fun hl => h (isKebabCase_iff.mpr hl)
    simp [this]

theorem kebabNew_none {s : Str} : kebabNew s = none ↔ ¬ Label s := by
  unfold kebabNew
  split
  · next h => simp [isKebabCase_iff.mp h]
  · next h =>
    have : ¬ Label s := fun hl => h (isKebabCase_iff.mpr hl)
    simp [this]

theorem kebabNew_label {s : Str} (h : Label s) : kebabNew s = some s :=
  kebabNew_some.mpr ⟨rfl, h⟩

/-- The characters of a label. -/
def KChar (c : Char) : Prop := Lower c ∨ Upper c ∨ Digit c ∨ c = '-'

theorem isKebabChar_iff {c : Char} : isKebabChar c = true ↔ KChar c := by
  simp only [isKebabChar, Bool.or_eq_true, isLo_iff, isUp_iff, isDig_iff, beq_iff_eq, KChar,
    or_assoc]

theorem mem_joined {c x : Char} {l : List (List Char)} (h : x ∈ joined c l) :
    x = c ∨ ∃ f ∈ l, x ∈ f := by
  induction l with
  | nil => simp [joined_nil] at h
  | cons f l ih =>
    simp only [joined_cons, List.mem_cons, List.mem_append] at h
    rcases h with h | h | h
    · exact .inl h
    · exact .inr ⟨f, by simp, h⟩
    · rcases ih h with h | ⟨g, hg, h⟩
      · exact .inl h
      · exact .inr ⟨g, List.mem_cons_of_mem _ hg, h⟩

theorem label_chars {s : Str} (h : Label s) : ∀ c ∈ s, KChar c := by
  obtain ⟨f, fs, rfl, -, hf⟩ := h
  intro c hc
  have of : ∀ g ∈ f :: fs, c ∈ g → KChar c := by
    intro g hg hcg
    rcases (hf g hg).2.1 c hcg with h | h | h
    · exact .inl h
    · exact .inr (.inl h)
    · exact .inr (.inr (.inl h))
  rcases List.mem_append.mp hc with hc | hc
  · exact of f (by simp) hc
  · rcases mem_joined hc with rfl | ⟨g, hg, hc⟩
    · exact .inr (.inr (.inr rfl))
    · exact of g (List.mem_cons_of_mem _ hg) hc

theorem label_ne {s : Str} (h : Label s) : s ≠ [] := by
  obtain ⟨f, fs, rfl, ⟨c, hc, -⟩, -⟩ := h
  cases f with
  | nil => cases hc
  | cons => simp

/-- A character that occurs in no label. -/
theorem not_in_label {s : Str} (h : Label s) (c : Char) (hc : ¬ KChar c) : c ∉ s :=
  fun hm => hc (label_chars h c hm)

instance (c : Char) : Decidable (Lower c) := inferInstanceAs (Decidable (_ ∧ _))
instance (c : Char) : Decidable (Upper c) := inferInstanceAs (Decidable (_ ∧ _))
instance (c : Char) : Decidable (Digit c) := inferInstanceAs (Decidable (_ ∧ _))
instance (c : Char) : Decidable (KChar c) := inferInstanceAs (Decidable (_ ∨ _))

/-! ## Case -/

theorem toLower_toNat (c : Char) :
    c.toLower.toNat = if 65 ≤ c.toNat ∧ c.toNat ≤ 90 then c.toNat + 32 else c.toNat := by
  unfold Char.toLower
  have hA : ∀ d : Char, (d.val ≥ 'A'.val) = (65 ≤ d.toNat) := by
    intro d
    show ('A'.val ≤ d.val) = _
    rw [UInt32.le_iff_toNat_le]; rfl
  have hZ : ∀ d : Char, (d.val ≤ 'Z'.val) = (d.toNat ≤ 90) := by
    intro d
    rw [UInt32.le_iff_toNat_le]; rfl
  split
  · next h =>
    rw [hA, hZ] at h
    rw [if_pos h]
    show (c.val + ('a'.val - 'A'.val)).toNat = _
    rw [UInt32.toNat_add]
    show (c.toNat + 32) % 2 ^ 32 = _
    omega
  · next h =>
    rw [hA, hZ] at h
    rw [if_neg h]

theorem sameChar_iff {a b : Char} : a.toLower = b.toLower ↔ SameChar a b := by
  rw [char_eq_iff, toLower_toNat, toLower_toNat]
  unfold SameChar Upper
  rw [char_eq_iff]
  split <;> split <;> omega

theorem same_iff {a b : Str} : a.map Char.toLower = b.map Char.toLower ↔ Same a b := by
  induction a generalizing b with
  | nil =>
    cases b with
    | nil => simp [Same.nil]
    | cons y b => simp; intro h; cases h
  | cons x a ih =>
    cases b with
    | nil => simp; intro h; cases h
    | cons y b =>
      simp only [List.map_cons, List.cons.injEq, ih, sameChar_iff]
      constructor
      · rintro ⟨h1, h2⟩; exact .cons h1 h2
      · intro h; cases h with | cons h1 h2 => exact ⟨h1, h2⟩

theorem utf8Size_ascii {c : Char} (h : c.toNat ≤ 127) : c.utf8Size = 1 := by
  unfold Char.utf8Size
  have : c.val ≤ UInt32.ofNatLT 0x7F (by decide) := by
    rw [UInt32.le_iff_toNat_le]; exact h
  simp only [this, if_true]

theorem kchar_ascii {c : Char} (h : KChar c) : c.toNat ≤ 127 := by
  rcases h with h | h | h | rfl
  · unfold Lower at h; omega
  · unfold Upper at h; omega
  · unfold Digit at h; omega
  · decide

theorem byteLen_ascii {s : Str} (h : ∀ c ∈ s, c.toNat ≤ 127) : byteLen s = s.length := by
  unfold byteLen
  induction s with
  | nil => rfl
  | cons c s ih =>
    simp only [List.map_cons, List.sum_cons, List.length_cons]
    rw [ih fun x hx => h x (List.mem_cons_of_mem _ hx), utf8Size_ascii (h c (by simp))]
    omega

theorem byteLen_label {s : Str} (h : Label s) : byteLen s = s.length :=
  byteLen_ascii fun c hc => kchar_ascii (label_chars h c hc)

theorem zip_all_iff {a b : Str} (h : a.length = b.length) :
    ((a.zip b).all fun p => p.1.toLower == p.2.toLower) = true ↔
      a.map Char.toLower = b.map Char.toLower := by
  induction a generalizing b with
  | nil =>
    cases b with
    | nil => simp
    | cons => simp at h
  | cons x a ih =>
    cases b with
    | nil => simp at h
    | cons y b =>
      simp only [List.length_cons, Nat.add_right_cancel_iff] at h
      simp only [List.zip_cons_cons, List.all_cons, Bool.and_eq_true, beq_iff_eq, List.map_cons,
        List.cons.injEq, ih h]

theorem kebabEq_iff {a b : Str} (ha : Label a) (hb : Label b) :
    kebabEq a b = true ↔ Same a b := by
  unfold kebabEq
  rw [byteLen_label ha, byteLen_label hb, ← same_iff]
  by_cases h : a.length = b.length
  · simp only [h, bne_self_eq_false, Bool.false_eq_true, if_false]
    exact zip_all_iff h
  · have : (a.length != b.length) = true := by simpa using h
    simp only [this, if_true, Bool.false_eq_true, false_iff]
    intro he
    have := congrArg List.length he
    simp at this
    exact h this

theorem cmpStr_eq {a b : Str} : cmpStr a b = .eq ↔ a = b := by
  induction a generalizing b with
  | nil => cases b <;> simp [cmpStr]
  | cons x a ih =>
    cases b with
    | nil => simp [cmpStr]
    | cons y b =>
      unfold cmpStr
      split
      · next h =>
        simp only [reduceCtorEq, List.cons.injEq, false_iff, not_and]
        rintro rfl; omega
      · split
        · next h =>
          simp only [reduceCtorEq, List.cons.injEq, false_iff, not_and]
          rintro rfl; omega
        · next h1 h2 =>
          rw [ih]
          have : x = y := char_ext (by omega)
          simp [this]

theorem cmpStr_swap {a b : Str} : cmpStr b a = (cmpStr a b).swap := by
  induction a generalizing b with
  | nil => cases b <;> simp [cmpStr]
  | cons x a ih =>
    cases b with
    | nil => simp [cmpStr]
    | cons y b =>
      unfold cmpStr
      by_cases h1 : x.toNat < y.toNat
      · have h2 : ¬ y.toNat < x.toNat := by omega
        simp [h1, h2]
      · by_cases h2 : y.toNat < x.toNat
        · simp [h1, h2]
        · simp [h1, h2, ih]

theorem cmpStr_lt_trans {a b c : Str} (h1 : cmpStr a b = .lt) (h2 : cmpStr b c = .lt) :
    cmpStr a c = .lt := by
  induction a generalizing b c with
  | nil =>
    cases b with
    | nil => simp [cmpStr] at h1
    | cons y b => cases c <;> simp_all [cmpStr]
  | cons x a ih =>
    cases b with
    | nil => simp [cmpStr] at h1
    | cons y b =>
      cases c with
      | nil => simp [cmpStr] at h2
      | cons z c =>
        unfold cmpStr at h1 h2 ⊢
        split at h1
        · split at h2
          · rw [if_pos (by omega)]
          · split at h2
            · cases h2
            · rw [if_pos (by omega)]
        · split at h1
          · cases h1
          · split at h2
            · rw [if_pos (by omega)]
            · split at h2
              · cases h2
              · rw [if_neg (by omega), if_neg (by omega)]
                exact ih h1 h2

theorem kebabCmp_eq {a b : Str} : kebabCmp a b = .eq ↔ Same a b := by
  unfold kebabCmp
  rw [cmpStr_eq, same_iff]

theorem kebabHash_eq {a b : Str} (ha : Label a) (hb : Label b) :
    kebabHash a = kebabHash b ↔ Same a b := by
  unfold kebabHash
  rw [byteLen_label ha, byteLen_label hb, ← same_iff]
  constructor
  · intro h
    simp only [List.cons.injEq] at h
    have := h.2
    have h2 := congrArg (List.map fun w => match w with | Write.char c => c | _ => 'a') this
    simpa [List.map_map, Function.comp_def] using h2
  · intro h
    have hl := congrArg List.length h
    simp at hl
    have h2 := congrArg (List.map Write.char) h
    simp only [List.map_map, Function.comp_def] at h2
    rw [hl, h2]

end Verif.CompName
