import Verif.Wave.Model
import Mathlib.Tactic.SplitIfs
import Mathlib.Tactic.Common
/-
The lexer: every token is a non-empty piece of the source, and what it makes of the texts that the
writer produces.
-/
namespace Verif.Wave

open Verif.Std

theorem takeDrop (p : Char → Bool) (s : Text) : s.takeWhile p ++ s.dropWhile p = s :=
  List.takeWhile_append_dropWhile

theorem lexFraction_append (s : Text) : (lexFraction s).1 ++ (lexFraction s).2 = s := by
  unfold lexFraction
  split
  · dsimp only
    split
    · rfl
    · simp [takeDrop]
  · rfl

theorem lexExponent_append (s : Text) : (lexExponent s).1 ++ (lexExponent s).2 = s := by
  unfold lexExponent
  split
  · rename_i e s'
    split
    · split
      rename_i sign r heq
      have : sign ++ r = s' := by
        split at heq <;> cases heq <;> rfl
      dsimp only
      split
      · rfl
      · simp [takeDrop, this]
    · rfl
  · rfl

theorem lexUnsigned_append {s t r : Text} (h : lexUnsigned s = some (t, r)) : t ++ r = s := by
  unfold lexUnsigned at h
  split at h
  · rename_i c s'
    split at h
    · simp only [Option.some.injEq, Prod.mk.injEq] at h
      obtain ⟨rfl, rfl⟩ := h
      rw [List.append_assoc, lexExponent_append, List.append_assoc, lexFraction_append]
      split <;> simp [takeDrop]
    · cases h
  · cases h

theorem lexNumber_append {s t r : Text} (h : lexNumber s = some (t, r)) : t ++ r = s := by
  unfold lexNumber at h
  split at h
  · cases h; rfl
  · simp only [Option.map_eq_some_iff, Prod.mk.injEq, Prod.exists] at h
    obtain ⟨t', r', h, rfl, rfl⟩ := h
    simp [lexUnsigned_append h]
  · exact lexUnsigned_append h

theorem lexFirstWord_append {s t r : Text} (h : lexFirstWord s = some (t, r)) :
    t ++ r = s ∧ t ≠ [] := by
  unfold lexFirstWord at h
  split at h
  · split at h
    · cases h; simp [takeDrop]
    · split at h
      · cases h; simp [takeDrop]
      · cases h
  · cases h

theorem lexWord_append {s t r : Text} (h : lexWord s = some (t, r)) : t ++ r = s := by
  unfold lexWord at h
  dsimp only at h
  split at h
  · cases h; exact takeDrop _ _
  · split at h
    · cases h
    · cases h; exact takeDrop _ _

theorem lexWords_append (n : Nat) (s : Text) : (lexWords n s).1 ++ (lexWords n s).2 = s := by
  induction n generalizing s with
  | zero => rfl
  | succ n ih =>
    unfold lexWords
    split
    · split
      · rfl
      · rename_i w r h
        simp [ih, lexWord_append h]
    · rfl

theorem lexLabel_append {s t r : Text} (h : lexLabel s = some (t, r)) : t ++ r = s ∧ t ≠ [] := by
  unfold lexLabel at h
  dsimp only at h
  split at h
  · cases h
  · rename_i w r' hw
    cases h
    have := lexFirstWord_append hw
    constructor
    · rw [List.append_assoc, lexWords_append, List.append_assoc, this.1]
      unfold lexPct
      split <;> rfl
    · simp [this.2]

theorem lexEscape_append {s t r : Text} (h : lexEscape s = some (t, r)) : t ++ r = s ∧ t ≠ [] := by
  unfold lexEscape at h
  split at h
  · dsimp only at h
    split at h
    · cases h
    · split at h
      · rename_i r1 _ _ r2 h2
        cases h
        have := takeDrop isHex r1
        rw [h2] at this
        simp [this]
      · cases h
  · split at h
    · cases h; simp
    · cases h
  · cases h

theorem lexChar_append {s t r : Text} (h : lexChar s = some (t, r)) : t ++ r = s := by
  unfold lexChar at h
  split at h
  · split at h
    · rename_i e r' he
      cases h
      have := (lexEscape_append he).1
      simp [this]
    · cases h
  · split at h
    · cases h
    · cases h; rfl
  · cases h

theorem lexStringBody_append {n : Nat} {s t r : Text} (h : lexStringBody n s = some (t, r)) :
    t ++ r = s := by
  induction n generalizing s t r with
  | zero => cases h
  | succ n ih =>
    unfold lexStringBody at h
    split at h
    · cases h
    · cases h; rfl
    · cases h
    · split at h
      · cases h
      · rename_i e r' he
        simp only [Option.map_eq_some_iff, Prod.mk.injEq, Prod.exists] at h
        obtain ⟨t', r'', h, rfl, rfl⟩ := h
        rw [List.append_assoc, ih h, (lexEscape_append he).1]
    · simp only [Option.map_eq_some_iff, Prod.mk.injEq, Prod.exists] at h
      obtain ⟨t', r'', h, rfl, rfl⟩ := h
      simp [ih h]

theorem findQuotes_append {s t r : Text} (h : findQuotes s = some (t, r)) :
    t ++ ['"', '"', '"'] ++ r = s := by
  induction s generalizing t r with
  | nil => cases h
  | cons c s ih =>
    unfold findQuotes at h
    split at h
    · rename_i heq
      cases h; rw [heq]; rfl
    · rename_i heq
      cases heq
      simp only [Option.map_eq_some_iff, Prod.mk.injEq, Prod.exists] at h
      obtain ⟨t', r'', h, rfl, rfl⟩ := h
      simpa using ih h
    · cases h

theorem lexString_append {s x r : Text} {t : Token} (h : lexString s = some (t, x, r)) :
    x ++ r = s := by
  unfold lexString at h
  split at h
  · simp only [Option.map_eq_some_iff, Prod.mk.injEq, Prod.exists] at h
    obtain ⟨t', r'', h, rfl, rfl, rfl⟩ := h
    have := findQuotes_append h
    simp [← this]
  · simp only [Option.map_eq_some_iff, Prod.mk.injEq, Prod.exists] at h
    obtain ⟨t', r'', h, rfl, rfl, rfl⟩ := h
    simp [lexStringBody_append h]
  · cases h

/-- A token is the text before the rest. -/
theorem lexToken_append {s x r : Text} {t : Token} (h : lexToken s = some (t, x, r)) :
    x ++ r = s := by
  unfold lexToken at h
  split at h
  any_goals (cases h; rfl)
  · exact lexString_append h
  · simp only [Option.map_eq_some_iff, Prod.mk.injEq, Prod.exists] at h
    obtain ⟨t', r'', h, _, rfl, rfl⟩ := h
    exact lexChar_append h
  · split at h
    · simp only [Option.map_eq_some_iff, Prod.mk.injEq, Prod.exists] at h
      obtain ⟨t', r'', h, _, rfl, rfl⟩ := h
      exact lexNumber_append h
    · simp only [Option.map_eq_some_iff, Prod.mk.injEq, Prod.exists] at h
      obtain ⟨t', r'', h, _, rfl, rfl⟩ := h
      exact (lexLabel_append h).1
  · cases h

theorem lexUnsigned_ne {s t r : Text} (h : lexUnsigned s = some (t, r)) : t ≠ [] := by
  unfold lexUnsigned at h
  split at h
  · split at h
    · simp only [Option.some.injEq, Prod.mk.injEq] at h
      obtain ⟨rfl, rfl⟩ := h
      split <;> simp
    · cases h
  · cases h

theorem lexNumber_ne {s t r : Text} (h : lexNumber s = some (t, r)) : t ≠ [] := by
  unfold lexNumber at h
  split at h
  · cases h; simp
  · simp only [Option.map_eq_some_iff, Prod.mk.injEq, Prod.exists] at h
    obtain ⟨t', r', h, rfl, rfl⟩ := h
    simp
  · exact lexUnsigned_ne h

theorem lexChar_ne {s t r : Text} (h : lexChar s = some (t, r)) : t ≠ [] := by
  unfold lexChar at h
  split at h
  · split at h
    · cases h; simp
    · cases h
  · split at h
    · cases h
    · cases h; simp
  · cases h

theorem lexString_ne {s x r : Text} {t : Token} (h : lexString s = some (t, x, r)) : x ≠ [] := by
  unfold lexString at h
  split at h
  · simp only [Option.map_eq_some_iff, Prod.mk.injEq, Prod.exists] at h
    obtain ⟨t', r'', h, rfl, rfl, rfl⟩ := h
    simp
  · simp only [Option.map_eq_some_iff, Prod.mk.injEq, Prod.exists] at h
    obtain ⟨t', r'', h, rfl, rfl, rfl⟩ := h
    simp
  · cases h

/-- A token is not empty. -/
theorem lexToken_ne {s x r : Text} {t : Token} (h : lexToken s = some (t, x, r)) : x ≠ [] := by
  unfold lexToken at h
  split at h
  any_goals (cases h; simp; done)
  · exact lexString_ne h
  · simp only [Option.map_eq_some_iff, Prod.mk.injEq, Prod.exists] at h
    obtain ⟨t', r'', h, _, rfl, rfl⟩ := h
    exact lexChar_ne h
  · split at h
    · simp only [Option.map_eq_some_iff, Prod.mk.injEq, Prod.exists] at h
      obtain ⟨t', r'', h, _, rfl, rfl⟩ := h
      exact lexNumber_ne h
    · simp only [Option.map_eq_some_iff, Prod.mk.injEq, Prod.exists] at h
      obtain ⟨t', r'', h, _, rfl, rfl⟩ := h
      exact (lexLabel_append h).2
  · cases h

theorem lexToken_lt {s x r : Text} {t : Token} (h : lexToken s = some (t, x, r)) :
    r.length < s.length := by
  have h1 := lexToken_append h
  have h2 := List.length_pos_iff.mpr (lexToken_ne h)
  rw [← h1, List.length_append]
  omega

/-! ### Fuel -/

theorem lexFuel_eq (n m : Nat) (s : Text) (hn : s.length < n) (hm : s.length < m) :
    lexFuel n s = lexFuel m s := by
  induction n generalizing m s with
  | zero => omega
  | succ n ih =>
    obtain ⟨m, rfl⟩ : ∃ k, m = k + 1 := ⟨m - 1, by omega⟩
    unfold lexFuel
    split
    · rfl
    · rename_i r
      have := (List.dropWhile_suffix (l := r) (fun x => x != '\n')).length_le
      simp only [List.length_cons] at hn hm
      exact ih _ _ (by omega) (by omega)
    · rename_i c r _
      simp only [List.length_cons] at hn hm
      split
      · exact ih _ _ (by omega) (by omega)
      · split
        · rfl
        · rename_i t x r' h
          have := lexToken_lt h
          simp only [List.length_cons] at this
          rw [ih m r' (by omega) (by omega)]

theorem lexAll_nil : lexAll [] = [] := rfl

theorem lexAll_space {c : Char} (hc : isSpace c = true) (r : Text) :
    lexAll (c :: r) = lexAll r := by
  have hne : c ≠ '/' := by rintro rfl; exact absurd hc (by decide)
  unfold lexAll
  rw [show (c :: r).length + 1 = (r.length + 1) + 1 from rfl]
  conv_lhs => unfold lexFuel
  split
  · exact absurd ‹_› (by simp)
  · exact absurd ‹c :: r = _› (by simp [hne])
  · rename_i heq; cases heq; rw [if_pos hc]

/-- Lexing one token. -/
theorem lexAll_token {c : Char} {s x r : Text} {t : Token} (hs : isSpace c = false)
    (hc : c ≠ '/') (h : lexToken (c :: s) = some (t, x, r)) :
    lexAll (c :: s) = .tok t x :: lexAll r := by
  have hl := lexToken_lt h
  unfold lexAll
  conv_lhs => unfold lexFuel
  split
  · exact absurd ‹_› (by simp)
  · exact absurd ‹c :: s = _› (by simp [hc])
  · rename_i heq; cases heq
    rw [if_neg (by simp [hs]), h]
    dsimp only
    rw [lexFuel_eq _ (r.length + 1) r (by simpa using hl) (by omega)]

end Verif.Wave
