import Verif.Wave.Literals
import Verif.Wave.Spec
/-
Numbers, names and keywords as tokens.
-/
namespace Verif.Wave

open Verif.Std Spec

/-- The text starts with a character that ends numbers and names. -/
def Stop (r : Text) : Prop := ∀ c ∈ r.head?, c ∈ [',', ')', ']', '}', ':', '(']

theorem stop_nil : Stop [] := by simp [Stop]

theorem stop_cons {c : Char} (h : c ∈ [',', ')', ']', '}', ':', '(']) (r : Text) : Stop (c :: r) := by
  intro d hd
  simp at hd
  exact hd ▸ h

theorem stop_pred {r : Text} (h : Stop r) (p : Char → Bool)
    (hp : ∀ c ∈ [',', ')', ']', '}', ':', '('], p c = false) : ∀ c ∈ r.head?, p c = false :=
  fun c hc => hp c (h c hc)

theorem isDigit_iff {c : Char} : isDigit c = true ↔ '0' ≤ c ∧ c ≤ '9' := by
  simp [isDigit]

/-! ### Numbers -/

/-- A decimal number. -/
def IsDecimal (t : Text) : Prop :=
  ∃ sign int frac, t = sign ++ int ++ frac ∧ (sign = [] ∨ sign = ['-']) ∧ IsDigits int ∧
    (int = ['0'] ∨ int.head? ≠ some '0') ∧ (frac = [] ∨ ∃ ds, IsDigits ds ∧ frac = '.' :: ds)

theorem lexFraction_decimal {frac r : Text} (hf : frac = [] ∨ ∃ ds, IsDigits ds ∧ frac = '.' :: ds)
    (hr : Stop r) : lexFraction (frac ++ r) = (frac, r) := by
  rcases hf with rfl | ⟨ds, hds, rfl⟩
  · simp only [List.nil_append]
    unfold lexFraction
    split
    · rename_i s'
      exact absurd (hr '.' (by simp)) (by decide)
    · rfl
  · have := takeWhile_prefix (p := isDigit) (fun c hc => isDigit_iff.mpr (hds.2 c hc))
      (stop_pred hr isDigit (by decide))
    simp only [List.cons_append, lexFraction, this]
    rw [if_neg hds.1]

theorem lexExponent_stop {r : Text} (hr : Stop r) : lexExponent r = ([], r) := by
  unfold lexExponent
  split
  · rename_i e s
    rw [if_neg]
    rintro (rfl | rfl)
    · exact absurd (hr 'e' (by simp)) (by decide)
    · exact absurd (hr 'E' (by simp)) (by decide)
  · rfl

theorem lexUnsigned_decimal {int frac r : Text} (hi : IsDigits int)
    (hz : int = ['0'] ∨ int.head? ≠ some '0')
    (hf : frac = [] ∨ ∃ ds, IsDigits ds ∧ frac = '.' :: ds) (hr : Stop r) :
    lexUnsigned (int ++ frac ++ r) = some (int ++ frac, r) := by
  obtain ⟨hne, hall⟩ := hi
  cases int with
  | nil => exact absurd rfl hne
  | cons d ds =>
    have hd : isDigit d = true := isDigit_iff.mpr (hall d (by simp))
    have hds : ∀ c ∈ ds, isDigit c = true := fun c hc => isDigit_iff.mpr (hall c (by simp [hc]))
    have hfr : ∀ c ∈ (frac ++ r).head?, isDigit c = false := by
      rcases hf with rfl | ⟨x, _, rfl⟩
      · exact stop_pred hr isDigit (by decide)
      · simp; decide
    simp only [List.cons_append, List.append_assoc, lexUnsigned, if_pos hd]
    by_cases h0 : d = '0'
    · have : ds = [] := by
        rcases hz with h | h
        · simpa using (List.cons.inj h).2
        · exact absurd (by simp [h0]) h
      subst this
      rw [if_pos h0]
      simp only [List.nil_append]
      rw [lexFraction_decimal hf hr]
      simp [lexExponent_stop hr]
    · have := takeWhile_prefix hds hfr
      rw [if_neg h0, this.1, this.2]
      simp only []
      rw [lexFraction_decimal hf hr]
      simp [lexExponent_stop hr]

theorem lexNumber_decimal {t r : Text} (ht : IsDecimal t) (hr : Stop r) :
    lexNumber (t ++ r) = some (t, r) := by
  obtain ⟨sign, int, frac, rfl, hs, hi, hz, hf⟩ := ht
  have hu := lexUnsigned_decimal hi hz hf hr
  obtain ⟨hne, hall⟩ := hi
  cases int with
  | nil => exact absurd rfl hne
  | cons d ds =>
    have hd := hall d (by simp)
    have hdi : d ≠ 'i' := by rintro rfl; exact absurd hd (by decide)
    have hdm : d ≠ '-' := by rintro rfl; exact absurd hd (by decide)
    rcases hs with rfl | rfl
    · simp only [List.nil_append, List.cons_append] at hu ⊢
      unfold lexNumber
      split
      · exact absurd ‹d :: _ = _› (by simp [hdm])
      · exact absurd ‹d :: _ = _› (by simp [hdm])
      · exact hu
    · simp only [List.nil_append, List.cons_append, List.append_assoc] at hu ⊢
      unfold lexNumber
      split
      · exact absurd ‹'-' :: d :: _ = _› (by simp [hdi])
      · rename_i heq
        simp only [List.cons.injEq, true_and] at heq
        rw [← heq, hu]
        rfl
      · rename_i h; exact absurd rfl (h _)

/-! ### Names -/

theorem head_name_tail {ws : List Text} {r : Text} (hr : Stop r) {p : Char → Bool}
    (hp : ∀ c ∈ ['-', ',', ')', ']', '}', ':', '('], p c = false) :
    ∀ c ∈ (ws.flatMap (fun x => '-' :: x) ++ r).head?, p c = false := by
  cases ws with
  | nil => exact stop_pred hr p fun c hc => hp c (List.mem_cons_of_mem _ hc)
  | cons w ws => intro c hc; simp at hc; subst hc; exact hp _ (by simp)

theorem takeWhile_le {p : Char → Bool} {w tail : Text} (h : ∀ c ∈ tail.head?, p c = false) :
    (w ++ tail).takeWhile p = w.takeWhile p ∧ (w ++ tail).dropWhile p = w.dropWhile p ++ tail := by
  induction w with
  | nil =>
    cases tail with
    | nil => simp
    | cons c t => simp [h c (by simp)]
  | cons c w ih =>
    by_cases hc : p c = true
    · simp [hc, ih]
    · simp [hc]

theorem isLower_iff {c : Char} : isLower c = true ↔ 'a' ≤ c ∧ c ≤ 'z' := by simp [isLower]
theorem isUpper_iff {c : Char} : isUpper c = true ↔ 'A' ≤ c ∧ c ≤ 'Z' := by simp [isUpper]

theorem lexWord_word {w tail : Text} (hw : IsWord w)
    (hl : ∀ c ∈ tail.head?, (isLower c || isDigit c) = false)
    (hu : ∀ c ∈ tail.head?, (isUpper c || isDigit c) = false) :
    lexWord (w ++ tail) = some (w, tail) := by
  have h1 := takeWhile_le (p := fun c => isLower c || isDigit c) (w := w) hl
  have h2 := takeWhile_le (p := fun c => isUpper c || isDigit c) (w := w) hu
  unfold lexWord
  dsimp only
  rw [h1.1, h1.2, h2.1, h2.2]
  have full : ∀ p : Char → Bool, w.length ≤ (w.takeWhile p).length →
      w.takeWhile p = w ∧ w.dropWhile p = [] := by
    intro p hp
    have h := takeDrop p w
    have : (w.dropWhile p).length = 0 := by
      have := congrArg List.length h
      simp only [List.length_append] at this
      omega
    have h0 := List.length_eq_zero_iff.mp this
    rw [h0, List.append_nil] at h
    exact ⟨h, h0⟩
  have le : ∀ p : Char → Bool, (w.takeWhile p).length ≤ w.length :=
    fun p => (List.takeWhile_prefix p).length_le
  rcases hw.2 with h | h
  · have ht : w.takeWhile (fun c => isLower c || isDigit c) = w := by
      have := takeWhile_prefix (p := fun c => isLower c || isDigit c) (a := w) (b := [])
        (by
          intro c hc
          rcases h c hc with h | h
          · simp [isLower_iff.mpr h]
          · simp [isDigit_iff.mpr h]) (by simp)
      simpa using this.1
    have hf := full _ (Nat.le_of_eq (by rw [ht]))
    rw [ht, hf.2, if_neg (by have := le (fun c => isUpper c || isDigit c); omega), if_neg hw.1]
    simp
  · have ht : w.takeWhile (fun c => isUpper c || isDigit c) = w := by
      have := takeWhile_prefix (p := fun c => isUpper c || isDigit c) (a := w) (b := [])
        (by
          intro c hc
          rcases h c hc with h | h
          · simp [isUpper_iff.mpr h]
          · simp [isDigit_iff.mpr h]) (by simp)
      simpa using this.1
    have hf := full _ (Nat.le_of_eq (by rw [ht]))
    rw [ht, hf.2]
    split
    · simp
    · rename_i hlt
      have := full (fun c => isLower c || isDigit c) (by omega)
      rw [this.1, this.2, if_neg hw.1]
      simp

theorem lexFirstWord_word {w tail : Text} (hw : IsWord w)
    (h0 : ∀ c ∈ w.head?, ¬ ('0' ≤ c ∧ c ≤ '9'))
    (hl : ∀ c ∈ tail.head?, (isLower c || isDigit c) = false)
    (hu : ∀ c ∈ tail.head?, (isUpper c || isDigit c) = false) :
    lexFirstWord (w ++ tail) = some (w, tail) := by
  obtain ⟨hne, hw⟩ := hw
  cases w with
  | nil => exact absurd rfl hne
  | cons c w =>
    have hd := h0 c (by simp)
    simp only [List.cons_append, lexFirstWord]
    rcases hw with h | h
    · have hc : isLower c = true := isLower_iff.mpr ((h c (by simp)).resolve_right hd)
      have := takeWhile_prefix (p := fun c => isLower c || isDigit c) (a := w) (b := tail)
        (by
          intro c hc
          rcases h c (by simp [hc]) with h | h
          · simp [isLower_iff.mpr h]
          · simp [isDigit_iff.mpr h]) hl
      rw [if_pos hc, this.1, this.2]
    · have hc : isUpper c = true := isUpper_iff.mpr ((h c (by simp)).resolve_right hd)
      have hnl : ¬ isLower c = true := by
        rw [isLower_iff]
        rw [isUpper_iff] at hc
        intro hx
        have := Nat.le_trans hx.1 hc.2
        exact absurd this (by decide)
      have := takeWhile_prefix (p := fun c => isUpper c || isDigit c) (a := w) (b := tail)
        (by
          intro c hc
          rcases h c (by simp [hc]) with h | h
          · simp [isUpper_iff.mpr h]
          · simp [isDigit_iff.mpr h]) hu
      rw [if_neg hnl, if_pos hc, this.1, this.2]

theorem lexWords_words {ws : List Text} {r : Text} (hws : ∀ w ∈ ws, IsWord w) (hr : Stop r)
    (n : Nat) (hn : ws.length ≤ n) :
    lexWords n (ws.flatMap (fun x => '-' :: x) ++ r) = (ws.flatMap (fun x => '-' :: x), r) := by
  induction ws generalizing n with
  | nil =>
    cases n with
    | zero => rfl
    | succ n =>
      simp only [List.flatMap_nil, List.nil_append]
      unfold lexWords
      split
      · exact absurd (hr '-' (by simp)) (by decide)
      · rfl
  | cons w ws ih =>
    obtain ⟨n, rfl⟩ : ∃ k, n = k + 1 := ⟨n - 1, by simp at hn; omega⟩
    have hw := lexWord_word (hws w (by simp))
      (head_name_tail (ws := ws) (p := fun c => isLower c || isDigit c) hr (by decide))
      (head_name_tail (ws := ws) (p := fun c => isUpper c || isDigit c) hr (by decide))
    simp only [List.flatMap_cons, List.cons_append, List.append_assoc, lexWords, hw]
    rw [ih (fun w hw => hws w (by simp [hw])) n (by simpa using hn)]

theorem flatMap_length_le (ws : List Text) : ws.length ≤ (ws.flatMap (fun x => '-' :: x)).length := by
  induction ws with
  | nil => simp
  | cons w ws ih => simp only [List.flatMap_cons, List.length_append, List.length_cons]; omega

theorem name_head {t : Text} (ht : IsName t) :
    ∃ c s, t = c :: s ∧ (('a' ≤ c ∧ c ≤ 'z') ∨ ('A' ≤ c ∧ c ≤ 'Z')) := by
  obtain ⟨w, ws, ⟨hne, hw⟩, h0, hws, rfl⟩ := ht
  cases w with
  | nil => exact absurd rfl hne
  | cons c w =>
    refine ⟨c, _, rfl, ?_⟩
    have hd := h0 c (by simp)
    rcases hw with h | h
    · exact .inl ((h c (by simp)).resolve_right hd)
    · exact .inr ((h c (by simp)).resolve_right hd)

theorem lexLabel_name {t r : Text} (ht : IsName t) (hr : Stop r) :
    lexLabel (t ++ r) = some (t, r) ∧ lexLabel ('%' :: t ++ r) = some ('%' :: t, r) := by
  obtain ⟨c, s, hcs, hc⟩ := name_head ht
  have hp : c ≠ '%' := by rintro rfl; revert hc; decide
  obtain ⟨w, ws, hw, h0, hws, rfl⟩ := ht
  have h1 := lexFirstWord_word hw h0
      (head_name_tail (ws := ws) (p := fun c => isLower c || isDigit c) hr (by decide))
      (head_name_tail (ws := ws) (p := fun c => isUpper c || isDigit c) hr (by decide))
  have h2 := lexWords_words hws hr (ws.flatMap (fun x => '-' :: x) ++ r).length (by
    have := flatMap_length_le ws
    simp only [List.length_append]
    omega)
  constructor
  · unfold lexLabel
    rw [List.append_assoc]
    have : lexPct (w ++ (List.flatMap (fun x => '-' :: x) ws ++ r))
        = ([], w ++ (List.flatMap (fun x => '-' :: x) ws ++ r)) := by
      unfold lexPct
      split
      · rename_i heq
        rw [← List.append_assoc, hcs] at heq
        simp [hp] at heq
      · rfl
    rw [this]
    dsimp only
    rw [h1]
    dsimp only
    rw [h2]
    simp
  · unfold lexLabel
    simp only [List.cons_append, List.append_assoc, lexPct]
    rw [h1]
    dsimp only
    rw [h2]
    simp

/-! ### Tokens -/

theorem lexToken_other {c : Char} {r : Text}
    (hc : c ∉ ['{', '}', '(', ')', '[', ']', ':', ',', '"', '\'']) :
    lexToken (c :: r) =
      if c = '-' ∨ isDigit c then (lexNumber (c :: r)).map fun (t, r) => (.number, t, r)
      else (lexLabel (c :: r)).map fun (t, r) => (.labelOrKeyword, t, r) := by
  simp only [List.mem_cons, List.not_mem_nil, or_false, not_or] at hc
  obtain ⟨h1, h2, h3, h4, h5, h6, h7, h8, h9, h10⟩ := hc
  unfold lexToken
  split
  any_goals (
    rename_i heq
    have heq := (List.cons.inj heq).1
    contradiction)
  · rename_i heq; cases heq; rfl
  · rename_i heq; cases heq

theorem letter_facts {c : Char} (h : ('a' ≤ c ∧ c ≤ 'z') ∨ ('A' ≤ c ∧ c ≤ 'Z')) :
    c ∉ ['{', '}', '(', ')', '[', ']', ':', ',', '"', '\''] ∧ c ≠ '-' ∧ isDigit c = false ∧
      isSpace c = false ∧ c ≠ '/' := by
  have key : ∀ d : Char, ¬ (('a' ≤ d ∧ d ≤ 'z') ∨ ('A' ≤ d ∧ d ≤ 'Z')) → c ≠ d := by
    rintro d hd rfl; exact hd h
  refine ⟨?_, key _ (by decide), ?_, ?_, key _ (by decide)⟩
  · simp only [List.mem_cons, List.not_mem_nil, or_false, not_or]
    exact ⟨key _ (by decide), key _ (by decide), key _ (by decide), key _ (by decide),
      key _ (by decide), key _ (by decide), key _ (by decide), key _ (by decide),
      key _ (by decide), key _ (by decide)⟩
  · simp only [isDigit, Bool.and_eq_false_iff, decide_eq_false_iff_not]
    right
    intro h9
    rcases h with h | h
    · exact absurd (Nat.le_trans h.1 h9) (by decide)
    · exact absurd (Nat.le_trans h.1 h9) (by decide)
  · simp [isSpace, key ' ' (by decide), key '\t' (by decide), key '\n' (by decide),
      key '\r' (by decide)]

theorem lexAll_name {t r : Text} (ht : IsName t) (hr : Stop r) :
    lexAll (t ++ r) = .tok .labelOrKeyword t :: lexAll r := by
  have hl := (lexLabel_name ht hr).1
  obtain ⟨c, s, rfl, hc⟩ := name_head ht
  obtain ⟨h1, h2, h3, h4, h5⟩ := letter_facts hc
  simp only [List.cons_append, List.nil_append, List.append_assoc]
  refine lexAll_token h4 h5 ?_
  have := lexToken_other (r := s ++ r) h1
  simp only [List.cons_append] at hl this
  rw [this, if_neg (by simp [h2, h3]), hl]
  rfl

theorem lexAll_pctName {t r : Text} (ht : IsName t) (hr : Stop r) :
    lexAll ('%' :: t ++ r) = .tok .labelOrKeyword ('%' :: t) :: lexAll r := by
  have hl := (lexLabel_name ht hr).2
  simp only [List.cons_append, List.nil_append, List.append_assoc]
  refine lexAll_token (by decide) (by decide) ?_
  have := lexToken_other (c := '%') (r := t ++ r) (by decide)
  simp only [List.cons_append] at hl this
  rw [this, if_neg (by decide), hl]
  rfl

theorem lexAll_decimal {t r : Text} (ht : IsDecimal t) (hr : Stop r) :
    lexAll (t ++ r) = .tok .number t :: lexAll r := by
  have hl := lexNumber_decimal ht hr
  obtain ⟨sign, int, frac, rfl, hs, ⟨hne, hall⟩, hz, hf⟩ := ht
  cases int with
  | nil => exact absurd rfl hne
  | cons d ds =>
    have hd := hall d (by simp)
    have key : ∀ c : Char, ¬ ('0' ≤ c ∧ c ≤ '9') → d ≠ c := by
      rintro c hc rfl; exact hc hd
    rcases hs with rfl | rfl
    · simp only [List.cons_append, List.nil_append, List.append_assoc]
      refine lexAll_token ?_ (key _ (by decide)) ?_
      · simp [isSpace, key ' ' (by decide), key '\t' (by decide), key '\n' (by decide),
          key '\r' (by decide)]
      · have := lexToken_other (c := d) (r := ds ++ frac ++ r) (by
          simp only [List.mem_cons, List.not_mem_nil, or_false, not_or]
          exact ⟨key _ (by decide), key _ (by decide), key _ (by decide), key _ (by decide),
            key _ (by decide), key _ (by decide), key _ (by decide), key _ (by decide),
            key _ (by decide), key _ (by decide)⟩)
        simp only [List.cons_append, List.nil_append, List.append_assoc] at hl this
        rw [this, if_pos (.inr (isDigit_iff.mpr hd)), hl]
        rfl
    · simp only [List.cons_append, List.nil_append, List.append_assoc]
      refine lexAll_token (by decide) (by decide) ?_
      have := lexToken_other (c := '-') (r := d :: ds ++ frac ++ r) (by decide)
      simp only [List.cons_append, List.nil_append, List.append_assoc] at hl this
      rw [this, if_pos (by simp), hl]
      rfl

theorem lexAll_minusInf {r : Text} :
    lexAll ("-inf".toList ++ r) = .tok .number "-inf".toList :: lexAll r :=
  lexAll_token (by decide) (by decide) (by
    show lexToken ('-' :: 'i' :: 'n' :: 'f' :: r) = _
    rw [lexToken_other (by decide), if_pos (.inl rfl)]
    rfl)

theorem isName_word {w : Text} (h : IsWord w) (h0 : ∀ c ∈ w.head?, ¬ ('0' ≤ c ∧ c ≤ '9')) :
    IsName w := ⟨w, [], h, h0, by simp, by simp⟩

/-- The keywords are names. -/
theorem isName_keyword {t : Text} (h : (Keyword.decode t).isSome) : IsName t := by
  unfold Keyword.decode at h
  split_ifs at h with h1 h2 h3 h4 h5 h6 h7 h8
  · exact h1 ▸ isName_word ⟨by decide, .inl (by decide)⟩ (by decide)
  · exact h2 ▸ isName_word ⟨by decide, .inl (by decide)⟩ (by decide)
  · exact h3 ▸ isName_word ⟨by decide, .inl (by decide)⟩ (by decide)
  · exact h4 ▸ isName_word ⟨by decide, .inl (by decide)⟩ (by decide)
  · exact h5 ▸ isName_word ⟨by decide, .inl (by decide)⟩ (by decide)
  · exact h6 ▸ isName_word ⟨by decide, .inl (by decide)⟩ (by decide)
  · exact h7 ▸ isName_word ⟨by decide, .inl (by decide)⟩ (by decide)
  · exact h8 ▸ isName_word ⟨by decide, .inl (by decide)⟩ (by decide)
  · cases h

theorem lexAll_char {E : Env F D} (c : Char) (r : Text) :
    lexAll ('\'' :: writeChar E c ++ '\'' :: r)
      = .tok .char ('\'' :: writeChar E c ++ ['\'']) :: lexAll r := by
  have h := lexChar_write E c r
  simp only [List.cons_append] at h ⊢
  refine lexAll_token (by decide) (by decide) ?_
  simp only [lexToken, h]
  rfl

theorem lexAll_string {E : Env F D} (s r : Text) (hr : s = [] → r.head? ≠ some '"') :
    lexAll ('"' :: s.flatMap (writeChar E) ++ '"' :: r)
      = .tok .string ('"' :: s.flatMap (writeChar E) ++ ['"']) :: lexAll r := by
  have h := lexString_write E s r hr
  simp only [List.cons_append] at h ⊢
  refine lexAll_token (by decide) (by decide) ?_
  simp only [lexToken, h]

theorem stop_not_quote {r : Text} (hr : Stop r) : r.head? ≠ some '"' := by
  intro h
  exact absurd (hr '"' (by simp [h])) (by decide)

theorem lexAll_punct (r : Text) :
    lexAll ('{' :: r) = .tok .braceOpen ['{'] :: lexAll r ∧
    lexAll ('}' :: r) = .tok .braceClose ['}'] :: lexAll r ∧
    lexAll ('(' :: r) = .tok .parenOpen ['('] :: lexAll r ∧
    lexAll (')' :: r) = .tok .parenClose [')'] :: lexAll r ∧
    lexAll ('[' :: r) = .tok .bracketOpen ['['] :: lexAll r ∧
    lexAll (']' :: r) = .tok .bracketClose [']'] :: lexAll r ∧
    lexAll (':' :: r) = .tok .colon [':'] :: lexAll r ∧
    lexAll (',' :: r) = .tok .comma [','] :: lexAll r := by
  refine ⟨?_, ?_, ?_, ?_, ?_, ?_, ?_, ?_⟩ <;> exact lexAll_token (by decide) (by decide) rfl

theorem lexAll_blank (r : Text) : lexAll (' ' :: r) = lexAll r := lexAll_space (by decide) r

/-! ### Integers -/

theorem isDecimal_digits (n : Nat) (sign : Text) (hs : sign = [] ∨ sign = ['-']) :
    IsDecimal (sign ++ Nat.toDigits 10 n) := by
  refine ⟨sign, Nat.toDigits 10 n, [], by simp, hs, ⟨Nat.toDigits_ne_nil, ?_⟩, ?_, .inl rfl⟩
  · intro c hc
    obtain ⟨d, hd, rfl⟩ := mem_toDigits (by omega) n hc
    exact isDigit_iff.mp (isDigit_digitChar hd)
  · rcases Nat.eq_zero_or_pos n with rfl | hn
    · left; rfl
    · right
      obtain ⟨d, l, h0, h10, h⟩ := head_toDigits (b := 10) (by omega) n hn
      rw [h]
      have : ∀ d : Fin 10, 0 < d.val → d.val.digitChar ≠ '0' := by decide
      simpa using this ⟨d, h10⟩ h0

theorem isDecimal_showInt (i : Int) : IsDecimal (showInt i) := by
  unfold showInt
  split
  · exact isDecimal_digits _ ['-'] (.inr rfl)
  · exact isDecimal_digits _ [] (.inl rfl)

theorem readInt_showInt (signed : Bool) (bits : Nat) (i : Int)
    (hlo : (if signed then -((2 ^ (bits - 1) : Nat) : Int) else 0) ≤ i)
    (hhi : i < (if signed then ((2 ^ (bits - 1) : Nat) : Int) else ((2 ^ bits : Nat) : Int))) :
    readInt signed bits (showInt i) = some i := by
  have hne : Nat.toDigits 10 i.natAbs ≠ [] := Nat.toDigits_ne_nil
  have hr := readDigits_toDigits (b := 10) (by omega) (by omega) i.natAbs
  by_cases hi : i < 0
  · have hs : signed = true := by
      cases signed with
      | true => rfl
      | false => simp at hlo; omega
    subst hs
    simp only [showInt, if_pos hi, readInt, readSign]
    rw [if_neg (by simp [hne]), hr]
    dsimp only
    have : -(i.natAbs : Int) = i := by omega
    simp only [if_true] at hlo hhi ⊢
    rw [this, if_pos ⟨hlo, hhi⟩]
  · have hhead : ∀ (c : Char), ¬ ('0' ≤ c ∧ c ≤ '9') → ∀ r, Nat.toDigits 10 i.natAbs ≠ c :: r := by
      intro c hc r h
      obtain ⟨d, hd, rfl⟩ := mem_toDigits (b := 10) (by omega) i.natAbs (c := c) (by simp [h])
      exact hc (isDigit_iff.mp (isDigit_digitChar hd))
    simp only [showInt, if_neg hi, readInt]
    have hm : readSign (Nat.toDigits 10 i.natAbs) = (false, Nat.toDigits 10 i.natAbs) := by
      unfold readSign
      split
      · exact absurd ‹_› (hhead '-' (by decide) _)
      · exact absurd ‹_› (hhead '+' (by decide) _)
      · rfl
    rw [hm]
    dsimp only
    rw [if_neg (by simp [hne]), hr]
    dsimp only
    have : (if false = true then -(i.natAbs : Int) else (i.natAbs : Int)) = i := by
      simp; omega
    rw [this, if_pos ⟨hlo, hhi⟩]

end Verif.Wave
