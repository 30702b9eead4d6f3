import Verif.Float.Hex
/-
The parts of the text of a number token.
-/
namespace Verif.Float

open Verif.Std Verif.Wat Verif.Wat.Spec Spec

theorem findChar_none {c : Char} {a : Text} (h : c ∉ a) : findChar c a = none := by
  induction a with
  | nil => rfl
  | cons d a ih =>
    have h1 : d ≠ c := fun e => h (e ▸ List.mem_cons_self)
    rw [findChar, if_neg h1, ih (fun hh => h (List.mem_cons_of_mem _ hh))]; rfl

theorem findChar_some {c : Char} {a : Text} (h : c ∉ a) (b : Text) : findChar c (a ++ c :: b) = some (a, b) := by
  induction a with
  | nil => rw [List.nil_append, findChar, if_pos rfl]
  | cons d a ih =>
    have h1 : d ≠ c := fun e => h (e ▸ List.mem_cons_self)
    rw [List.cons_append, findChar, if_neg h1, ih (fun hh => h (List.mem_cons_of_mem _ hh))]; rfl

/-- Characters other than digits and underscores do not occur in digits. -/
theorem digits_mem {base : Nat} {strict : Bool} {t : Text} {n : Nat} (h : Digits base strict t n) {c : Char}
    (hc : c ∈ t) : c = '_' ∨ (toDigit base c).isSome = true := by
  induction h with
  | one hd => rw [List.mem_singleton.mp hc, hd]; exact .inr rfl
  | more h hu _ hd ih =>
    rcases List.mem_append.mp hc with hc | hc
    · rcases List.mem_append.mp hc with hc | hc
      · exact ih hc
      · exact .inl (hu c hc)
    · rw [List.mem_singleton.mp hc, hd]; exact .inr rfl

theorem digits_not_mem {base : Nat} {strict : Bool} {t : Text} {n : Nat} (h : Digits base strict t n) {c : Char}
    (h1 : c ≠ '_') (h2 : toDigit base c = none) : c ∉ t := by
  intro hc
  rcases digits_mem h hc with h3 | h3
  · exact h1 h3
  · rw [h2] at h3; cases h3

theorem hexText_digits {strict : Bool} {t : Text} {n : Nat} (h : Digits 16 strict t n) : HexText (dropUnderscores t) := by
  intro c hc
  obtain ⟨hm, hu⟩ := List.mem_filter.mp hc
  rcases digits_mem h hm with rfl | h3
  · simp at hu
  · rw [toDigit_hex] at h3
    split at h3
    · assumption
    · cases h3

theorem digitsOf_map {strict : Bool} {t : Text} {n : Nat} (h : Digits 16 strict t n) :
    (dropUnderscores t).map toHex = digitsOf 16 t := by
  unfold digitsOf
  have hall : ∀ c ∈ t, c = '_' ∨ (toDigit 16 c).isSome = true := fun c hc => digits_mem h hc
  clear h
  induction t with
  | nil => rfl
  | cons c t ih =>
    have ih := ih (fun c hc => hall c (List.mem_cons_of_mem _ hc))
    rw [List.filterMap_cons]
    rcases hall c List.mem_cons_self with rfl | h
    · have : toDigit 16 '_' = none := by decide
      rw [this]
      exact ih
    · have hne : c ≠ '_' := by rintro rfl; revert h; decide
      rw [toDigit_hex] at h ⊢
      split at h
      · next hh =>
        rw [if_pos hh]
        simp only
        rw [← ih, dropUnderscores, List.filter_cons, if_pos (by simpa using hne)]
        rfl
      · cases h

/-- Removing the underscores of a part, if there are any in the whole. -/
theorem fix_eq {us : Bool} {w : Text} (h : us = false → hasUnderscore w = false) :
    (if us = true then dropUnderscores w else w) = dropUnderscores w := by
  cases us with
  | true => rfl
  | false => exact (noUnderscores (h rfl)).symm

theorem stripPlus_sgn {sg : Option Sign} {s : Text} (hs : Sgn sg s) {w : Text} (hw : ∀ c ∈ w.head?, c ≠ '+' ∧ c ≠ '-') :
    stripPlus (s ++ w) = minusOf sg ++ w := by
  cases hs with
  | none =>
    show stripPlus w = w
    cases w with
    | nil => rfl
    | cons c w =>
      have := (hw c rfl).1
      unfold stripPlus
      split
      · next h => cases h; exact absurd rfl this
      · rfl
  | plus => rfl
  | minus => rfl

theorem dropHexPrefix_sgn (sg : Option Sign) {t : Text} (hx : 'x' ∉ t) :
    dropHexPrefix (minusOf sg ++ (['0', 'x'] ++ t)) = minusOf sg ++ t := by
  have hrest := dropHexPrefix_digits hx
  unfold minusOf
  split
  · simp only [List.cons_append, List.nil_append]
    rw [dropHexPrefix, if_neg (by decide), dropHexPrefix, if_pos ⟨rfl, rfl⟩, hrest]
  · simp only [List.cons_append, List.nil_append]
    rw [dropHexPrefix, if_pos ⟨rfl, rfl⟩, hrest]

theorem sgn_not_mem {sg : Option Sign} {s : Text} (hs : Sgn sg s) {c : Char} (h : c ≠ '+' ∧ c ≠ '-') : c ∉ s := by
  cases hs with
  | none => simp
  | plus => simp [h.1]
  | minus => simp [h.2]

/-- The exponent's text after the letter. -/
inductive ExpParts : Text → Option Text → Int → Prop where
  | none : ExpParts [] none 0
  | some {s t : Text} {sg : Option Sign} {n : Nat} {e : Char} : e = 'p' ∨ e = 'P' → Sgn sg s → Digits 10 true t n →
      ExpParts (e :: s ++ t) (some (s ++ t)) (if sg = some .minus then -(n : Int) else n)

theorem expParts {e : Text} {x : Int} (h : ExpVal true e x) : ∃ o, ExpParts e o x := by
  cases h with
  | none => exact ⟨_, .none⟩
  | some h1 h2 h3 => exact ⟨_, .some h1 h2 h3⟩

theorem find_exp {e : Text} {o : Option Text} {x : Int} (h : ExpParts e o x) {a : Text} (h1 : 'p' ∉ a) (h2 : 'P' ∉ a) :
    findExponent true (a ++ e) = o.map (fun r => (a, r)) := by
  unfold findExponent
  rw [if_pos rfl]
  cases h with
  | none => rw [List.append_nil, findChar_none h1, findChar_none h2]; rfl
  | @some s t sg n c hc hs ht =>
    rw [List.cons_append]
    rcases hc with rfl | rfl
    · rw [findChar_some h1]; rfl
    · rw [findChar_none, findChar_some h2]
      · rfl
      · intro hm
        rcases List.mem_append.mp hm with hm | hm
        · exact h1 hm
        · rcases List.mem_cons.mp hm with hm | hm
          · revert hm; decide
          · rcases List.mem_append.mp hm with hm | hm
            · exact sgn_not_mem hs (by decide) hm
            · exact digits_not_mem ht (by decide) (by decide) hm

theorem exp_no_dot {e : Text} {o : Option Text} {x : Int} (h : ExpParts e o x) : '.' ∉ e := by
  cases h with
  | none => simp
  | @some s t sg n c hc hs ht =>
    intro hm
    rw [List.cons_append] at hm
    rcases List.mem_cons.mp hm with hm | hm
    · rcases hc with rfl | rfl <;> (revert hm; decide)
    · rcases List.mem_append.mp hm with hm | hm
      · exact sgn_not_mem hs (by decide) hm
      · exact digits_not_mem ht (by decide) (by decide) hm

theorem expText {e : Text} {o : Option Text} {x : Int} (h : ExpParts e o x) {us : Bool}
    (hu : us = false → hasUnderscore e = false) :
    ExpText ((o.map stripPlus).map (fun s => if us = true then dropUnderscores s else s)) x := by
  cases h with
  | none => unfold ExpText; rw [if_pos (by decide)]; rfl
  | @some s t sg n c hc hs ht =>
    have hw : ∀ c ∈ t.head?, c ≠ '+' ∧ c ≠ '-' := by
      have := digits_no_sign ht []
      rwa [List.append_nil] at this
    simp only [Option.map_some]
    rw [stripPlus_sgn hs hw, fix_eq]
    · rw [dropUnderscores_append, dropU_minus]
      unfold ExpText
      simp only
      rw [fromStrRadix_eq true 32 (by decide) ht]
      simp only [Bool.true_eq_false, and_false, if_false, if_true]
      norm_num
    · intro h0
      have := hu h0
      rw [hasUnderscore_append]
      rw [List.cons_append, ← List.singleton_append, hasUnderscore_append, hasUnderscore_append] at this
      simp only [Bool.or_eq_false_iff] at this ⊢
      refine ⟨?_, this.2.2⟩
      unfold minusOf; split <;> rfl

/-- The value of a hexadecimal literal, but for the digit that is lost. -/
theorem parseToken_hex {F : Fmt} (hF : WF F) (dec : Text → Option Nat) {kind : TokenKind} {src : Text} {neg : Bool}
    {ds : List Nat} {nf : Nat} {x : Int} (h : HexLit kind src neg ds nf x) (hlen : src.length < 2 ^ 26) (hx : -(2 ^ 30) ≤ x) :
    ∃ r, F.parseToken dec kind src = some r ∧ Literal F neg (hexValue (dropStraddling F ds) nf x) r := by
  have hdu : ∀ t : Text, (dropUnderscores t).length ≤ t.length := fun t => List.length_filter_le _ _
  cases h with
  | @int sg s t n hs ht =>
    refine ⟨F.parseHex (minusOf sg ++ dropUnderscores t) none none, ?_, ?_⟩
    · unfold Fmt.parseToken
      simp only
      rw [integerVal_eq hs .hex ht]
      rfl
    · have hl := hdu t
      simp only [List.length_append] at hlen
      have := parseHex_literal hF sg (hexText_digits ht) (f := none) (by simp [HexText]) (by simp; omega)
        (s := none) (x := 0) (by unfold ExpText; rw [if_pos (by decide)]) (by decide)
      rw [digitsOf_map ht] at this
      simpa using this
  | @float sg s t f e n df x hs ht hf he hne =>
    obtain ⟨o, ho⟩ := expParts he
    have hnp : ∀ {c : Char}, c ≠ '+' → c ≠ '-' → c ≠ '0' → c ≠ 'x' → c ≠ '_' → toDigit 16 c = none → c ∉ s ++ ['0', 'x'] ++ t := by
      intro c h1 h2 h3 h4 h5 h6 hm
      rcases List.mem_append.mp hm with hm | hm
      · rcases List.mem_append.mp hm with hm | hm
        · exact sgn_not_mem hs ⟨h1, h2⟩ hm
        · simp [h3, h4] at hm
      · exact digits_not_mem ht h5 h6 hm
    have hdot : '.' ∉ s ++ ['0', 'x'] ++ t := hnp (by decide) (by decide) (by decide) (by decide) (by decide) (by decide)
    have hp : 'p' ∉ s ++ ['0', 'x'] ++ t := hnp (by decide) (by decide) (by decide) (by decide) (by decide) (by decide)
    have hP : 'P' ∉ s ++ ['0', 'x'] ++ t := hnp (by decide) (by decide) (by decide) (by decide) (by decide) (by decide)
    -- the fraction
    obtain ⟨fo, hfo, hff, hfd, hfs⟩ : ∃ fo : Option Text,
        (splitFloat true (s ++ ['0', 'x'] ++ (t ++ f ++ e)) = (s ++ ['0', 'x'] ++ t, fo, o)) ∧
        HexText (((fo.bind (fun s => if s = [] then none else some s)).map dropUnderscores).getD []) ∧
        (((fo.bind (fun s => if s = [] then none else some s)).map dropUnderscores).getD []).map toHex = df ∧
        (fo = none ∨ ∃ r, fo = some r ∧ f = '.' :: r) := by
      cases hf with
      | none =>
        refine ⟨none, ?_, by simp [HexText], rfl, .inl rfl⟩
        have e1 : s ++ ['0', 'x'] ++ (t ++ [] ++ e) = s ++ ['0', 'x'] ++ t ++ e := by simp
        rw [e1, splitFloat, findChar_none, find_exp ho hp hP]
        · cases o with
          | none =>
            cases ho
            exact absurd rfl hne
          | some o => rfl
        · intro hm
          rcases List.mem_append.mp hm with hm | hm
          · exact hdot hm
          · exact exp_no_dot ho hm
      | dot =>
        refine ⟨some [], ?_, by simp [HexText], rfl, .inr ⟨[], rfl, rfl⟩⟩
        have e1 : s ++ ['0', 'x'] ++ (t ++ ['.'] ++ e) = (s ++ ['0', 'x'] ++ t) ++ '.' :: e := by simp
        have h3 := find_exp (a := []) ho (by simp) (by simp)
        rw [List.nil_append] at h3
        rw [e1, splitFloat, findChar_some hdot]
        simp only
        rw [h3]
        cases o with
        | none =>
          cases ho; rfl
        | some o => rfl
      | @digits f2 m hf2 =>
        have hf2ne : f2 ≠ [] := by
          obtain ⟨c, d, t', rfl, _⟩ := digits_head hf2
          simp
        refine ⟨some f2, ?_, ?_, ?_, .inr ⟨f2, rfl, rfl⟩⟩
        · have e1 : s ++ ['0', 'x'] ++ (t ++ '.' :: f2 ++ e) = (s ++ ['0', 'x'] ++ t) ++ '.' :: (f2 ++ e) := by simp
          have h3 := find_exp (a := f2) ho (digits_not_mem hf2 (by decide) (by decide)) (digits_not_mem hf2 (by decide) (by decide))
          rw [e1, splitFloat, findChar_some hdot]
          simp only
          rw [h3]
          cases o with
          | none => cases ho; simp
          | some o => rfl
        · simp only [Option.bind_some, if_neg hf2ne, Option.map_some, Option.getD_some]
          exact hexText_digits hf2
        · simp only [Option.bind_some, if_neg hf2ne, Option.map_some, Option.getD_some]
          exact digitsOf_map hf2
    obtain ⟨us, hus⟩ : ∃ us, us = hasUnderscore (t ++ f ++ e) := ⟨_, rfl⟩
    have hu : us = false → hasUnderscore t = false ∧ hasUnderscore f = false ∧ hasUnderscore e = false := by
      intro h0
      rw [h0, hasUnderscore_append, hasUnderscore_append] at hus
      have := hus.symm
      simp only [Bool.or_eq_false_iff] at this
      exact ⟨this.1.1, this.1.2, this.2⟩
    have hsp : stripPlus (s ++ ['0', 'x'] ++ t) = minusOf sg ++ (['0', 'x'] ++ t) := by
      rw [List.append_assoc]
      exact stripPlus_sgn hs (by intro c hc; cases hc; decide)
    have hint : dropHexPrefix (if us = true then dropUnderscores (stripPlus (s ++ ['0', 'x'] ++ t)) else stripPlus (s ++ ['0', 'x'] ++ t)) =
        minusOf sg ++ dropUnderscores t := by
      rw [hsp, fix_eq]
      · rw [dropUnderscores_append, dropUnderscores_append, dropU_minus]
        have : dropUnderscores ['0', 'x'] = ['0', 'x'] := rfl
        rw [this]
        exact dropHexPrefix_sgn sg (no_x_filter (digits_no_x (by decide) ht))
      · intro h0
        rw [hasUnderscore_append, hasUnderscore_append, (hu h0).1]
        unfold minusOf; split <;> rfl
    have hfrac : (fo.bind (fun s => if s = [] then none else some s)).map (fun s => if us = true then dropUnderscores s else s) =
        (fo.bind (fun s => if s = [] then none else some s)).map dropUnderscores := by
      rcases hfs with rfl | ⟨r, rfl, rfl⟩
      · rfl
      · simp only [Option.bind_some]
        by_cases hr : r = []
        · rw [if_pos hr]; rfl
        · rw [if_neg hr]
          simp only [Option.map_some]
          rw [fix_eq]
          intro h0
          have := (hu h0).2.1
          rw [← List.singleton_append, hasUnderscore_append] at this
          simp only [Bool.or_eq_false_iff] at this
          exact this.2
    refine ⟨F.parseHex (minusOf sg ++ dropUnderscores t)
      ((fo.bind (fun s => if s = [] then none else some s)).map dropUnderscores)
      ((o.map stripPlus).map (fun s => if us = true then dropUnderscores s else s)), ?_, ?_⟩
    · unfold Fmt.parseToken tokenFloat
      simp only
      rw [hfo, ← hus]
      simp only [if_true]
      rw [hint, hfrac]
      rfl
    · have hl := hdu t
      have hl2 : (((fo.bind (fun s => if s = [] then none else some s)).map dropUnderscores).getD []).length ≤ f.length := by
        rcases hfs with rfl | ⟨r, rfl, rfl⟩
        · simp
        · simp only [Option.bind_some]
          split
          · simp
          · have := hdu r
            simp only [Option.map_some, Option.getD_some, List.length_cons]; omega
      simp only [List.length_append] at hlen
      have := parseHex_literal hF sg (hexText_digits ht) hff (by omega)
        (s := (o.map stripPlus).map (fun s => if us = true then dropUnderscores s else s)) (x := x)
        (expText ho (fun h0 => (hu h0).2.2)) hx
      rw [digitsOf_map ht, hfd] at this
      rw [← hfd, List.length_map, hfd]
      exact this

end Verif.Float
