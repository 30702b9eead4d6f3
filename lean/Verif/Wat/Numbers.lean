import Verif.Wat.Strings
/-
Number tokens: the classification is that of the grammar.
-/
namespace Verif.Wat

open Verif.Std Spec

/-- The test of digits is that of a base. -/
def Good (base : Nat) (good : Char → Bool) : Prop := ∀ c, good c = (toDigit base c).isSome

theorem good_dec : Good 10 isDigit := by
  intro c; rw [toDigit_dec]; cases isDigit c <;> rfl

theorem good_hex : Good 16 isHexDigit := by
  intro c; rw [toDigit_hex]; cases isHexDigit c <;> rfl

/-- The digits end in front of `s`. -/
def Ends (good : Char → Bool) (s : Text) : Prop := ∀ c ∈ s.head?, good c = false ∧ c ≠ '_'

theorem Good.of_digit {base : Nat} {good : Char → Bool} (hg : Good base good) {c : Char} {d : Nat}
    (h : toDigit base c = some d) : good c = true := by rw [hg, h]; rfl

theorem Good.digit {base : Nat} {good : Char → Bool} (hg : Good base good) {c : Char}
    (h : good c = true) : ∃ d, toDigit base c = some d := by
  rw [hg] at h
  exact Option.isSome_iff_exists.mp h

theorem Good.underscore {base : Nat} {good : Char → Bool} (hg : Good base good) : good '_' = false := by
  rw [hg, toDigit_underscore]; rfl

theorem hasUnderscore_append (s t : Text) :
    hasUnderscore (s ++ t) = (hasUnderscore s || hasUnderscore t) := by
  simp [hasUnderscore, List.contains_eq_mem]

theorem hasUnderscore_cons_digit {base : Nat} {c : Char} {d : Nat} (h : toDigit base c = some d) (t : Text) :
    hasUnderscore (c :: t) = hasUnderscore t := by
  have : c ≠ '_' := by rintro rfl; rw [toDigit_underscore] at h; cases h
  simp [hasUnderscore, List.contains_eq_mem, Ne.symm this]

theorem loop_ok {base : Nat} {good : Char → Bool} (hg : Good base good) {t : Text} {n : Nat}
    (h : Digits base true t n) :
    ∃ c d t', t = c :: t' ∧ toDigit base c = some d ∧
      ∀ has s, underscoreLoop good false has (t' ++ s) = underscoreLoop good false (has || hasUnderscore t) s := by
  induction h with
  | one h =>
    refine ⟨_, _, [], rfl, h, ?_⟩
    intro has s
    rw [hasUnderscore_cons_digit h]; simp [hasUnderscore]
  | @more t n u c d h1 hu hs hc ih =>
    obtain ⟨c0, d0, t', rfl, h, h2⟩ := ih
    refine ⟨c0, d0, t' ++ u ++ [c], by simp, h, ?_⟩
    intro has s
    have hne : c ≠ '_' := by rintro rfl; rw [toDigit_underscore] at hc; cases hc
    have hgc := hg.of_digit hc
    rw [List.append_assoc, List.append_assoc, h2, List.append_assoc, hasUnderscore_append,
      hasUnderscore_append, hasUnderscore_cons_digit hc]
    rcases u with _ | ⟨x, u⟩
    · simp only [List.nil_append, List.singleton_append]
      rw [underscoreLoop, if_neg (by simp [hne]), hgc]
      simp [hasUnderscore]
    · have hx := hu x (by simp)
      have : u = [] := by
        have := hs rfl
        simp at this
        exact this
      subst this hx
      simp only [List.singleton_append]
      rw [underscoreLoop, if_pos ⟨rfl, rfl⟩, underscoreLoop, if_neg (by simp [hne]), hgc]
      simp [hasUnderscore]

theorem skip_ok {base : Nat} {good : Char → Bool} (hg : Good base good) {t : Text} {n : Nat}
    (h : Digits base true t n) {s : Text} (hs : Ends good s) :
    skipUnderscores good (t ++ s) = some (hasUnderscore t, s) := by
  obtain ⟨c, d, t', rfl, hd, hl⟩ := loop_ok hg h
  rw [List.cons_append, skipUnderscores, hg.of_digit hd]
  simp only [Bool.not_true, Bool.false_eq_true, if_false]
  rw [hl, Bool.false_or]
  cases s with
  | nil => rfl
  | cons x s =>
    obtain ⟨h1, h2⟩ := hs x rfl
    have hstop : underscoreLoop good false (hasUnderscore (c :: t')) (x :: s)
        = (false, hasUnderscore (c :: t'), x :: s) := by
      rw [underscoreLoop, if_neg (by simp [h2]), h1]
      rfl
    rw [hstop]
    rfl

theorem loop_sound {base : Nat} {good : Char → Bool} (hg : Good base good) {s : Text} :
    ∀ {p u : Text} {n : Nat} {l has has' : Bool} {s' : Text},
    underscoreLoop good l has s = (false, has', s') → Digits base true p n → (∀ x ∈ u, x = '_') →
    u.length ≤ 1 → l = !u.isEmpty →
    ∃ t n', s = t ++ s' ∧ Digits base true (p ++ u ++ t) n' ∧ has' = (has || hasUnderscore t) ∧
      Ends good s' := by
  induction s with
  | nil =>
    intro p u n l has has' s' h hp hu hu1 hl
    rw [underscoreLoop] at h
    cases h
    obtain rfl := empty_of_not hl
    exact ⟨[], n, rfl, by simpa using hp, by simp [hasUnderscore], by intro c hc; cases hc⟩
  | cons c s ih =>
    intro p u n l has has' s' h hp hu hu1 hl
    rw [underscoreLoop] at h
    by_cases h1 : c = '_' ∧ l = false
    · rw [if_pos h1] at h
      obtain ⟨rfl, rfl⟩ := h1
      obtain rfl := empty_of_not hl
      obtain ⟨t, n', ht, hd, hh, he⟩ := ih (u := ['_']) h hp (by simp) (by simp) (by simp)
      refine ⟨'_' :: t, n', by rw [ht]; rfl, by simpa using hd, ?_, he⟩
      rw [hh]; simp [hasUnderscore]
    · rw [if_neg h1] at h
      by_cases h2 : good c
      · rw [h2] at h
        simp only [Bool.not_true, Bool.false_eq_true, if_false] at h
        obtain ⟨d, hd⟩ := hg.digit h2
        obtain ⟨t, n', ht, hd', hh, he⟩ := ih (u := []) h (Digits.more hp hu (fun _ => hu1) hd)
          (by simp) (by simp) rfl
        refine ⟨c :: t, n', by rw [ht]; rfl, by simpa using hd', ?_, he⟩
        rw [hh, hasUnderscore_cons_digit hd]
      · have h2' : good c = false := by simpa using h2
        rw [h2'] at h
        simp only [Bool.not_false, if_true] at h
        cases h
        obtain rfl := empty_of_not hl
        refine ⟨[], n, rfl, by simpa using hp, by simp [hasUnderscore], ?_⟩
        intro x hx
        simp only [List.head?_cons, Option.mem_def, Option.some.injEq] at hx
        subst hx
        exact ⟨h2', fun e => h1 ⟨e, rfl⟩⟩

theorem skip_sound {base : Nat} {good : Char → Bool} (hg : Good base good) {s s' : Text} {has : Bool}
    (h : skipUnderscores good s = some (has, s')) :
    ∃ t n, s = t ++ s' ∧ Digits base true t n ∧ has = hasUnderscore t ∧ Ends good s' := by
  cases s with
  | nil => cases h
  | cons c s =>
    rw [skipUnderscores] at h
    by_cases h2 : good c
    · rw [h2] at h
      simp only [Bool.not_true, Bool.false_eq_true, if_false] at h
      obtain ⟨d, hd⟩ := hg.digit h2
      cases hl : underscoreLoop good false false s with
      | mk last r =>
        obtain ⟨has', it⟩ := r
        rw [hl] at h
        simp only at h
        cases last with
        | true => cases h
        | false =>
          cases h
          obtain ⟨t, n', ht, hd', hh, he⟩ := loop_sound hg hl (Digits.one hd) (u := []) (by simp)
            (by simp) rfl
          refine ⟨c :: t, n', by rw [ht]; rfl, by simpa using hd', ?_, he⟩
          rw [hh, hasUnderscore_cons_digit hd, Bool.false_or]
    · have h2' : good c = false := by simpa using h2
      rw [h2'] at h
      cases h

/-! ## Parts of numbers -/

theorem splitSign_ok {sg : Option Sign} {s t : Text} (h : Sgn sg s)
    (ht : ∀ c ∈ t.head?, c ≠ '+' ∧ c ≠ '-') : splitSign (s ++ t) = (sg, t) := by
  cases h with
  | none =>
    rw [List.nil_append]
    unfold splitSign
    split
    · exact absurd rfl (ht '+' rfl).1
    · exact absurd rfl (ht '-' rfl).2
    · rfl
  | plus => rfl
  | minus => rfl

theorem splitSign_sound (s : Text) : ∃ p, Sgn (splitSign s).1 p ∧ s = p ++ (splitSign s).2 := by
  unfold splitSign
  split
  · exact ⟨['+'], .plus, rfl⟩
  · exact ⟨['-'], .minus, rfl⟩
  · exact ⟨[], .none, rfl⟩

theorem skipSign_ok {sg : Option Sign} {s t : Text} (h : Sgn sg s)
    (ht : ∀ c ∈ t.head?, c ≠ '+' ∧ c ≠ '-') : skipSign (s ++ t) = t := by
  cases h with
  | none =>
    rw [List.nil_append]
    unfold skipSign
    split
    · exact absurd rfl (ht '-' rfl).2
    · exact absurd rfl (ht '+' rfl).1
    · rfl
  | plus => rfl
  | minus => rfl

theorem skipSign_sound (s : Text) : ∃ p sg, Sgn sg p ∧ s = p ++ skipSign s := by
  unfold skipSign
  split
  · exact ⟨['-'], _, .minus, rfl⟩
  · exact ⟨['+'], _, .plus, rfl⟩
  · exact ⟨[], _, .none, rfl⟩

theorem digits_no_sign {base : Nat} {strict : Bool} {t : Text} {n : Nat} (h : Digits base strict t n)
    (s : Text) : ∀ c ∈ (t ++ s).head?, c ≠ '+' ∧ c ≠ '-' := by
  obtain ⟨c, d, t', rfl, hd⟩ := digits_head h
  intro x hx
  simp only [List.cons_append, List.head?_cons, Option.mem_def, Option.some.injEq] at hx
  subst hx
  constructor
  · rintro rfl
    have : digitVal '+' = none := by decide
    rw [toDigit, this] at hd; cases hd
  · rintro rfl
    have : digitVal '-' = none := by decide
    rw [toDigit, this] at hd; cases hd

theorem hasUnderscore_sgn {sg : Option Sign} {s : Text} (h : Sgn sg s) : hasUnderscore s = false := by
  cases h <;> decide

theorem ends_nil (good : Char → Bool) : Ends good [] := by intro c hc; cases hc

theorem exponent_ok {hex : Bool} {e : Text} (h : Exp hex e) :
    exponentPart hex e = some (hasUnderscore e, []) := by
  cases h with
  | none => rfl
  | @some ch s t sg n he hs ht =>
    have hc : (hex = true ∧ (ch = 'p' ∨ ch = 'P')) ∨ (hex = false ∧ (ch = 'e' ∨ ch = 'E')) := by
      cases hex
      · exact Or.inr ⟨rfl, by simpa using he⟩
      · exact Or.inl ⟨rfl, by simpa using he⟩
    have hne : hasUnderscore (ch :: s ++ t) = hasUnderscore t := by
      rw [List.cons_append, ← List.singleton_append, hasUnderscore_append, hasUnderscore_append,
        hasUnderscore_sgn hs]
      have : hasUnderscore [ch] = false := by
        rcases hc with ⟨-, rfl | rfl⟩ | ⟨-, rfl | rfl⟩ <;> decide
      rw [this]; simp
    have hd := digits_no_sign ht []
    rw [List.append_nil] at hd
    rw [hne, List.cons_append, exponentPart, if_pos hc, skipSign_ok hs hd]
    have := skip_ok good_dec ht (ends_nil _)
    rwa [List.append_nil] at this

theorem exponent_sound {hex : Bool} {s : Text} {u : Bool} (h : exponentPart hex s = some (u, [])) :
    Exp hex s ∧ u = hasUnderscore s := by
  cases s with
  | nil => cases h; exact ⟨.none, rfl⟩
  | cons c s =>
    rw [exponentPart] at h
    split at h
    · next hc =>
      obtain ⟨p, sg, hp, hs⟩ := skipSign_sound s
      obtain ⟨t, n, ht, hd, hu, -⟩ := skip_sound good_dec h
      rw [List.append_nil] at ht
      rw [ht] at hs
      have he : if hex = true then c = 'p' ∨ c = 'P' else c = 'e' ∨ c = 'E' := by
        rcases hc with ⟨rfl, hc⟩ | ⟨rfl, hc⟩
        · simpa using hc
        · simpa using hc
      have hx := Exp.some he hp hd
      rw [List.cons_append, ← hs] at hx
      have := exponent_ok hx
      refine ⟨hx, ?_⟩
      rw [exponentPart, if_pos hc, h] at this
      simpa using this
    · cases h

/-- Nothing of what may follow the digits of a number continues them. -/
theorem exp_ends {hex : Bool} {e : Text} (h : Exp hex e) {base : Nat} {p : Text} (hb : Base hex base p)
    {good : Char → Bool} (hg : Good base good) : Ends good e := by
  cases h with
  | none => exact ends_nil _
  | @some ch s t sg n he hs ht =>
    intro c hc
    simp only [List.cons_append, List.head?_cons, Option.mem_def, Option.some.injEq] at hc
    subst hc
    rw [hg]
    cases hb with
    | dec =>
      simp only [Bool.false_eq_true, if_false] at he
      rcases he with rfl | rfl <;> decide
    | hex =>
      simp only [if_true] at he
      rcases he with rfl | rfl <;> decide

theorem fraction_ok {base : Nat} {hex : Bool} {p f e : Text} (hb : Base hex base p) (hf : Frac base f)
    (he : Exp hex e) {good : Char → Bool} (hg : Good base good) :
    fractionPart good (f ++ e) = some (hasUnderscore f, e) := by
  have hee := exp_ends he hb hg
  cases hf with
  | none =>
    rw [List.nil_append]
    have hdot : ∀ it, e ≠ '.' :: it := by
      rintro it rfl
      cases he with
      | @some ch s t sg n he hs ht => split at he <;> (rcases he with he | he <;> cases he)
    unfold fractionPart
    split
    · exact absurd rfl (hdot _)
    · rfl
  | dot =>
    cases e with
    | nil => rfl
    | cons c e =>
      have := (hee c rfl).1
      simp only [List.cons_append, List.nil_append, fractionPart, this]
      rfl
  | @digits t n h =>
    obtain ⟨c, d, t', rfl, hd⟩ := digits_head h
    have h1 := skip_ok hg h hee
    simp only [List.cons_append, fractionPart, hg.of_digit hd, if_true]
    rw [List.cons_append] at h1
    rw [h1]
    simp [hasUnderscore]

theorem fraction_sound {base : Nat} {good : Char → Bool} (hg : Good base good) {s s' : Text} {u : Bool}
    (h : fractionPart good s = some (u, s')) :
    ∃ f, s = f ++ s' ∧ Frac base f ∧ u = hasUnderscore f := by
  unfold fractionPart at h
  split at h
  · next it =>
    split at h
    · next c r =>
      split at h
      · obtain ⟨t, n, ht, hd, hu, -⟩ := skip_sound hg h
        refine ⟨'.' :: t, by rw [ht]; rfl, .digits hd, ?_⟩
        rw [hu]; simp [hasUnderscore]
      · cases h; exact ⟨['.'], rfl, .dot, rfl⟩
    · cases h; exact ⟨['.'], rfl, .dot, rfl⟩
  · cases h; exact ⟨[], rfl, .none, rfl⟩

/-! ## Numbers -/

theorem rest_ok {sg : Option Sign} {hex : Bool} {base : Nat} {p t f e : Text} {n : Nat} (hb : Base hex base p)
    (ht : Digits base true t n) (hf : Frac base f) (he : Exp hex e) {good : Char → Bool}
    (hg : Good base good) :
    classifyRest sg hex good (t ++ f ++ e) =
      some (if f ++ e = [] then .integer ⟨sg, hasUnderscore t, hex⟩
        else .float (.normal (hasUnderscore (t ++ f ++ e)) hex)) := by
  have hee := exp_ends he hb hg
  have hends : Ends good (f ++ e) := by
    cases hf with
    | none => exact hee
    | dot =>
      intro c hc
      simp only [List.cons_append, List.head?_cons, Option.mem_def, Option.some.injEq] at hc
      subst hc
      rw [hg]
      cases hb <;> decide
    | digits h =>
      intro c hc
      simp only [List.cons_append, List.head?_cons, Option.mem_def, Option.some.injEq] at hc
      subst hc
      rw [hg]
      cases hb <;> decide
  unfold classifyRest
  rw [List.append_assoc, skip_ok hg ht hends]
  simp only
  by_cases h0 : f ++ e = []
  · rw [if_pos h0, if_pos h0]
  · rw [if_neg h0, if_neg h0, fraction_ok hb hf he hg]
    simp only [exponent_ok he, if_true]
    rw [hasUnderscore_append t, hasUnderscore_append f, Bool.or_assoc]

theorem rest_sound {sg : Option Sign} {hex : Bool} {base : Nat} {good : Char → Bool} (hg : Good base good)
    {s : Text} {k : TokenKind} (h : classifyRest sg hex good s = some k) :
    (∃ n, Digits base true s n ∧ k = .integer ⟨sg, hasUnderscore s, hex⟩) ∨
      (∃ t f e n, s = t ++ f ++ e ∧ Digits base true t n ∧ Frac base f ∧ Exp hex e ∧ f ++ e ≠ [] ∧
        k = .float (.normal (hasUnderscore (t ++ f ++ e)) hex)) := by
  unfold classifyRest at h
  cases h1 : skipUnderscores good s with
  | none => rw [h1] at h; cases h
  | some r =>
    obtain ⟨u1, it⟩ := r
    obtain ⟨t, n, ht, hd, hu, -⟩ := skip_sound hg h1
    rw [h1] at h
    simp only at h
    by_cases h0 : it = []
    · rw [if_pos h0] at h
      subst h0
      rw [List.append_nil] at ht
      subst ht
      cases h
      exact Or.inl ⟨n, hd, by rw [hu]⟩
    · rw [if_neg h0] at h
      cases h2 : fractionPart good it with
      | none => rw [h2] at h; cases h
      | some r2 =>
        obtain ⟨u2, it2⟩ := r2
        obtain ⟨f, hf, hfr, hu2⟩ := fraction_sound hg h2
        rw [h2] at h
        simp only at h
        cases h3 : exponentPart hex it2 with
        | none => rw [h3] at h; cases h
        | some r3 =>
          obtain ⟨u3, it3⟩ := r3
          rw [h3] at h
          simp only at h
          by_cases h4 : it3 = []
          · rw [if_pos h4] at h
            subst h4
            obtain ⟨he, hu3⟩ := exponent_sound h3
            cases h
            refine Or.inr ⟨t, f, it2, n, by rw [ht, hf, List.append_assoc], hd, hfr, he, ?_, ?_⟩
            · rwa [← hf]
            · rw [hasUnderscore_append, hasUnderscore_append, hu, hu2, hu3]
          · rw [if_neg h4] at h; cases h

theorem stripPrefix_append (p s : Text) : stripPrefix p (p ++ s) = some s := by
  induction p with
  | nil => rfl
  | cons c p ih => rw [List.cons_append, stripPrefix, if_pos rfl, ih]

theorem stripPrefix_sound {p s r : Text} (h : stripPrefix p s = some r) : s = p ++ r := by
  induction p generalizing s with
  | nil => cases h; rfl
  | cons c p ih =>
    cases s with
    | nil => cases h
    | cons d s =>
      rw [stripPrefix] at h
      split at h
      · next e => rw [e, ih h]; rfl
      · cases h

theorem stripPrefix_none {p : Char} {ps : Text} {c : Char} {s : Text} (h : p ≠ c) :
    stripPrefix (p :: ps) (c :: s) = none := by
  rw [stripPrefix, if_neg h]

/-- The prefix of hexadecimal numbers does not start a decimal number. -/
theorem dec_no_prefix {t f e : Text} {n : Nat} (h : Digits 10 true t n) (hf : Frac 10 f) (he : Exp false e) :
    stripPrefix ['0', 'x'] (t ++ f ++ e) = none := by
  obtain ⟨c, d, t', rfl, hd, hl⟩ := loop_ok good_dec h
  cases hs : stripPrefix ['0', 'x'] (c :: t' ++ f ++ e) with
  | none => rfl
  | some r =>
    exfalso
    have hx := stripPrefix_sound hs
    have hr := rest_ok (sg := none) Base.dec h hf he good_dec
    rw [hx] at hr
    have : classifyRest none false isDigit ('0' :: 'x' :: r) = none := rfl
    simp only [List.cons_append, List.nil_append] at hr
    rw [this] at hr
    cases hr

theorem classify_ok {k : TokenKind} {s : Text} (h : NumTok k s) : classifyNumber s = some k := by
  have digits_first : ∀ {base : Nat} {t s : Text} {n : Nat}, Digits base true t n → base ≤ 16 →
      ∀ x ps, digitVal x = none ∨ 16 ≤ (digitVal x).getD 0 → stripPrefix (x :: ps) (t ++ s) = none := by
    intro base t s n hdg hb x ps hx
    obtain ⟨c, d, t', rfl, hd⟩ := digits_head hdg
    apply stripPrefix_none
    rintro rfl
    unfold toDigit at hd
    cases hv : digitVal x with
    | none => rw [hv] at hd; cases hd
    | some v =>
      rw [hv] at hd hx
      simp only [Option.filter_some, decide_eq_true_eq] at hd
      simp at hx
      split at hd
      · omega
      · cases hd
  have first : ∀ {sg : Option Sign} {p num : Text} (k' : TokenKind), Sgn sg p →
      (∀ c ∈ num.head?, c ≠ '+' ∧ c ≠ '-') → num ≠ ['i', 'n', 'f'] → num ≠ ['n', 'a', 'n'] →
      stripPrefix ['n', 'a', 'n', ':', '0', 'x'] num = none →
      (match stripPrefix ['0', 'x'] num with
        | some it => classifyRest sg true isHexDigit it
        | none => classifyRest sg false isDigit num) = some k' →
      classifyNumber (p ++ num) = some k' := by
    intro sg p num k' hs hn h1 h2 h3 h4
    unfold classifyNumber
    rw [splitSign_ok hs hn]
    simp only
    rw [if_neg h1, if_neg h2, h3]
    simp only
    exact h4
  have body : ∀ {sg : Option Sign} {s : Text} {hex : Bool} {base : Nat} {p t f e : Text} {n : Nat} (k' : TokenKind),
      Sgn sg s → Base hex base p → Digits base true t n → Frac base f → Exp hex e →
      k' = (if f ++ e = [] then .integer ⟨sg, hasUnderscore t, hex⟩
        else .float (.normal (hasUnderscore (t ++ f ++ e)) hex)) →
      classifyNumber (s ++ p ++ (t ++ f ++ e)) = some k' := by
    intro sg s hex base p t f e n k' hs hb ht hf he hk
    rw [List.append_assoc]
    have hr := fun {good} (hg : Good base good) => rest_ok (sg := sg) hb ht hf he hg
    cases hb with
    | dec =>
      rw [List.nil_append]
      have d1 := digits_first (s := f ++ e) ht (by decide)
      rw [← List.append_assoc] at d1
      refine first k' hs ?_ ?_ ?_ (d1 'n' _ (by decide)) ?_
      · have := digits_no_sign ht (f ++ e)
        rwa [← List.append_assoc] at this
      · intro e'; have := d1 'i' ['n', 'f'] (by decide); rw [e'] at this; cases this
      · intro e'; have := d1 'n' ['a', 'n'] (by decide); rw [e'] at this; cases this
      · rw [dec_no_prefix ht hf he, hk]
        exact hr good_dec
    | hex =>
      refine first k' hs ?_ ?_ ?_ rfl ?_
      · intro c hc
        simp only [List.cons_append, List.head?_cons, Option.mem_def, Option.some.injEq] at hc
        subst hc; decide
      · intro e'; simp at e'
      · intro e'; simp at e'
      · rw [stripPrefix_append, hk]
        exact hr good_hex
  cases h with
  | @int sg s hex base p t n hs hb ht =>
    have := body (f := []) (e := []) (.integer ⟨sg, hasUnderscore t, hex⟩) hs hb ht .none .none rfl
    simpa using this
  | inf hs =>
    unfold classifyNumber
    rw [splitSign_ok hs (by simp)]
    simp
  | nan hs =>
    unfold classifyNumber
    rw [splitSign_ok hs (by simp)]
    simp
  | @nanVal sg s t n hs ht =>
    unfold classifyNumber
    rw [List.append_assoc, splitSign_ok hs (by simp)]
    have := skip_ok good_hex ht (ends_nil _)
    rw [List.append_nil] at this
    simp only [stripPrefix_append, this]
    simp
  | @float sg s hex base p t f e n hs hb ht hf he hne =>
    exact body _ hs hb ht hf he (by rw [if_neg hne])

theorem classify_sound {k : TokenKind} {s : Text} (h : classifyNumber s = some k) : NumTok k s := by
  obtain ⟨p, hs, hsplit⟩ := splitSign_sound s
  unfold classifyNumber at h
  simp only at h
  generalize hsg : (splitSign s).1 = sg at *
  generalize hnum : (splitSign s).2 = num at *
  subst hsplit
  by_cases h1 : num = ['i', 'n', 'f']
  · rw [if_pos h1] at h
    subst h1
    have e : k = TokenKind.float (FloatKind.inf (decide (sg = some Sign.minus))) := by
      rw [← Option.some.inj h, ← hsg]
    rw [e]; exact .inf hs
  · rw [if_neg h1] at h
    by_cases h2 : num = ['n', 'a', 'n']
    · rw [if_pos h2] at h
      subst h2
      have e : k = TokenKind.float (FloatKind.nan (decide (sg = some Sign.minus))) := by
        rw [← Option.some.inj h, ← hsg]
      rw [e]; exact .nan hs
    · rw [if_neg h2] at h
      cases h3 : stripPrefix ['n', 'a', 'n', ':', '0', 'x'] num with
      | some it =>
        rw [h3] at h
        simp only at h
        have h3' := stripPrefix_sound h3
        cases h4 : skipUnderscores isHexDigit it with
        | none => rw [h4] at h; cases h
        | some r =>
          obtain ⟨u, it2⟩ := r
          rw [h4] at h
          simp only at h
          by_cases h5 : it2 = []
          · rw [if_pos h5] at h
            subst h5
            obtain ⟨t, n, ht, hd, hu, -⟩ := skip_sound good_hex h4
            rw [List.append_nil] at ht
            subst ht
            have e : k = TokenKind.float (FloatKind.nanVal (decide (sg = some Sign.minus)) (hasUnderscore it)) := by
              rw [← Option.some.inj h, ← hsg, hu]
            rw [e, h3', ← List.append_assoc]; exact .nanVal hs hd
          · rw [if_neg h5] at h; cases h
      | none =>
        rw [h3] at h
        simp only at h
        cases h4 : stripPrefix ['0', 'x'] num with
        | some it =>
          rw [h4] at h
          simp only at h
          have h4' := stripPrefix_sound h4
          rcases rest_sound good_hex h with ⟨n, hd, hk⟩ | ⟨t, f, e, n, ht, hd, hf, he, hne, hk⟩
          · rw [hk, h4', ← List.append_assoc]; exact .int hs .hex hd
          · rw [hk, h4', ← List.append_assoc, ht]; exact .float hs .hex hd hf he hne
        | none =>
          rw [h4] at h
          simp only at h
          rcases rest_sound good_dec h with ⟨n, hd, hk⟩ | ⟨t, f, e, n, ht, hd, hf, he, hne, hk⟩
          · rw [hk]
            have := NumTok.int hs .dec hd
            rwa [List.append_nil] at this
          · rw [hk, ht]
            have := NumTok.float hs .dec hd hf he hne
            rwa [List.append_nil] at this

/-- The classification is that of the grammar. -/
theorem classify_iff {k : TokenKind} {s : Text} : classifyNumber s = some k ↔ NumTok k s :=
  ⟨classify_sound, classify_ok⟩

end Verif.Wat
