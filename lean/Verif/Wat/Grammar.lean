import Verif.Wat.Numbers
import Verif.Wat.RefineLex
/-
The lexer on characters is the grammar.
-/
namespace Verif.Wat

open Verif.Std Spec

/-! ## Comments and white space -/

theorem blockRest_ne {n : Nat} {t : Text} (h : BlockRest n t) : t ≠ [] := by
  cases h <;> simp

theorem block_ok {n : Nat} {t : Text} (h : BlockRest n t) (rest : Text) :
    blockChars n (t ++ rest) = some rest := by
  induction h with
  | close => rfl
  | @closeInner n t hn h ih =>
    simp only [List.cons_append, blockChars]
    rw [if_neg (by decide), if_pos ⟨trivial, trivial⟩, if_neg (by omega)]
    exact ih
  | openInner h ih =>
    simp only [List.cons_append, blockChars]
    rw [if_pos ⟨trivial, trivial⟩]
    exact ih
  | @char n c t h1 h2 h ih =>
    cases t with
    | nil => exact absurd rfl (blockRest_ne h)
    | cons d t =>
      simp only [List.head?_cons, Option.some.injEq] at h1 h2
      simp only [List.cons_append] at ih ⊢
      rw [blockChars, if_neg h1, if_neg h2, ih]

theorem block_sound : ∀ (k : Nat) (s : Text), s.length ≤ k → ∀ level rest, 1 ≤ level →
    blockChars level s = some rest → ∃ t, s = t ++ rest ∧ BlockRest level t := by
  intro k
  induction k with
  | zero =>
    intro s hs level rest hl h
    obtain rfl : s = [] := List.length_eq_zero_iff.mp (by omega)
    cases h
  | succ k ih =>
    intro s hs level rest hl h
    match s, hs, h with
    | [], _, h => cases h
    | [_], _, h => cases h
    | a :: b :: s, hs, h =>
      simp only [List.length_cons] at hs
      rw [blockChars] at h
      by_cases h1 : a = '(' ∧ b = ';'
      · rw [if_pos h1] at h
        obtain ⟨t, ht, hb⟩ := ih s (by omega) _ _ (by omega) h
        exact ⟨'(' :: ';' :: t, by rw [h1.1, h1.2, ht]; rfl, .openInner hb⟩
      · rw [if_neg h1] at h
        by_cases h2 : a = ';' ∧ b = ')'
        · rw [if_pos h2] at h
          by_cases h3 : level = 1
          · rw [if_pos h3] at h
            cases h
            subst h3
            exact ⟨[';', ')'], by rw [h2.1, h2.2]; rfl, .close⟩
          · rw [if_neg h3] at h
            obtain ⟨t, ht, hb⟩ := ih s (by omega) _ _ (by omega) h
            obtain ⟨m, rfl⟩ : ∃ m, level = m + 1 := ⟨level - 1, by omega⟩
            exact ⟨';' :: ')' :: t, by rw [h2.1, h2.2, ht]; rfl, .closeInner (by omega) hb⟩
        · rw [if_neg h2] at h
          obtain ⟨t, ht, hb⟩ := ih (b :: s) (by simp only [List.length_cons]; omega) _ _ hl h
          cases t with
          | nil => exact absurd rfl (blockRest_ne hb)
          | cons d t =>
            have hd : b = d := by rw [List.cons_append] at ht; exact (List.cons.inj ht).1
            subst hd
            refine ⟨a :: b :: t, by rw [ht]; rfl, .char ?_ ?_ hb⟩
            · simpa using h1
            · simpa using h2

theorem firstConfusing_none {t : Text} : firstConfusing t = none ↔ ∀ c ∈ t, isConfusing c = false := by
  induction t with
  | nil => simp [firstConfusing]
  | cons c t ih =>
    rw [firstConfusing]
    cases h : isConfusing c with
    | true => simp [h]
    | false => simp [h, ih]

theorem comment_iff {allow : Bool} {k k' : TokenKind} {t rest rest' : Text} :
    commentChars allow k t rest = .tok k' rest' ↔ k' = k ∧ rest' = rest ∧ Plain allow t := by
  unfold commentChars Plain
  cases allow with
  | true => simp; constructor <;> (rintro ⟨rfl, rfl⟩; exact ⟨rfl, rfl⟩)
  | false =>
    simp only [Bool.false_eq_true, if_false, false_or]
    rw [← firstConfusing_none]
    cases h : firstConfusing t with
    | none => simp; constructor <;> (rintro ⟨rfl, rfl⟩; exact ⟨rfl, rfl⟩)
    | some p => obtain ⟨c, u⟩ := p; simp

theorem plain_append {allow : Bool} {s t : Text} (hs : ∀ c ∈ s, c.toNat < 128) :
    Plain allow (s ++ t) ↔ Plain allow t := by
  unfold Plain
  apply or_congr Iff.rfl
  constructor
  · intro h c hc; exact h c (List.mem_append_right _ hc)
  · intro h c hc
    rcases List.mem_append.mp hc with hc | hc
    · exact isConfusing_ascii (hs c hc)
    · exact h c hc

theorem plain_of_ascii {allow : Bool} {s : Text} (hs : ∀ c ∈ s, c.toNat < 128) : Plain allow s :=
  Or.inr (fun c hc => isConfusing_ascii (hs c hc))

theorem plain_parts {allow : Bool} {s t : Text} (h : Plain allow (s ++ t)) : Plain allow s ∧ Plain allow t :=
  ⟨h.imp_right (fun h c hc => h c (List.mem_append_left _ hc)),
    h.imp_right (fun h c hc => h c (List.mem_append_right _ hc))⟩

theorem plain_both {allow : Bool} {s t : Text} (h1 : Plain allow s) (h2 : Plain allow t) :
    Plain allow (s ++ t) := by
  rcases h1 with h1 | h1
  · exact Or.inl h1
  · rcases h2 with h2 | h2
    · exact Or.inl h2
    · refine Or.inr (fun c hc => ?_)
      rcases List.mem_append.mp hc with hc | hc
      · exact h1 c hc
      · exact h2 c hc

theorem wsChar_iff (c : Char) : wsChar c = true ↔ isWs c := by
  unfold wsChar isWsCode isWs
  simp only [Bool.or_eq_true, beq_iff_eq]
  have e : ∀ d : Char, c = d ↔ c.toNat = d.toNat := fun d => ⟨fun h => by rw [h], char_ext⟩
  rw [e, e, e, e]
  change (((c.toNat = 32 ∨ c.toNat = 9) ∨ c.toNat = 10) ∨ c.toNat = 13) ↔
    (c.toNat = 32 ∨ c.toNat = 9 ∨ c.toNat = 10 ∨ c.toNat = 13)
  omega

theorem notNl_iff (c : Char) : notNl c = true ↔ ¬ isNl c := by
  unfold notNl isNl
  simp

/-- A maximal run of characters. -/
theorem span_iff (f : Char → Bool) (t rest : Text) (h1 : ∀ c ∈ t, f c = true)
    (h2 : ∀ c ∈ rest.head?, f c = false) :
    (t ++ rest).takeWhile f = t ∧ (t ++ rest).dropWhile f = rest := by
  rw [List.takeWhile_append_of_pos h1, List.dropWhile_append_of_pos h1]
  cases rest with
  | nil => simp
  | cons c r =>
    have := h2 c rfl
    simp [List.takeWhile_cons, List.dropWhile_cons, this]

theorem span_sound (f : Char → Bool) (s : Text) :
    (∀ c ∈ s.takeWhile f, f c = true) ∧ (∀ c ∈ (s.dropWhile f).head?, f c = false) := by
  constructor
  · intro c hc
    have h := List.all_takeWhile (p := f) (l := s)
    rw [List.all_eq_true] at h
    exact h c hc
  · intro c hc
    have := List.head?_dropWhile_not f s
    rw [Option.mem_def] at hc
    rw [hc] at this
    simpa using this

/-! ## Words -/

theorem strlit_plain_parts {body : Text} {allow : Bool} (h : Plain allow ('"' :: body ++ ['"'])) :
    Plain allow body :=
  (plain_parts (plain_parts (s := ['"']) (t := body ++ ['"']) (by simpa using h)).2).1

theorem pieces_ok {strict allow : Bool} {ps : List Bool} {t : Text} (h : Pieces strict ps t) :
    Plain allow t → ∀ fuel n m rest, ps.length < fuel → EndsWord rest →
      resChars allow fuel n m (t ++ rest) = .ok (n + ps.count false, m + ps.count true, rest) := by
  induction h with
  | nil =>
    intro _ fuel n m rest hf hr
    obtain ⟨k, rfl⟩ : ∃ k, fuel = k + 1 := ⟨fuel - 1, by simp at hf; omega⟩
    rw [List.nil_append]
    cases rest with
    | nil => rfl
    | cons c r =>
      obtain ⟨h1, h2⟩ := hr c rfl
      rw [resChars, h1, if_neg (by simp), if_neg h2]
      rfl
  | @char c ps t hc h ih =>
    intro hp fuel n m rest hf hr
    obtain ⟨k, rfl⟩ : ∃ k, fuel = k + 1 := ⟨fuel - 1, by simp at hf; omega⟩
    have hp' := (plain_parts (s := [c]) hp).2
    rw [List.cons_append, resChars, if_pos hc, ih hp' k _ _ rest (by simp at hf; omega) hr]
    simp; omega
  | @string s bs ps t hs h ih =>
    intro hp fuel n m rest hf hr
    obtain ⟨k, rfl⟩ : ∃ k, fuel = k + 1 := ⟨fuel - 1, by simp at hf; omega⟩
    obtain ⟨hp1, hp2⟩ := plain_parts hp
    obtain ⟨body, rfl, hb⟩ := hs
    have hbody := strlit_plain_parts hp1
    have e : '"' :: body ++ ['"'] ++ t ++ rest = '"' :: (body ++ '"' :: (t ++ rest)) := by simp
    rw [e, resChars, if_neg (by decide), if_pos rfl, parseStr_ok hb hbody]
    simp only
    rw [ih hp2 k _ _ rest (by simp at hf; omega) hr]
    simp; omega

theorem pieces_sound {allow : Bool} : ∀ fuel (r : Text) n m n' m' r',
    resChars allow fuel n m r = .ok (n', m', r') →
    ∃ ps t, r = t ++ r' ∧ Pieces false ps t ∧ Plain allow t ∧ n' = n + ps.count false ∧
      m' = m + ps.count true ∧ EndsWord r' := by
  intro fuel
  induction fuel with
  | zero => intro r n m n' m' r' h; cases h
  | succ fuel ih =>
    intro r n m n' m' r' h
    cases r with
    | nil =>
      cases h
      exact ⟨[], [], rfl, .nil, Or.inr (by simp), rfl, rfl, by intro c hc; cases hc⟩
    | cons c r =>
      rw [resChars] at h
      by_cases h1 : isIdCode c.toNat
      · rw [if_pos h1] at h
        obtain ⟨ps, t, ht, hp, hpl, hn, hm, he⟩ := ih _ _ _ _ _ _ h
        refine ⟨false :: ps, c :: t, by rw [ht]; rfl, .char h1 hp, ?_, ?_, ?_, he⟩
        · exact plain_both (s := [c]) (plain_of_ascii (by simp [isIdCode_lt h1])) hpl
        · rw [hn]; simp; omega
        · rw [hm]; simp
      · rw [if_neg h1] at h
        by_cases h2 : c = '"'
        · rw [if_pos h2] at h
          cases hp : parseStr allow r with
          | mk res it =>
            rw [hp] at h
            cases res with
            | error e =>
              simp only at h
              split at h <;> cases h
            | ok bs =>
              obtain ⟨body, hr, hb, hbp⟩ := parseStr_sound hp
              obtain ⟨ps, t, ht, hps, hpl, hn, hm, he⟩ := ih _ _ _ _ _ _ h
              refine ⟨true :: ps, ('"' :: body ++ ['"']) ++ t, ?_, .string ⟨body, rfl, hb⟩ hps, ?_, ?_, ?_, he⟩
              · rw [hr, ht, h2]; simp
              · refine plain_both ?_ hpl
                refine plain_both (s := '"' :: body) ?_ (plain_of_ascii (by decide))
                exact plain_both (s := ['"']) (plain_of_ascii (by decide)) hbp
              · rw [hn]; simp
              · rw [hm]; simp; omega
        · rw [if_neg h2] at h
          cases h
          refine ⟨[], [], rfl, .nil, Or.inr (by simp), rfl, rfl, ?_⟩
          intro x hx
          simp only [List.head?_cons, Option.mem_def, Option.some.injEq] at hx
          subst hx
          exact ⟨by simpa using h1, h2⟩

theorem pieces_of_idchars {strict : Bool} {t : Text} (h : IdChars t) :
    Pieces strict (List.replicate t.length false) t := by
  induction t with
  | nil => exact .nil
  | cons c t ih => exact .char (h c (by simp)) (ih (fun d hd => h d (by simp [hd])))

theorem pieces_length {strict : Bool} {ps : List Bool} {t : Text} (h : Pieces strict ps t) :
    ps.length ≤ t.length := by
  induction h with
  | nil => simp
  | char _ _ ih => simp; exact ih
  | string hs _ ih =>
    obtain ⟨body, rfl, -⟩ := hs
    simp; omega

theorem idchars_of_pieces {strict : Bool} {ps : List Bool} {t : Text} (h : Pieces strict ps t)
    (h0 : ps.count true = 0) : IdChars t := by
  induction h with
  | nil => intro c hc; cases hc
  | char hc _ ih =>
    intro x hx
    rcases List.mem_cons.mp hx with rfl | hx
    · exact hc
    · exact ih (by simpa using h0) x hx
  | string => simp at h0

theorem idCode_of_digit {base : Nat} {c : Char} {d : Nat} (h : toDigit base c = some d) :
    isIdCode c.toNat = true := by
  have hne : digitVal c ≠ none := by
    intro e; rw [toDigit, e] at h; cases h
  rw [digitVal_eq] at hne
  simp only [isIdCode, Bool.or_eq_true, Bool.and_eq_true, decide_eq_true_eq]
  by_cases h1 : 0x30 ≤ c.toNat ∧ c.toNat ≤ 0x39
  · omega
  · by_cases h2 : 0x61 ≤ c.toNat ∧ c.toNat ≤ 0x7a
    · omega
    · by_cases h3 : 0x41 ≤ c.toNat ∧ c.toNat ≤ 0x5a
      · omega
      · rw [if_neg h1, if_neg h2, if_neg h3] at hne; exact absurd rfl hne

theorem idchars_append {s t : Text} (h1 : IdChars s) (h2 : IdChars t) : IdChars (s ++ t) := by
  intro c hc
  rcases List.mem_append.mp hc with hc | hc
  · exact h1 c hc
  · exact h2 c hc

theorem idchars_cons {c : Char} {t : Text} (h1 : isIdCode c.toNat = true) (h2 : IdChars t) :
    IdChars (c :: t) := idchars_append (s := [c]) (by intro x hx; simp at hx; rwa [hx]) h2

theorem idchars_digits {base : Nat} {strict : Bool} {t : Text} {n : Nat} (h : Digits base strict t n) :
    IdChars t := by
  induction h with
  | one h => exact idchars_cons (idCode_of_digit h) (by intro c hc; cases hc)
  | more h1 hu hs hc ih =>
    refine idchars_append (idchars_append ih ?_) (idchars_cons (idCode_of_digit hc) (by intro c hc; cases hc))
    intro c hc
    rw [hu c hc]; decide

theorem idchars_sgn {sg : Option Sign} {s : Text} (h : Sgn sg s) : IdChars s := by
  cases h <;> (unfold IdChars; decide)

theorem idchars_base {hex : Bool} {base : Nat} {p : Text} (h : Base hex base p) : IdChars p := by
  cases h <;> (unfold IdChars; decide)

theorem idchars_frac {base : Nat} {f : Text} (h : Frac base f) : IdChars f := by
  cases h with
  | none => unfold IdChars; decide
  | dot => unfold IdChars; decide
  | digits h => exact idchars_cons (by decide) (idchars_digits h)

theorem idchars_exp {hex : Bool} {e : Text} (h : Exp hex e) : IdChars e := by
  cases h with
  | none => unfold IdChars; decide
  | some he hs ht =>
    rw [List.cons_append]
    refine idchars_cons ?_ (idchars_append (idchars_sgn hs) (idchars_digits ht))
    split at he
    · rcases he with rfl | rfl <;> decide
    · rcases he with rfl | rfl <;> decide

theorem numTok_idchars {k : TokenKind} {t : Text} (h : NumTok k t) : IdChars t := by
  cases h with
  | int hs hb ht => exact idchars_append (idchars_append (idchars_sgn hs) (idchars_base hb)) (idchars_digits ht)
  | inf hs => exact idchars_append (idchars_sgn hs) (by unfold IdChars; decide)
  | nan hs => exact idchars_append (idchars_sgn hs) (by unfold IdChars; decide)
  | nanVal hs ht =>
    exact idchars_append (idchars_append (idchars_sgn hs) (by unfold IdChars; decide)) (idchars_digits ht)
  | float hs hb ht hf he hne =>
    exact idchars_append (idchars_append (idchars_sgn hs) (idchars_base hb))
      (idchars_append (idchars_append (idchars_digits ht) (idchars_frac hf)) (idchars_exp he))

theorem numTok_ne {k : TokenKind} {t : Text} (h : NumTok k t) : t ≠ [] := by
  cases h with
  | int hs hb ht => obtain ⟨c, d, t', rfl, -⟩ := digits_head ht; simp
  | inf hs => simp
  | nan hs => simp
  | nanVal hs ht => simp
  | float hs hb ht hf he hne => obtain ⟨c, d, t', rfl, -⟩ := digits_head ht; simp

theorem numTok_kind {k : TokenKind} {t : Text} (h : NumTok k t) : k ≠ .reserved := by
  cases h <;> simp

theorem word_kind {strict : Bool} {k : TokenKind} {t : Text} (h : Word strict k t) : k ≠ .reserved := by
  cases h with
  | number h => exact numTok_kind h
  | _ => simp

theorem not_num_dollar (t : Text) : classifyNumber ('$' :: t) = none := rfl
theorem not_num_at (t : Text) : classifyNumber ('@' :: t) = none := rfl

theorem pieces_head {strict : Bool} {ps : List Bool} {c : Char} {t : Text} (hp : Pieces strict ps (c :: t)) :
    isIdCode c.toNat = true ∨ c = '"' := by
  generalize hs : c :: t = s at hp
  cases hp with
  | nil => cases hs
  | char h _ => cases hs; exact Or.inl h
  | string h _ =>
    obtain ⟨body, rfl, -⟩ := h
    rw [List.cons_append, List.cons_append] at hs
    cases hs
    exact Or.inr rfl

theorem pieces_empty {strict : Bool} {ps : List Bool} (hp : Pieces strict ps []) : ps = [] := by
  have := pieces_length hp
  exact List.length_eq_zero_iff.mp (by simpa using this)

theorem tok_word {strict allow : Bool} {k : TokenKind} {c : Char} {t rest : Text}
    (h : Tok strict allow k (c :: t) rest) (hc : isIdCode c.toNat = true ∨ c = '"') :
    Word strict k (c :: t) ∨ k = .reserved := by
  generalize hs : c :: t = s at h
  cases h with
  | word hw _ _ => exact Or.inl hw
  | reserved _ _ _ _ _ => exact Or.inr rfl
  | semicolon _ => exact Or.inr rfl
  | punct _ => exact Or.inr rfl
  | lparen _ => cases hs; exact absurd hc (by decide)
  | rparen => cases hs; exact absurd hc (by decide)
  | lineComment _ _ _ => cases hs; exact absurd hc (by decide)
  | blockComment _ _ => cases hs; exact absurd hc (by decide)
  | whitespace _ h2 _ =>
    have := h2 c (by rw [← hs]; simp)
    rcases this with rfl | rfl | rfl | rfl <;> exact absurd hc (by decide)

/-- What the lexer does with a token of identifier characters and strings. -/
theorem lex_word {allow : Bool} {strict : Bool} {ps : List Bool} {c : Char} {t rest : Text} {k : ReservedKind}
    (hp : Pieces strict ps (c :: t)) (hne : ps ≠ []) (hpl : Plain allow (c :: t)) (he : EndsWord rest)
    (hk : reservedKind (ps.count false) (ps.count true) (c :: t) = some k) :
    lexChars allow (c :: t ++ rest) = .tok (tokenOfReserved c.toNat k (c :: t)) rest := by
  have hc := pieces_head hp
  have n1 : c ≠ '(' := by rintro rfl; revert hc; decide
  have n2 : c ≠ ')' := by rintro rfl; revert hc; decide
  have n3 : ¬ wsChar c = true := by
    rw [wsChar_iff]; rintro (rfl | rfl | rfl | rfl) <;> (revert hc; decide)
  have n4 : (isIdCode c.toNat || decide (c = '"')) = true := by simpa using hc
  have hlen := pieces_length hp
  have hr := pieces_ok hp hpl ((c :: t ++ rest).length + 1) 0 0 rest (by
    rw [List.length_append]; omega) he
  rw [List.cons_append] at hr ⊢
  simp only [lexChars]
  rw [if_neg n1, if_neg n2, if_neg n3, if_pos n4, hr]
  simp only [Nat.zero_add]
  have htk : taken (c :: (t ++ rest)) rest = c :: t := by
    rw [← List.cons_append, taken_append]
  rw [htk, hk]

/-- Words of the grammar are lexed as such. -/
theorem word_ok {allow strict : Bool} {k : TokenKind} {t rest : Text} (h : Word strict k t)
    (hpl : Plain allow t) (he : EndsWord rest) : lexChars allow (t ++ rest) = .tok k rest := by
  have ids : ∀ {c : Char} {t : Text}, IdChars (c :: t) → Plain allow (c :: t) →
      lexChars allow (c :: t ++ rest) = .tok (tokenOfReserved c.toNat .idchars (c :: t)) rest := by
    intro c t hi hp
    refine lex_word (strict := true) (pieces_of_idchars hi) (by simp [List.replicate_succ]) hp he ?_
    simp only [List.count_replicate_self]
    rw [List.count_replicate]
    simp [reservedKind]
  have pre : ∀ {c : Char} {t : Text} {bs : List UInt8} (hc : isIdCode c.toNat = true), StrLit strict t bs →
      Plain allow (c :: t) → ∀ rk, reservedKind 1 1 (c :: t) = some rk →
      lexChars allow (c :: t ++ rest) = .tok (tokenOfReserved c.toNat rk (c :: t)) rest := by
    intro c t bs hc hs hp rk hk
    have hps : Pieces strict [false, true] (c :: t) := by
      have := Pieces.char hc (Pieces.string hs .nil)
      rwa [List.append_nil] at this
    exact lex_word hps (by simp) hp he hk
  cases h with
  | string hs =>
    have hps : Pieces strict [true] t := by
      have := Pieces.string hs .nil
      rwa [List.append_nil] at this
    obtain ⟨body, rfl, hb⟩ := hs
    rw [List.cons_append] at hps hpl ⊢
    rw [lex_word hps (by simp) hpl he (k := .string) (by simp [reservedKind])]
    rfl
  | number hn =>
    have hi := numTok_idchars hn
    have hne := numTok_ne hn
    have hc := classify_ok hn
    cases t with
    | nil => exact absurd rfl hne
    | cons c t =>
      rw [ids hi hpl]
      simp only [tokenOfReserved, hc]
  | id hi =>
    rw [ids (idchars_cons (by decide) hi) hpl]
    simp only [tokenOfReserved, not_num_dollar]
    rfl
  | annotation hi =>
    rw [ids (idchars_cons (by decide) hi) hpl]
    simp only [tokenOfReserved, not_num_at]
    rfl
  | idString hs =>
    rw [pre (by decide) hs hpl .idString rfl]
    rfl
  | annotationString hs =>
    rw [pre (by decide) hs hpl .annotationString rfl]
    rfl
  | @keyword c t h1 h2 hi hn =>
    have h1' : 0x61 ≤ c.toNat := h1
    have h2' : c.toNat ≤ 0x7a := h2
    have hc : isIdCode c.toNat = true := by
      simp only [isIdCode, Bool.or_eq_true, Bool.and_eq_true, decide_eq_true_eq]
      omega
    rw [ids (idchars_cons hc hi) hpl]
    have : classifyNumber (c :: t) = none := by
      cases hx : classifyNumber (c :: t) with
      | none => rfl
      | some k => exact absurd (classify_sound hx) (hn k)
    simp only [tokenOfReserved, this]
    rw [if_neg (by omega), if_neg (by omega), if_pos ⟨h1', h2'⟩]

/-- One string and one character that starts with `c`. -/
theorem pieces_one_one {ps : List Bool} {c : Char} {t : Text} (h : Pieces false ps (c :: t))
    (hf : ps.count false = 1) (ht : ps.count true = 1) (hc : c ≠ '"') : ∃ bs, StrLit false t bs := by
  generalize hs : c :: t = s at h
  cases h with
  | nil => cases hs
  | char hid hr =>
    cases hs
    cases hr with
    | nil => simp at ht
    | char _ _ => simp at hf
    | string hst hr2 =>
      cases hr2 with
      | nil => exact ⟨_, by rw [List.append_nil]; exact hst⟩
      | char _ _ => simp at hf
      | string _ _ => simp at ht
  | string hst hr =>
    obtain ⟨body, rfl, -⟩ := hst
    rw [List.cons_append, List.cons_append] at hs
    cases hs
    exact absurd rfl hc

/-- The word that was lexed is one of the grammar, or a reserved token. -/
theorem word_sound {allow : Bool} {ps : List Bool} {c : Char} {t rest : Text} {rk : ReservedKind}
    (hp : Pieces false ps (c :: t)) (hpl : Plain allow (c :: t)) (he : EndsWord rest)
    (hk : reservedKind (ps.count false) (ps.count true) (c :: t) = some rk) :
    Tok false allow (tokenOfReserved c.toNat rk (c :: t)) (c :: t) rest := by
  have hne : ps ≠ [] := by rintro rfl; cases hp
  have res : tokenOfReserved c.toNat rk (c :: t) = .reserved →
      Tok false allow (tokenOfReserved c.toNat rk (c :: t)) (c :: t) rest := by
    intro h
    rw [h]
    refine .reserved hp hne ?_ hpl he
    intro k hw
    have h1 := word_ok hw hpl he
    have h2 := lex_word hp hne hpl he hk
    rw [h2, h] at h1
    injection h1 with h3 _
    exact word_kind hw h3.symm
  unfold reservedKind at hk
  split at hk
  · cases hk
  · split at hk
    · next h2 =>
      cases hk
      refine .word (.string (bs := ?_) ?_) hpl he
      · exact (parseStr true t).1.toOption.getD []
      · generalize hs : c :: t = s at hp
        cases hp with
        | nil => cases hs
        | char _ _ => simp at h2
        | string hst hr =>
          cases hr with
          | nil =>
            obtain ⟨body, hbd, hb⟩ := hst
            rw [List.append_nil] at hs
            rw [List.append_nil]
            refine ⟨body, hbd, ?_⟩
            rw [hbd, List.cons_append] at hs
            cases hs
            rw [parseStr_ok hb (Or.inl rfl)]
            exact hb
          | char _ _ => simp at h2
          | string _ _ => simp at h2
    · split at hk
      · next h3 =>
        cases hk
        have hi := idchars_of_pieces hp h3
        have hi' : IdChars t := fun x hx => hi x (by simp [hx])
        cases hcl : classifyNumber (c :: t) with
        | some k =>
          simp only [tokenOfReserved, hcl]
          exact .word (.number (classify_sound hcl)) hpl he
        | none =>
          have hnn : ∀ k, ¬ NumTok k (c :: t) := by
            intro k hn
            rw [classify_ok hn] at hcl; cases hcl
          by_cases e1 : c.toNat = 0x24
          · obtain rfl : c = '$' := char_ext e1
            have : tokenOfReserved '$'.toNat .idchars ('$' :: t) = .id := by
              simp only [tokenOfReserved, hcl]; rfl
            rw [this]
            exact .word (.id hi') hpl he
          · by_cases e2 : c.toNat = 0x40
            · obtain rfl : c = '@' := char_ext e2
              have : tokenOfReserved '@'.toNat .idchars ('@' :: t) = .annotation := by
                simp only [tokenOfReserved, hcl]; rfl
              rw [this]
              exact .word (.annotation hi') hpl he
            · by_cases e3 : 0x61 ≤ c.toNat ∧ c.toNat ≤ 0x7a
              · have : tokenOfReserved c.toNat .idchars (c :: t) = .keyword := by
                  simp only [tokenOfReserved, hcl]
                  rw [if_neg e1, if_neg e2, if_pos e3]
                rw [this]
                exact .word (.keyword e3.1 e3.2 hi' hnn) hpl he
              · apply res
                simp only [tokenOfReserved, hcl]
                rw [if_neg e1, if_neg e2, if_neg e3]
      · split at hk
        · next h4 =>
          cases hk
          obtain ⟨h5, h6, h7⟩ := h4
          simp only [List.head?_cons, Option.some.injEq] at h7
          subst h7
          obtain ⟨bs, hs⟩ := pieces_one_one hp h5 h6 (by decide)
          exact .word (.idString hs) hpl he
        · split at hk
          · next h4 =>
            cases hk
            obtain ⟨h5, h6, h7⟩ := h4
            simp only [List.head?_cons, Option.some.injEq] at h7
            subst h7
            obtain ⟨bs, hs⟩ := pieces_one_one hp h5 h6 (by decide)
            exact .word (.annotationString hs) hpl he
          · cases hk
            exact res rfl

/-! ## All tokens -/

theorem lex_ok {allow strict : Bool} {k : TokenKind} {t rest : Text} (h : Tok strict allow k t rest)
    (hs : strict = false ∨ k ≠ .reserved) : lexChars allow (t ++ rest) = .tok k rest := by
  cases h with
  | lparen h =>
    cases rest with
    | nil => rfl
    | cons d r =>
      have : d ≠ ';' := by simpa using h
      simp only [List.cons_append, List.nil_append, lexChars, if_true]
      rw [if_neg this]
  | rparen => rfl
  | whitespace hne hw hr =>
    cases t with
    | nil => exact absurd rfl hne
    | cons c t =>
      have hc := hw c (by simp)
      have hsp := span_iff wsChar (c :: t) rest (fun x hx => (wsChar_iff x).mpr (hw x hx))
        (fun x hx => by have := hr x hx; rw [← wsChar_iff] at this; simpa using this)
      have n1 : c ≠ '(' := by rintro rfl; revert hc; unfold isWs; decide
      have n2 : c ≠ ')' := by rintro rfl; revert hc; unfold isWs; decide
      rw [List.cons_append] at hsp ⊢
      simp only [lexChars]
      rw [if_neg n1, if_neg n2, if_pos ((wsChar_iff c).mpr hc), hsp.2]
  | @lineComment t _ hl hr hp =>
    have hsp := span_iff notNl (';' :: ';' :: t) rest (fun x hx => by
        rw [notNl_iff]
        rcases List.mem_cons.mp hx with rfl | hx
        · unfold isNl; decide
        · rcases List.mem_cons.mp hx with rfl | hx
          · unfold isNl; decide
          · exact hl x hx)
      (fun x hx => by have := hr x hx; have hn := mt (notNl_iff x).mp (not_not_intro this); simpa using hn)
    rw [List.cons_append, List.cons_append] at hsp ⊢
    have : lexChars allow (';' :: ';' :: (t ++ rest)) = commentChars allow .lineComment
        ((';' :: ';' :: (t ++ rest)).takeWhile notNl) ((';' :: ';' :: (t ++ rest)).dropWhile notNl) := rfl
    rw [this, hsp.1, hsp.2, comment_iff]
    exact ⟨rfl, rfl, (plain_append (s := [';', ';']) (by decide)).mpr hp⟩
  | @blockComment t _ hb hp =>
    have : lexChars allow ('(' :: ';' :: (t ++ rest)) =
        match blockChars 1 (t ++ rest) with
        | none => .err ('(' :: ';' :: (t ++ rest)) .danglingBlockComment
        | some r => commentChars allow .blockComment (taken ('(' :: ';' :: (t ++ rest)) r) r := rfl
    rw [List.cons_append, List.cons_append, this, block_ok hb]
    simp only
    have htk : taken ('(' :: ';' :: (t ++ rest)) rest = '(' :: ';' :: t := by
      rw [← List.cons_append, ← List.cons_append, taken_append]
    rw [htk, comment_iff]
    exact ⟨rfl, rfl, (plain_append (s := ['(', ';']) (by decide)).mpr hp⟩
  | word hw hp he => exact word_ok hw hp he
  | @reserved ps _ _ hp hne hnw hpl he =>
    rcases hs with rfl | hs
    · have hk : ∃ rk, reservedKind (ps.count false) (ps.count true) t = some rk := by
        have : ¬ (ps.count false = 0 ∧ ps.count true = 0) := by
          rintro ⟨h1, h2⟩
          cases ps with
          | nil => exact hne rfl
          | cons b ps => cases b <;> simp at h1 h2
        unfold reservedKind
        rw [if_neg this]
        split
        · exact ⟨_, rfl⟩
        · split
          · exact ⟨_, rfl⟩
          · split
            · exact ⟨_, rfl⟩
            · split <;> exact ⟨_, rfl⟩
      obtain ⟨rk, hk⟩ := hk
      cases t with
      | nil => exact absurd (pieces_empty hp) hne
      | cons c t =>
        rw [lex_word hp hne hpl he hk]
        rcases tok_word (word_sound (allow := allow) hp hpl he hk) (pieces_head hp) with hw | hw
        · exact absurd hw (hnw _)
        · rw [hw]
    · exact absurd rfl hs
  | semicolon h =>
    cases rest with
    | nil => rfl
    | cons d r =>
      have : d ≠ ';' := by simpa using h
      have e : lexChars allow ([';'] ++ d :: r) = if d = ';' then commentChars allow .lineComment
        ((';' :: d :: r).takeWhile notNl) ((';' :: d :: r).dropWhile notNl) else .tok .reserved (d :: r) := rfl
      rw [e, if_neg this]
  | @punct c _ h =>
    simp only [List.mem_cons, List.not_mem_nil, or_false] at h
    rcases h with rfl | rfl | rfl | rfl | rfl <;> rfl

theorem lex_sound {allow : Bool} {s : Text} {k : TokenKind} {rest : Text}
    (h : lexChars allow s = .tok k rest) : ∃ t, s = t ++ rest ∧ t ≠ [] ∧ Tok false allow k t rest := by
  cases s with
  | nil => cases h
  | cons c r =>
    simp only [lexChars] at h
    by_cases e1 : c = '('
    · rw [if_pos e1] at h
      subst e1
      cases r with
      | nil => cases h; exact ⟨['('], rfl, by simp, .lparen (by simp)⟩
      | cons d r' =>
        simp only at h
        by_cases e2 : d = ';'
        · rw [if_pos e2] at h
          subst e2
          cases hb : blockChars 1 r' with
          | none => rw [hb] at h; cases h
          | some rest' =>
            rw [hb] at h
            simp only at h
            obtain ⟨t, ht, hbr⟩ := block_sound _ r' (Nat.le_refl _) 1 _ (Nat.le_refl _) hb
            have htk : taken ('(' :: ';' :: r') rest' = '(' :: ';' :: t := by
              rw [ht, ← List.cons_append, ← List.cons_append, taken_append]
            rw [htk, comment_iff] at h
            obtain ⟨rfl, rfl, hp⟩ := h
            exact ⟨'(' :: ';' :: t, by rw [ht]; rfl, by simp,
              .blockComment hbr ((plain_append (s := ['(', ';']) (by decide)).mp hp)⟩
        · rw [if_neg e2] at h
          cases h
          exact ⟨['('], rfl, by simp, .lparen (by simpa using e2)⟩
    · rw [if_neg e1] at h
      by_cases e2 : c = ')'
      · rw [if_pos e2] at h
        cases h
        exact ⟨[')'], by rw [e2]; rfl, by simp, .rparen⟩
      · rw [if_neg e2] at h
        by_cases e3 : wsChar c
        · rw [if_pos e3] at h
          cases h
          obtain ⟨h1, h2⟩ := span_sound wsChar (c :: r)
          refine ⟨(c :: r).takeWhile wsChar, (List.takeWhile_append_dropWhile).symm, ?_, ?_⟩
          · rw [List.takeWhile_cons, if_pos e3]; simp
          · refine .whitespace ?_ (fun x hx => (wsChar_iff x).mp (h1 x hx)) (fun x hx => ?_)
            · rw [List.takeWhile_cons, if_pos e3]; simp
            · rw [← wsChar_iff, h2 x hx]; simp
        · rw [if_neg e3] at h
          by_cases e4 : (isIdCode c.toNat || decide (c = '"')) = true
          · rw [if_pos e4] at h
            cases hr : resChars allow ((c :: r).length + 1) 0 0 (c :: r) with
            | error p => obtain ⟨a, e⟩ := p; rw [hr] at h; cases h
            | ok p =>
              obtain ⟨n, m, rest'⟩ := p
              rw [hr] at h
              simp only at h
              obtain ⟨ps, t, ht, hp, hpl, hn, hm, he⟩ := pieces_sound _ _ _ _ _ _ _ hr
              have hpos := (resChars_first (by simpa using e4) hr).1
              rw [Nat.zero_add] at hn hm
              subst hn hm
              have htk : taken (c :: r) rest' = t := by rw [ht, taken_append]
              rw [htk] at h
              cases t with
              | nil =>
                rw [pieces_empty hp] at hpos
                simp at hpos
              | cons c' t =>
                have hcc : c = c' := by rw [List.cons_append] at ht; exact (List.cons.inj ht).1
                subst hcc
                cases hk : reservedKind (ps.count false) (ps.count true) (c :: t) with
                | none => rw [hk] at h; cases h
                | some rk =>
                  rw [hk] at h
                  cases h
                  exact ⟨c :: t, ht, by simp, word_sound hp hpl he hk⟩
          · rw [if_neg e4] at h
            by_cases e5 : c = ';'
            · rw [if_pos e5] at h
              subst e5
              cases r with
              | nil => cases h; exact ⟨[';'], rfl, by simp, .semicolon (by simp)⟩
              | cons d r' =>
                simp only at h
                by_cases e6 : d = ';'
                · rw [if_pos e6] at h
                  subst e6
                  rw [comment_iff] at h
                  obtain ⟨rfl, rfl, hp⟩ := h
                  obtain ⟨h1, h2⟩ := span_sound notNl (';' :: ';' :: r')
                  have htw : (';' :: ';' :: r').takeWhile notNl = ';' :: ';' :: r'.takeWhile notNl := rfl
                  rw [htw] at h1 hp
                  refine ⟨';' :: ';' :: r'.takeWhile notNl, ?_, by simp, .lineComment ?_ ?_ ?_⟩
                  · rw [← htw, List.takeWhile_append_dropWhile]
                  · intro x hx
                    exact (notNl_iff x).mp (h1 x (by simp [hx]))
                  · intro x hx
                    have := h2 x hx
                    exact Classical.byContradiction (fun hn => by
                      rw [(notNl_iff x).mpr hn] at this; cases this)
                  · exact (plain_append (s := [';', ';']) (by decide)).mp hp
                · rw [if_neg e6] at h
                  cases h
                  exact ⟨[';'], rfl, by simp, .semicolon (by simpa using e6)⟩
            · rw [if_neg e5] at h
              by_cases e6 : c = ',' ∨ c = '[' ∨ c = ']' ∨ c = '{' ∨ c = '}'
              · rw [if_pos e6] at h
                cases h
                exact ⟨[c], rfl, by simp, .punct (by simpa using e6)⟩
              · rw [if_neg e6] at h
                cases h

end Verif.Wat
