import Verif.Wave.Lex
/-
What the lexer and the unescaping functions make of the literals the writer writes.
-/
namespace Verif.Wave

open Verif.Std

theorem takeWhile_prefix {p : Char → Bool} {a b : Text} (ha : ∀ c ∈ a, p c = true)
    (hb : ∀ c ∈ b.head?, p c = false) : (a ++ b).takeWhile p = a ∧ (a ++ b).dropWhile p = b := by
  induction a with
  | nil =>
    cases b with
    | nil => simp
    | cons c b => simp [hb c (by simp)]
  | cons c a ih =>
    have := ih fun c hc => ha c (by simp [hc])
    simp [ha c (by simp), this]

theorem isHex_digitChar {d : Nat} (h : d < 16) : isHex d.digitChar = true := by
  have : ∀ d : Fin 16, isHex d.val.digitChar = true := by decide
  exact this ⟨d, h⟩

theorem isDigit_digitChar {d : Nat} (h : d < 10) : isDigit d.digitChar = true := by
  have : ∀ d : Fin 10, isDigit d.val.digitChar = true := by decide
  exact this ⟨d, h⟩

theorem hexDigits_all (n : Nat) : ∀ c ∈ Nat.toDigits 16 n, isHex c = true := by
  intro c hc
  obtain ⟨d, hd, rfl⟩ := mem_toDigits (by omega) n hc
  exact isHex_digitChar hd

theorem char_lt (c : Char) : c.toNat < 0x110000 := by
  have := c.valid
  rcases this with h | h
  · exact Nat.lt_trans h (by decide)
  · exact h.2

theorem hexDigits_length (c : Char) : (Nat.toDigits 16 c.toNat).length ≤ 6 := by
  rw [Nat.length_toDigits_le_iff (by omega) (by omega)]
  exact Nat.lt_trans (char_lt c) (by decide)

theorem charFromU32_toNat (c : Char) : charFromU32 c.toNat = some c := by
  unfold charFromU32
  have hv : c.toNat.isValidChar := c.valid
  rw [dif_pos hv]
  rfl

theorem unescapeHex_digits (ds : Text) (val digits v : Nat) (r : Text)
    (h : readDigits 16 val ds = some v) (h6 : digits + ds.length ≤ 6)
    (h0 : 0 < digits + ds.length) :
    unescapeHex val digits (ds ++ '}' :: r) = some (v, digits + ds.length, r) := by
  induction ds generalizing val digits with
  | nil =>
    simp only [readDigits, Option.some.injEq] at h
    simp only [List.length_nil, Nat.add_zero] at h0
    subst h
    simp [unescapeHex, Nat.ne_of_gt h0]
  | cons d ds ih =>
    simp only [readDigits] at h
    cases hd : toDigit 16 d with
    | none => simp [hd] at h
    | some x =>
      simp only [hd] at h
      have hne : d ≠ '}' := by
        rintro rfl
        have : toDigit 16 '}' = none := by decide
        rw [this] at hd; cases hd
      simp only [List.length_cons] at h6 h0 ⊢
      simp only [List.cons_append, unescapeHex, if_neg hne, hd,
        if_neg (show ¬ digits + 1 > 6 by omega)]
      rw [ih _ _ h (by omega) (by omega)]
      congr 3
      omega

variable {F D : Type} (E : Env F D)

/-- The escape sequences written are read as they are and give the character back. -/
def Escapes (c : Char) (e : Text) : Prop :=
  ∀ r, lexEscape ('\\' :: e ++ r) = some ('\\' :: e, r) ∧ unescape ('\\' :: e ++ r) = some (c, r)

theorem escapes_unicode (c : Char) : Escapes c ('u' :: '{' :: Nat.toDigits 16 c.toNat ++ ['}']) := by
  intro r
  have htw := takeWhile_prefix (p := isHex) (b := '}' :: r) (hexDigits_all c.toNat)
    (by simp; decide)
  have hne : Nat.toDigits 16 c.toNat ≠ [] := Nat.toDigits_ne_nil
  have hlen := hexDigits_length c
  constructor
  · simp only [List.cons_append, List.append_assoc, List.nil_append, lexEscape]
    rw [htw.1, htw.2, if_neg (by simp only [not_or]; exact ⟨hne, by omega⟩)]
    rfl
  · simp only [List.cons_append, List.append_assoc, List.nil_append, unescape]
    rw [unescapeHex_digits _ _ _ c.toNat _ (readDigits_toDigits (by omega) (by omega) _) (by omega)
      (by have := List.length_pos_iff.mpr hne; omega)]
    simp [charFromU32_toNat]

/-- How the writer writes a character. -/
theorem writeChar_cases (c : Char) :
    (writeChar E c = [c] ∧ c ≠ '\\' ∧ c ≠ '"' ∧ c ≠ '\'' ∧ c ≠ '\n') ∨
      ∃ e, writeChar E c = '\\' :: e ∧ Escapes c e := by
  unfold writeChar
  split_ifs with h1 h2 h3 h4 h5 h6 h7 h8
  · right; subst h1; exact ⟨_, rfl, fun r => ⟨rfl, rfl⟩⟩
  · right; subst h2; exact ⟨_, rfl, fun r => ⟨rfl, rfl⟩⟩
  · right; subst h3; exact ⟨_, rfl, fun r => ⟨rfl, rfl⟩⟩
  · right; subst h4; exact ⟨_, rfl, fun r => ⟨rfl, rfl⟩⟩
  · right; subst h5; exact ⟨_, rfl, fun r => ⟨rfl, rfl⟩⟩
  · right; subst h6; exact ⟨_, rfl, fun r => ⟨rfl, rfl⟩⟩
  · right; exact ⟨_, rfl, escapes_unicode c⟩
  · right; exact ⟨_, rfl, escapes_unicode c⟩
  · left; exact ⟨rfl, h1, h2, h3, h6⟩

/-! ### Characters -/

theorem lexChar_write (c : Char) (r : Text) :
    lexChar ('\'' :: writeChar E c ++ '\'' :: r) = some ('\'' :: writeChar E c ++ ['\''], r) := by
  rcases writeChar_cases E c with ⟨h, h1, h2, h3, h4⟩ | ⟨e, h, he⟩
  · rw [h]
    simp only [List.cons_append, List.nil_append]
    unfold lexChar
    split
    · exact absurd ‹'\'' :: c :: _ = _› (by simp [h1])
    · rename_i heq
      cases heq
      rw [if_neg (by simp [h3, h4])]
    · rename_i h' ; exact absurd rfl (h' _ _)
  · rw [h]
    have := (he ('\'' :: r)).1
    simp only [List.cons_append] at this
    simp only [List.cons_append, lexChar, this]

theorem asChar_write (c : Char) :
    asChar (.mk .char ('\'' :: writeChar E c ++ ['\'']) []) = some c := by
  unfold asChar
  rw [if_neg (by simp [Node.ty])]
  have : ((Node.mk .char ('\'' :: writeChar E c ++ ['\'']) []).text.drop 1).dropLast
      = writeChar E c := by simp [Node.text]
  rw [this]
  rcases writeChar_cases E c with ⟨h, h1, h2, h3, h4⟩ | ⟨e, h, he⟩
  · rw [h]
    split
    · exact absurd ‹_› (by simp)
    · exact absurd ‹[c] = _› (by simp [h1])
    · rename_i heq; cases heq; simp
  · rw [h]
    have := (he []).2
    simp only [List.append_nil] at this
    simp [this]

/-! ### Strings -/

theorem writeChar_length (c : Char) : 0 < (writeChar E c).length := by
  rcases writeChar_cases E c with ⟨h, _⟩ | ⟨e, h, _⟩ <;> simp [h]

theorem lexStringBody_write (s r : Text) (n : Nat) (hn : (s.flatMap (writeChar E)).length < n) :
    lexStringBody n (s.flatMap (writeChar E) ++ '"' :: r)
      = some (s.flatMap (writeChar E) ++ ['"'], r) := by
  induction s generalizing n with
  | nil =>
    obtain ⟨n, rfl⟩ : ∃ k, n = k + 1 := ⟨n - 1, by simp at hn; omega⟩
    rfl
  | cons c s ih =>
    obtain ⟨n, rfl⟩ : ∃ k, n = k + 1 := ⟨n - 1, by simp at hn; omega⟩
    have hpos := writeChar_length E c
    simp only [List.flatMap_cons, List.length_append] at hn
    have ih := ih n (by omega)
    simp only [List.flatMap_cons, List.append_assoc]
    rcases writeChar_cases E c with ⟨h, h1, h2, h3, h4⟩ | ⟨e, h, he⟩
    · rw [h]
      simp only [List.cons_append, List.nil_append]
      unfold lexStringBody
      split
      · exact absurd ‹_› (by simp)
      · exact absurd ‹c :: _ = _› (by simp [h2])
      · exact absurd ‹c :: _ = _› (by simp [h4])
      · exact absurd ‹c :: _ = _› (by simp [h1])
      · rename_i heq; cases heq; simp [ih]
    · rw [h]
      have := (he (List.flatMap (writeChar E) s ++ '"' :: r)).1
      simp only [List.cons_append] at this
      simp only [List.cons_append, lexStringBody, this, ih]
      simp

theorem lexString_write (s r : Text) (hr : s = [] → r.head? ≠ some '"') :
    lexString ('"' :: s.flatMap (writeChar E) ++ '"' :: r)
      = some (.string, '"' :: s.flatMap (writeChar E) ++ ['"'], r) := by
  have hb := lexStringBody_write E s r
  simp only [List.cons_append]
  generalize hw : List.flatMap (writeChar E) s ++ '"' :: r = w at hb ⊢
  unfold lexString
  split
  · rename_i heq
    exfalso
    simp only [List.cons.injEq, true_and] at heq
    subst heq
    cases s with
    | nil =>
      simp only [List.flatMap_nil, List.nil_append, List.cons.injEq, true_and] at hw
      exact hr rfl (by simp [hw])
    | cons c s =>
      rw [List.flatMap_cons] at hw
      rcases writeChar_cases E c with ⟨h, h1, h2, h3, h4⟩ | ⟨e, h, he⟩
      · rw [h] at hw; simp [h2] at hw
      · rw [h] at hw; simp at hw
  · rename_i heq
    simp only [List.cons.injEq, true_and] at heq
    subst heq
    rw [hb _ (by rw [← hw]; simp; omega)]
    rfl
  · rename_i h'; exact absurd rfl (h' _)

/-- The unescaping loop on the written text: the parts the code takes are longer than one
character, but the result is the same. -/
theorem stringParts_fuel (n m : Nat) (s : Text) (hn : s.length < n) (hm : s.length < m) :
    stringParts n s = stringParts m s := by
  induction n generalizing m s with
  | zero => omega
  | succ n ih =>
    obtain ⟨m, rfl⟩ : ∃ k, m = k + 1 := ⟨m - 1, by omega⟩
    unfold stringParts
    split
    · rfl
    · rename_i r
      split
      · rfl
      · rename_i ch r' hu
        have : r'.length < ('\\' :: r).length := by
          have hx : ∀ (ds : Text) (v k v' k' : Nat) (q : Text),
              unescapeHex v k ds = some (v', k', q) → q.length < ds.length := by
            intro ds
            induction ds with
            | nil => intro v k v' k' q h; simp [unescapeHex] at h
            | cons d ds ihd =>
              intro v k v' k' q h
              unfold unescapeHex at h
              split at h
              · split at h
                · cases h
                · cases h; simp
              · split at h
                · cases h
                · split at h
                  · cases h
                  · have := ihd _ _ _ _ _ h; simp; omega
          unfold unescape at hu
          split at hu
          · rename_i heq
            cases heq
            split at hu
            any_goals (cases hu; simp only [List.length_cons]; omega)
            · split at hu
              · split at hu
                · cases hu
                · rename_i h2
                  simp only [Option.map_eq_some_iff, Prod.mk.injEq] at hu
                  obtain ⟨_, _, _, rfl⟩ := hu
                  have := hx _ _ _ _ _ _ h2
                  simp; omega
              · cases hu
            · cases hu
          · cases hu
        simp only [List.length_cons] at hn hm this
        rw [ih m r' (by omega) (by omega)]
    · rename_i h1 h2
      have hlt : (List.dropWhile (fun x => x != '\\') s).length < s.length := by
        cases s with
        | nil => exact absurd rfl h1
        | cons c s =>
          have hc : c ≠ '\\' := by rintro rfl; exact h2 _ rfl
          have := (List.dropWhile_suffix (l := s) (fun x => x != '\\')).length_le
          simp [hc]
          omega
      rw [ih m _ (by omega) (by omega)]

/-- Decoding a text character by character. -/
theorem stringParts_plain {c : Char} (hc : c ≠ '\\') (s : Text) (n : Nat) (hn : s.length < n) :
    stringParts (n + 1) (c :: s) = (stringParts n s).map (c :: ·) := by
  obtain ⟨n, rfl⟩ : ∃ k, n = k + 1 := ⟨n - 1, by omega⟩
  conv_lhs => unfold stringParts
  split
  · exact absurd ‹_› (by simp)
  · exact absurd ‹c :: _ = _› (by simp [hc])
  · have hd : List.dropWhile (fun x => x != '\\') (c :: s)
        = List.dropWhile (fun x => x != '\\') s := by simp [hc]
    have ht : List.takeWhile (fun x => x != '\\') (c :: s)
        = c :: List.takeWhile (fun x => x != '\\') s := by simp [hc]
    rw [hd, ht]
    cases s with
    | nil => simp [stringParts]
    | cons c' s =>
      by_cases hc' : c' = '\\'
      · subst hc'
        have hd : List.dropWhile (fun x => x != '\\') ('\\' :: s) = '\\' :: s := by simp
        have ht : List.takeWhile (fun x => x != '\\') ('\\' :: s) = [] := by simp
        rw [hd, ht]
        rfl
      · have hlt := (List.dropWhile_suffix (l := s) (fun x => x != '\\')).length_le
        simp only [List.length_cons] at hn
        conv_rhs => unfold stringParts
        split
        · exact absurd ‹_› (by simp)
        · exact absurd ‹c' :: _ = _› (by simp [hc'])
        · have hd : List.dropWhile (fun x => x != '\\') (c' :: s)
              = List.dropWhile (fun x => x != '\\') s := by simp [hc']
          rw [hd, stringParts_fuel (n + 1) n _ (by omega) (by omega), Option.map_map]
          rfl

theorem stringParts_write (s : Text) (n : Nat) (hn : (s.flatMap (writeChar E)).length < n) :
    stringParts n (s.flatMap (writeChar E)) = some s := by
  induction s generalizing n with
  | nil =>
    obtain ⟨n, rfl⟩ : ∃ k, n = k + 1 := ⟨n - 1, by simp at hn; omega⟩
    rfl
  | cons c s ih =>
    obtain ⟨n, rfl⟩ : ∃ k, n = k + 1 := ⟨n - 1, by simp at hn; omega⟩
    have hpos := writeChar_length E c
    simp only [List.flatMap_cons, List.length_append] at hn
    have ih := ih n (by omega)
    rw [List.flatMap_cons]
    rcases writeChar_cases E c with ⟨h, h1, _⟩ | ⟨e, h, he⟩
    · rw [h]
      simp only [List.cons_append, List.nil_append]
      rw [stringParts_plain h1 _ n (by rw [h] at hn; simp at hn; simp; omega), ih]
      rfl
    · rw [h]
      have := (he (List.flatMap (writeChar E) s)).2
      simp only [List.cons_append] at this
      simp only [List.cons_append, stringParts, this, ih]
      rfl

theorem asStr_write (s : Text) :
    asStr (.mk .string ('"' :: s.flatMap (writeChar E) ++ ['"']) []) = some s := by
  have h : (('"' :: s.flatMap (writeChar E) ++ ['"']).drop 1).dropLast = s.flatMap (writeChar E) := by
    simp
  show stringParts (((('"' :: s.flatMap (writeChar E) ++ ['"']).drop 1).dropLast).length + 1)
    ((('"' :: s.flatMap (writeChar E) ++ ['"']).drop 1).dropLast) = some s
  rw [h]
  exact stringParts_write E s _ (by omega)

end Verif.Wave
