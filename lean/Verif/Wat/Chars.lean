import Verif.Wat.Model
/-
The lexer on characters instead of bytes, and the proof that the lexer of the model, which works on
bytes and slices, computes the same.
-/
namespace Verif.Wat

open Verif.Std

/-! ## The lexer on characters -/

/-- The next token: `rest` is the text after it; an error is at the start of the text `rest`. -/
inductive CTok where
  | eof
  | tok (kind : TokenKind) (rest : Text)
  | err (rest : Text) (e : LexError)
  deriving DecidableEq, Repr

def blockChars (level : Nat) : Text → Option Text
  | [] => none
  | [_] => none
  | a :: b :: r =>
    if a = '(' ∧ b = ';' then blockChars (level + 1) r
    else if a = ';' ∧ b = ')' then (if level = 1 then some r else blockChars (level - 1) r)
    else blockChars level (b :: r)

/-- What was read of `s` when `rest` remains. -/
def taken (s rest : Text) : Text := s.take (s.length - rest.length)

/-- The first confusing character of a comment, followed by the rest of it. -/
def firstConfusing : Text → Option (Char × Text)
  | [] => none
  | c :: s => if isConfusing c then some (c, c :: s) else firstConfusing s

def commentChars (allow : Bool) (kind : TokenKind) (comment rest : Text) : CTok :=
  if allow then .tok kind rest
  else
    match firstConfusing comment with
    | some (c, t) => .err (t ++ rest) (.confusingUnicode c)
    | none => .tok kind rest

def resChars (allow : Bool) : Nat → Nat → Nat → Text → Except (Text × LexError) (Nat × Nat × Text)
  | 0, _, _, r => .error (r, .unexpectedEof)
  | _ + 1, n, m, [] => .ok (n, m, [])
  | fuel + 1, n, m, c :: r =>
    if isIdCode c.toNat then resChars allow fuel (n + 1) m r
    else if c = '"' then
      match parseStr allow r with
      | (.ok _, it) => resChars allow fuel n (m + 1) it
      | (.error e, it) =>
        if e = .unexpectedEof then .error ([], e) else .error ((c :: r).drop (r.length - it.length), e)
    else .ok (n, m, c :: r)

def wsChar (c : Char) : Bool := isWsCode c.toNat

def notNl (c : Char) : Bool := c != '\n' && c != '\r'

def lexChars (allow : Bool) (s : Text) : CTok :=
  match s with
  | [] => .eof
  | c :: r =>
    if c = '(' then
      match r with
      | d :: r' =>
        if d = ';' then
          match blockChars 1 r' with
          | none => .err s .danglingBlockComment
          | some rest => commentChars allow .blockComment (taken s rest) rest
        else .tok .lparen r
      | [] => .tok .lparen r
    else if c = ')' then .tok .rparen r
    else if wsChar c then .tok .whitespace (s.dropWhile wsChar)
    else if isIdCode c.toNat || c = '"' then
      match resChars allow (s.length + 1) 0 0 s with
      | .error (at_, e) => .err at_ e
      | .ok (n, m, rest) =>
        match reservedKind n m (taken s rest) with
        | none => .eof
        | some k => .tok (tokenOfReserved c.toNat k (taken s rest)) rest
    else if c = ';' then
      match r with
      | d :: _ =>
        if d = ';' then commentChars allow .lineComment (s.takeWhile notNl) (s.dropWhile notNl)
        else .tok .reserved r
      | [] => .tok .reserved r
    else if c = ',' ∨ c = '[' ∨ c = ']' ∨ c = '{' ∨ c = '}' then .tok .reserved r
    else .err s (.unexpected c)

/-! ## What is left of a string -/

theorem hexDigit_suffix (s : Text) : (hexDigit s).2 <:+ s := by
  cases s with
  | nil => exact List.suffix_refl _
  | cons c s =>
    simp only [hexDigit]
    split <;> exact List.suffix_cons _ _

theorem hexDigit_strict {s : Text} {e : LexError} (h : (hexDigit s).1 = .error e)
    (he : e ≠ .unexpectedEof) : (hexDigit s).2.length < s.length := by
  cases s with
  | nil => simp only [hexDigit] at h; injection h with h; exact absurd h.symm he
  | cons c s => simp only [hexDigit]; split <;> simp

theorem hexLoop_suffix (s : Text) : ∀ n l, (hexLoop n l s).2 <:+ s := by
  induction s with
  | nil => intro n l; exact List.suffix_refl _
  | cons c s ih =>
    intro n l
    simp only [hexLoop]
    split
    · exact (ih _ _).trans (List.suffix_cons _ _)
    · split
      · exact List.suffix_refl _
      · split
        · exact (ih _ _).trans (List.suffix_cons _ _)
        · exact List.suffix_cons _ _

theorem mustEat_suffix (w : Char) (s : Text) : (mustEat w s).2 <:+ s := by
  cases s with
  | nil => exact List.suffix_refl _
  | cons c s =>
    simp only [mustEat]
    split <;> exact List.suffix_cons _ _

theorem hexNum_suffix (s : Text) : (hexNum s).2 <:+ s := by
  have h1 := hexDigit_suffix s
  unfold hexNum
  cases hd : hexDigit s with
  | mk r it =>
    rw [hd] at h1
    cases r with
    | error e => exact h1
    | ok n =>
      have h2 := hexLoop_suffix it n false
      simp only
      cases hl : hexLoop n false it with
      | mk r2 it2 =>
        rw [hl] at h2
        cases r2 with
        | error e => exact h2.trans h1
        | ok p =>
          simp only
          split <;> exact h2.trans h1

theorem unicodeEscape_suffix (s : Text) : (unicodeEscape s).2 <:+ s := by
  have h1 := mustEat_suffix '{' s
  unfold unicodeEscape
  cases hd : mustEat '{' s with
  | mk r it =>
    rw [hd] at h1
    cases r with
    | error e => exact h1
    | ok n =>
      have h2 := hexNum_suffix it
      simp only
      cases hl : hexNum it with
      | mk r2 it2 =>
        rw [hl] at h2
        cases r2 with
        | error e => exact h2.trans h1
        | ok p =>
          simp only
          cases charFromU32 p with
          | none => exact h2.trans h1
          | some c =>
            have h3 := mustEat_suffix '}' it2
            simp only
            cases hm : mustEat '}' it2 with
            | mk r3 it3 =>
              rw [hm] at h3
              cases r3 <;> exact h3.trans (h2.trans h1)

theorem escape_suffix (s : Text) : (escape s).2 <:+ s := by
  cases s with
  | nil => exact List.suffix_refl _
  | cons c s =>
    have h1 := hexDigit_suffix s
    simp only [escape]
    repeat' split
    all_goals first
      | exact List.suffix_cons _ _
      | exact (unicodeEscape_suffix s).trans (List.suffix_cons _ _)
      | (rename_i heq; rw [heq] at h1; exact h1.trans (List.suffix_cons _ _))

theorem strLoop_suffix (allow : Bool) (orig : Text) :
    ∀ fuel st s, (strLoop allow orig fuel st s).2 <:+ s := by
  intro fuel
  induction fuel with
  | zero => intro st s; exact List.suffix_refl _
  | succ fuel ih =>
    intro st s
    cases s with
    | nil => exact List.suffix_refl _
    | cons c s =>
      have h1 := escape_suffix s
      simp only [strLoop]
      repeat' split
      all_goals first
        | exact List.suffix_cons _ _
        | exact (ih _ _).trans (List.suffix_cons _ _)
        | (rename_i heq; rw [heq] at h1; exact h1.trans (List.suffix_cons _ _))
        | (rename_i heq; rw [heq] at h1; exact (ih _ _).trans (h1.trans (List.suffix_cons _ _)))

theorem strLoop_strict (allow : Bool) (orig : Text) :
    ∀ fuel st s, (strLoop allow orig fuel st s).1 ≠ .error .unexpectedEof →
      (strLoop allow orig fuel st s).2.length < s.length := by
  intro fuel st s h
  cases fuel with
  | zero => exact absurd rfl h
  | succ fuel =>
    cases s with
    | nil => exact absurd rfl h
    | cons c s =>
      clear h
      have h1 := (escape_suffix s).length_le
      simp only [strLoop]
      repeat' split
      all_goals first
        | (simp only [List.length_cons]; omega)
        | exact Nat.lt_succ_of_le (strLoop_suffix allow orig fuel _ _).length_le
        | (rename_i heq; rw [heq] at h1; exact Nat.lt_succ_of_le h1)
        | (rename_i heq; rw [heq] at h1
           exact Nat.lt_succ_of_le (Nat.le_trans (strLoop_suffix allow orig fuel _ _).length_le h1))

theorem parseStr_suffix (allow : Bool) (s : Text) : (parseStr allow s).2 <:+ s :=
  strLoop_suffix ..

theorem parseStr_strict {allow : Bool} {s : Text} (h : (parseStr allow s).1 ≠ .error .unexpectedEof) :
    (parseStr allow s).2.length < s.length := strLoop_strict allow s _ _ s h

end Verif.Wat
