import Verif.Wat.Model
/-
The lexical grammar of the text format
(https://webassembly.github.io/spec/core/text/lexical.html and …/text/values.html, with the
annotations proposal), and what a list of tokens must be to tile an input.
-/
namespace Verif.Wat.Spec

open Verif.Std

/-- Digits of a base with underscores between them, and the number they denote. In the grammar there
is at most one underscore between two digits; `strict = false` allows more. -/
inductive Digits (base : Nat) (strict : Bool) : Text → Nat → Prop where
  | one {c : Char} {d : Nat} : toDigit base c = some d → Digits base strict [c] d
  | more {t : Text} {n : Nat} {u : Text} {c : Char} {d : Nat} : Digits base strict t n →
      (∀ x ∈ u, x = '_') → (strict = true → u.length ≤ 1) → toDigit base c = some d →
      Digits base strict (t ++ u ++ [c]) (n * base + d)

/-- The simple escapes of strings. -/
def simpleEscapes : List (Char × UInt8) :=
  [('t', 9), ('n', 10), ('r', 13), ('"', 34), ('\'', 39), ('\\', 92)]

/-- An element of a string literal and its bytes. -/
inductive StrElem (strict : Bool) : Text → List UInt8 → Prop where
  | char {c : Char} : 0x20 ≤ c.toNat → c.toNat ≠ 0x7f → c ≠ '"' → c ≠ '\\' →
      StrElem strict [c] (utf8 [c])
  | simple {c : Char} {b : UInt8} : (c, b) ∈ simpleEscapes → StrElem strict ['\\', c] [b]
  | hex {c d : Char} {hi lo : Nat} : toDigit 16 c = some hi → toDigit 16 d = some lo →
      StrElem strict ['\\', c, d] [UInt8.ofNat (hi * 16 + lo)]
  | unicode {t : Text} {c : Char} : Digits 16 strict t c.toNat →
      StrElem strict ('\\' :: 'u' :: '{' :: t ++ ['}']) (utf8 [c])

/-- The contents of a string literal and its bytes. -/
inductive StrBody (strict : Bool) : Text → List UInt8 → Prop where
  | nil : StrBody strict [] []
  | cons {e : Text} {b : List UInt8} {t : Text} {bs : List UInt8} : StrElem strict e b →
      StrBody strict t bs → StrBody strict (e ++ t) (b ++ bs)

/-- A string literal and its bytes. -/
def StrLit (strict : Bool) (t : Text) (bs : List UInt8) : Prop :=
  ∃ body, t = '"' :: body ++ ['"'] ∧ StrBody strict body bs

/-- No confusing characters, unless they are allowed. -/
def Plain (allow : Bool) (t : Text) : Prop := allow = true ∨ ∀ c ∈ t, isConfusing c = false

/-- Signs. -/
inductive Sgn : Option Sign → Text → Prop where
  | none : Sgn none []
  | plus : Sgn (some .plus) ['+']
  | minus : Sgn (some .minus) ['-']

/-- The prefix of numbers in a base. -/
inductive Base : Bool → Nat → Text → Prop where
  | dec : Base false 10 []
  | hex : Base true 16 ['0', 'x']

/-- The fraction of a float. -/
inductive Frac (base : Nat) : Text → Prop where
  | none : Frac base []
  | dot : Frac base ['.']
  | digits {t : Text} {n : Nat} : Digits base true t n → Frac base ('.' :: t)

/-- The exponent of a float. -/
inductive Exp (hex : Bool) : Text → Prop where
  | none : Exp hex []
  | some {e : Char} {s t : Text} {sg : Option Sign} {n : Nat} :
      (if hex = true then e = 'p' ∨ e = 'P' else e = 'e' ∨ e = 'E') →
      Sgn sg s → Digits 10 true t n → Exp hex (e :: s ++ t)

def hasUnderscore (t : Text) : Bool := t.contains '_'

/-- Number tokens. -/
inductive NumTok : TokenKind → Text → Prop where
  | int {sg : Option Sign} {s : Text} {hex : Bool} {base : Nat} {p t : Text} {n : Nat} : Sgn sg s →
      Base hex base p → Digits base true t n →
      NumTok (.integer ⟨sg, hasUnderscore t, hex⟩) (s ++ p ++ t)
  | inf {sg : Option Sign} {s : Text} : Sgn sg s →
      NumTok (.float (.inf (sg = some .minus))) (s ++ ['i', 'n', 'f'])
  | nan {sg : Option Sign} {s : Text} : Sgn sg s →
      NumTok (.float (.nan (sg = some .minus))) (s ++ ['n', 'a', 'n'])
  | nanVal {sg : Option Sign} {s t : Text} {n : Nat} : Sgn sg s → Digits 16 true t n →
      NumTok (.float (.nanVal (sg = some .minus) (hasUnderscore t)))
        (s ++ ['n', 'a', 'n', ':', '0', 'x'] ++ t)
  | float {sg : Option Sign} {s : Text} {hex : Bool} {base : Nat} {p t f e : Text} {n : Nat} : Sgn sg s →
      Base hex base p → Digits base true t n → Frac base f → Exp hex e → f ++ e ≠ [] →
      NumTok (.float (.normal (hasUnderscore (t ++ f ++ e)) hex)) (s ++ p ++ (t ++ f ++ e))

/-- The characters of identifiers. -/
def IdChars (t : Text) : Prop := ∀ c ∈ t, isIdCode c.toNat = true

/-- A piece of a reserved token: a character (`false`) or a string (`true`). -/
inductive Pieces (strict : Bool) : List Bool → Text → Prop where
  | nil : Pieces strict [] []
  | char {c : Char} {ps : List Bool} {t : Text} : isIdCode c.toNat = true → Pieces strict ps t →
      Pieces strict (false :: ps) (c :: t)
  | string {s : Text} {bs : List UInt8} {ps : List Bool} {t : Text} : StrLit strict s bs →
      Pieces strict ps t → Pieces strict (true :: ps) (s ++ t)

/-- Tokens made of identifier characters and strings, other than reserved ones. -/
inductive Word (strict : Bool) : TokenKind → Text → Prop where
  | string {t : Text} {bs : List UInt8} : StrLit strict t bs → Word strict .string t
  | number {k : TokenKind} {t : Text} : NumTok k t → Word strict k t
  | id {t : Text} : IdChars t → Word strict .id ('$' :: t)
  | idString {t : Text} {bs : List UInt8} : StrLit strict t bs → Word strict .id ('$' :: t)
  | annotation {t : Text} : IdChars t → Word strict .annotation ('@' :: t)
  | annotationString {t : Text} {bs : List UInt8} : StrLit strict t bs → Word strict .annotation ('@' :: t)
  | keyword {c : Char} {t : Text} : 'a' ≤ c → c ≤ 'z' → IdChars t → (∀ k, ¬ NumTok k (c :: t)) →
      Word strict .keyword (c :: t)

/-- Block comments: `open_` is the number of comments still open before the text. -/
inductive BlockRest : Nat → Text → Prop where
  | close : BlockRest 1 [';', ')']
  | closeInner {n : Nat} {t : Text} : 0 < n → BlockRest n t → BlockRest (n + 1) (';' :: ')' :: t)
  | openInner {n : Nat} {t : Text} : BlockRest (n + 1) t → BlockRest n ('(' :: ';' :: t)
  | char {n : Nat} {c : Char} {t : Text} : ¬ (c = '(' ∧ t.head? = some ';') →
      ¬ (c = ';' ∧ t.head? = some ')') → BlockRest n t → BlockRest n (c :: t)

def isWs (c : Char) : Prop := c = ' ' ∨ c = '\t' ∨ c = '\n' ∨ c = '\r'
def isNl (c : Char) : Prop := c = '\n' ∨ c = '\r'

/-- The text after a token made of identifier characters and strings. -/
def EndsWord (rest : Text) : Prop := ∀ c ∈ rest.head?, isIdCode c.toNat = false ∧ c ≠ '"'

/-- Tokens in front of the rest of the input. -/
inductive Tok (strict allow : Bool) : TokenKind → Text → Text → Prop where
  | lparen {rest : Text} : rest.head? ≠ some ';' → Tok strict allow .lparen ['('] rest
  | rparen {rest : Text} : Tok strict allow .rparen [')'] rest
  | whitespace {t rest : Text} : t ≠ [] → (∀ c ∈ t, isWs c) → (∀ c ∈ rest.head?, ¬ isWs c) →
      Tok strict allow .whitespace t rest
  | lineComment {t rest : Text} : (∀ c ∈ t, ¬ isNl c) → (∀ c ∈ rest.head?, isNl c) → Plain allow t →
      Tok strict allow .lineComment (';' :: ';' :: t) rest
  | blockComment {t rest : Text} : BlockRest 1 t → Plain allow t →
      Tok strict allow .blockComment ('(' :: ';' :: t) rest
  | word {k : TokenKind} {t rest : Text} : Word strict k t → Plain allow t → EndsWord rest →
      Tok strict allow k t rest
  | reserved {ps : List Bool} {t rest : Text} : Pieces strict ps t → ps ≠ [] →
      (∀ k, ¬ Word strict k t) → Plain allow t → EndsWord rest → Tok strict allow .reserved t rest
  | semicolon {rest : Text} : rest.head? ≠ some ';' → Tok strict allow .reserved [';'] rest
  | punct {c : Char} {rest : Text} : c ∈ [',', '[', ']', '{', '}'] → Tok strict allow .reserved [c] rest

/-! ## Values -/

/-- An integer literal with its kind and its value. -/
def IntLit (k : IntegerKind) (src : Text) (v : Int) : Prop :=
  ∃ sg s hex base p t n, Sgn sg s ∧ Base hex base p ∧ Digits base true t n ∧ src = s ++ p ++ t ∧
    k = ⟨sg, hasUnderscore t, hex⟩ ∧ v = (if sg = some .minus then -(n : Int) else n)

/-- The text `t` between `pre` and `rest` is lexed as one token of kind `k`. -/
def OneToken (allow : Bool) (pre t rest : Text) (k : TokenKind) : Prop :=
  let pos := strLen pre
  let fin := pos + strLen t
  parse ⟨pre ++ t ++ rest, allow⟩ pos = .ok (some ⟨k, pos, strLen t⟩, fin) ∧
    Token.src ⟨k, pos, strLen t⟩ (pre ++ t ++ rest) = some t

/-- Lower-case letters. -/
def Letters (t : Text) : Prop := ∀ c ∈ t, 'a' ≤ c ∧ c ≤ 'z'

/-- What a reference in the text stands for: an identifier or an index. -/
inductive Denotes (t : Text) : Sum Text Nat → Prop where
  | name {n : Text} : (∀ allow pre rest, EndsWord rest → strLen t < 2 ^ 32 → OneToken allow pre t rest .id) →
      tokenId t = some n → Denotes t (.inl n)
  | index {k : IntegerKind} {i : Nat} :
      (∀ allow pre rest, EndsWord rest → strLen t < 2 ^ 32 → OneToken allow pre t rest (.integer k)) →
      (∀ bits, i < 2 ^ bits → parseInteger false bits t k = some (i : Int)) → Denotes t (.inr i)

/-! ## Tiling -/

/-- The tokens are the pieces of the text, each non-empty, one after the other from position `pos`
on. -/
inductive Tiles : Nat → Text → List Token → Prop where
  | nil {pos : Nat} : Tiles pos [] []
  | cons {pos : Nat} {t rest : Text} {k : TokenKind} {ts : List Token} : t ≠ [] →
      Tiles (pos + strLen t) rest ts → Tiles pos (t ++ rest) (⟨k, pos, strLen t⟩ :: ts)

end Verif.Wat.Spec
