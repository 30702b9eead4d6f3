import Verif.Std.Digits
/-
Model of `crates/wasm-wave/src`: `lex.rs`, `strings.rs`, `parser.rs`, `ast.rs`, `writer.rs` and the
`make_*` functions of `value/mod.rs`.

Text is a list of characters. Spans are not modelled: a token carries its text (`slice`) instead of
a span into the source, and a node carries the text of its token. Lengths and positions, which the
code counts in UTF-8 bytes, are counted in characters; the slices taken are the same, since they
are at character boundaries in both. Which of the error kinds is reported is not modelled: an error
is `none`.
-/
namespace Verif.Wave

open Verif.Std

abbrev Text := List Char

/-! ## Tokens (lex.rs) -/

/-- `enum Token` (lex.rs 18-68). -/
inductive Token where
  | braceOpen | braceClose | parenOpen | parenClose | bracketOpen | bracketClose
  | colon | comma | number | labelOrKeyword | char | string | multilineString
  deriving DecidableEq, Repr

/-- What the lexer yields: a token with its text, or an error. -/
inductive Item where
  | tok (t : Token) (text : Text)
  | bad
  deriving DecidableEq, Repr

def isDigit (c : Char) : Bool := '0' ≤ c && c ≤ '9'
def isLower (c : Char) : Bool := 'a' ≤ c && c ≤ 'z'
def isUpper (c : Char) : Bool := 'A' ≤ c && c ≤ 'Z'
def isHex (c : Char) : Bool := isDigit c || ('a' ≤ c && c ≤ 'f') || ('A' ≤ c && c ≤ 'F')
/-- `#[logos(skip r"[ \t\n\r]+")]` (lex.rs 13) -/
def isSpace (c : Char) : Bool := c == ' ' || c == '\t' || c == '\n' || c == '\r'

/-- `(\.[0-9]+)?` (lex.rs 49): the matched text and the rest. -/
def lexFraction (s : Text) : Text × Text :=
  match s with
  | '.' :: s' =>
    let ds := s'.takeWhile isDigit
    if ds = [] then ([], s) else ('.' :: ds, s'.dropWhile isDigit)
  | _ => ([], s)

/-- `([eE][-+]?[0-9]+)?` (lex.rs 49). -/
def lexExponent (s : Text) : Text × Text :=
  match s with
  | e :: s' =>
    if e = 'e' ∨ e = 'E' then
      let (sign, s'') := match s' with
        | '-' :: r => (['-'], r)
        | '+' :: r => (['+'], r)
        | r => ([], r)
      let ds := s''.takeWhile isDigit
      if ds = [] then ([], s) else (e :: sign ++ ds, s''.dropWhile isDigit)
    else ([], s)
  | [] => ([], s)

/-- `(0|([1-9][0-9]*))(\.[0-9]+)?([eE][-+]?[0-9]+)?` (lex.rs 49), without the sign. -/
def lexUnsigned (s : Text) : Option (Text × Text) :=
  match s with
  | c :: s' =>
    if isDigit c then
      let (int, r) := if c = '0' then ([c], s') else (c :: s'.takeWhile isDigit, s'.dropWhile isDigit)
      let (frac, r) := lexFraction r
      let (exp, r) := lexExponent r
      some (int ++ frac ++ exp, r)
    else none
  | [] => none

/-- The token `Number` (lex.rs 49-51) at a `-` or a digit. -/
def lexNumber (s : Text) : Option (Text × Text) :=
  match s with
  | '-' :: 'i' :: 'n' :: 'f' :: r => some (['-', 'i', 'n', 'f'], r)
  | '-' :: r => (lexUnsigned r).map fun (t, r) => ('-' :: t, r)
  | _ => lexUnsigned s

/-- `(?&first_label_word)` = `[a-z][a-z0-9]*|[A-Z][A-Z0-9]*` (lex.rs 15). -/
def lexFirstWord (s : Text) : Option (Text × Text) :=
  match s with
  | c :: r =>
    if isLower c then
      some (c :: r.takeWhile (fun c => isLower c || isDigit c), r.dropWhile (fun c => isLower c || isDigit c))
    else if isUpper c then
      some (c :: r.takeWhile (fun c => isUpper c || isDigit c), r.dropWhile (fun c => isUpper c || isDigit c))
    else none
  | [] => none

/-- `(?&label_word)` = `[a-z0-9]+|[A-Z0-9]+` (lex.rs 16), the longer of the two matches. -/
def lexWord (s : Text) : Option (Text × Text) :=
  let l := s.takeWhile (fun c => isLower c || isDigit c)
  let u := s.takeWhile (fun c => isUpper c || isDigit c)
  if l.length < u.length then some (u, s.dropWhile (fun c => isUpper c || isDigit c))
  else if l = [] then none
  else some (l, s.dropWhile (fun c => isLower c || isDigit c))

/-- `(-(?&label_word))*` (lex.rs 54); the first argument bounds the number of words. -/
def lexWords : Nat → Text → Text × Text
  | 0, s => ([], s)
  | n + 1, s =>
    match s with
    | '-' :: r =>
      match lexWord r with
      | none => ([], s)
      | some (w, r) =>
        let (ws, r) := lexWords n r
        ('-' :: w ++ ws, r)
    | _ => ([], s)

/-- `%?` (lex.rs 54). -/
def lexPct : Text → Text × Text
  | '%' :: r => (['%'], r)
  | r => ([], r)

/-- The token `LabelOrKeyword` (lex.rs 54). -/
def lexLabel (s : Text) : Option (Text × Text) :=
  let (pct, s') := lexPct s
  match lexFirstWord s' with
  | none => none
  | some (w, r) =>
    let (ws, r) := lexWords r.length r
    some (pct ++ w ++ ws, r)

/-- `(?&char_escape)` = `\\['"tnr\\]|\\u\{[0-9a-fA-F]{1,6}\}` (lex.rs 17), at the backslash. -/
def lexEscape (s : Text) : Option (Text × Text) :=
  match s with
  | '\\' :: 'u' :: '{' :: r =>
    let ds := r.takeWhile isHex
    if ds = [] ∨ 6 < ds.length then none
    else
      match r.dropWhile isHex with
      | '}' :: r => some ('\\' :: 'u' :: '{' :: ds ++ ['}'], r)
      | _ => none
  | '\\' :: c :: r =>
    if c = '\'' ∨ c = '"' ∨ c = 't' ∨ c = 'n' ∨ c = 'r' ∨ c = '\\' then some (['\\', c], r) else none
  | _ => none

/-- The token `Char` (lex.rs 58 and `validate_char`, lex.rs 76-83), at the quote. The pattern allows
up to four characters but `validate_char` rejects all but one. -/
def lexChar (s : Text) : Option (Text × Text) :=
  match s with
  | '\'' :: '\\' :: r =>
    match lexEscape ('\\' :: r) with
    | some (e, '\'' :: r) => some ('\'' :: e ++ ['\''], r)
    | _ => none
  | '\'' :: c :: '\'' :: r => if c = '\'' ∨ c = '\n' then none else some (['\'', c, '\''], r)
  | _ => none

/-- `([^\\"\n]|(?&char_escape))*"` (lex.rs 62): the text up to and including the closing quote. The
first argument bounds the number of characters. -/
def lexStringBody : Nat → Text → Option (Text × Text)
  | 0, _ => none
  | n + 1, s =>
    match s with
    | [] => none
    | '"' :: r => some (['"'], r)
    | '\n' :: _ => none
    | '\\' :: r =>
      match lexEscape ('\\' :: r) with
      | none => none
      | some (e, r) => (lexStringBody n r).map fun (t, r) => (e ++ t, r)
    | c :: r => (lexStringBody n r).map fun (t, r) => (c :: t, r)

/-- `lex.remainder().find("\"\"\"")` (lex.rs 86): the text before the first three quotes and what
follows them. -/
def findQuotes : Text → Option (Text × Text)
  | '"' :: '"' :: '"' :: r => some ([], r)
  | c :: r => (findQuotes r).map fun (t, r) => (c :: t, r)
  | [] => none

/-- The tokens `String` and `MultilineString` (lex.rs 62-67 and `lex_multiline_string`, lex.rs
85-92), at the quote. Three quotes are longer than the empty string. -/
def lexString (s : Text) : Option (Token × Text × Text) :=
  match s with
  | '"' :: '"' :: '"' :: r =>
    (findQuotes r).map fun (t, r) =>
      (.multilineString, '"' :: '"' :: '"' :: t ++ ['"', '"', '"'], r)
  | '"' :: r => (lexStringBody (r.length + 1) r).map fun (t, r) => (.string, '"' :: t, r)
  | _ => none

/-- The next token of a text that does not start with something to skip. -/
def lexToken (s : Text) : Option (Token × Text × Text) :=
  match s with
  | '{' :: r => some (.braceOpen, ['{'], r)
  | '}' :: r => some (.braceClose, ['}'], r)
  | '(' :: r => some (.parenOpen, ['('], r)
  | ')' :: r => some (.parenClose, [')'], r)
  | '[' :: r => some (.bracketOpen, ['['], r)
  | ']' :: r => some (.bracketClose, [']'], r)
  | ':' :: r => some (.colon, [':'], r)
  | ',' :: r => some (.comma, [','], r)
  | '"' :: r => lexString ('"' :: r)
  | '\'' :: r => (lexChar ('\'' :: r)).map fun (t, r) => (.char, t, r)
  | c :: r =>
    if c = '-' ∨ isDigit c then (lexNumber (c :: r)).map fun (t, r) => (.number, t, r)
    else (lexLabel (c :: r)).map fun (t, r) => (.labelOrKeyword, t, r)
  | [] => none

/-- All items that `Lexer::next` yields, up to and including the first error (the parser stops
there). The first argument bounds the number of steps. -/
def lexFuel : Nat → Text → List Item
  | 0, _ => []
  | n + 1, s =>
    match s with
    | [] => []
    | '/' :: '/' :: r => lexFuel n (r.dropWhile (· != '\n'))
    | c :: r =>
      if isSpace c then lexFuel n r
      else
        match lexToken (c :: r) with
        | none => [.bad]
        | some (t, text, r) => .tok t text :: lexFuel n r

/-- The lexer (lex.rs): all items of a source. -/
def lexAll (s : Text) : List Item := lexFuel (s.length + 1) s

/-- `enum Keyword` (lex.rs 97-106). -/
inductive Keyword where
  | true | false | some | none | ok | err | inf | nan
  deriving DecidableEq, Repr

/-- `Keyword::decode` (lex.rs 110-122). -/
def Keyword.decode (t : Text) : Option Keyword :=
  if t = "true".toList then Option.some .true
  else if t = "false".toList then Option.some .false
  else if t = "some".toList then Option.some .some
  else if t = "none".toList then Option.some .none
  else if t = "ok".toList then Option.some .ok
  else if t = "err".toList then Option.some .err
  else if t = "inf".toList then Option.some .inf
  else if t = "nan".toList then Option.some .nan
  else Option.none

/-! ## String contents (strings.rs) -/

/-- The loop over the hex digits of `\u{…}` (strings.rs 186-199): the value, the number of digits
and the rest after the `}`. -/
def unescapeHex (val digits : Nat) : Text → Option (Nat × Nat × Text)
  | [] => none
  | ch :: r =>
    if ch = '}' then (if digits = 0 then none else some (val, digits, r))
    else
      match toDigit 16 ch with
      | none => none
      | some d =>
        -- `(val << 4) | d`, no overflow: at most seven digits are read
        if digits + 1 > 6 then none else unescapeHex (val * 16 + d) (digits + 1) r

/-- `char::from_u32`. -/
def charFromU32 (n : Nat) : Option Char := if h : n.isValidChar then some (Char.ofNatAux n h) else none

/-- `unescape` (strings.rs 168-204): the character and the rest after the escape sequence (the code
returns the length of the sequence; all its characters are one byte long). -/
def unescape (src : Text) : Option (Char × Text) :=
  match src with
  | '\\' :: c :: r =>
    match c with
    | '\\' => some ('\\', r)
    | '\'' => some ('\'', r)
    | '"' => some ('"', r)
    | 't' => some ('\t', r)
    | 'n' => some ('\n', r)
    | 'r' => some ('\r', r)
    | 'u' =>
      match r with
      | '{' :: r =>
        match unescapeHex 0 0 r with
        | none => none
        | some (val, _, r) => (charFromU32 val).map fun ch => (ch, r)
      | _ => none
    | _ => none
  | _ => none

/-- All parts of a `StringParts` iterator put together (strings.rs 45-75): the text up to the next
backslash as it is, escape sequences decoded. The first argument bounds the number of parts. -/
def stringParts : Nat → Text → Option Text
  | 0, _ => none
  | n + 1, src =>
    match src with
    | [] => some []
    | '\\' :: r =>
      match unescape ('\\' :: r) with
      | none => none
      | some (ch, r) => (stringParts n r).map (ch :: ·)
    | _ => (stringParts n (src.dropWhile (· != '\\'))).map (src.takeWhile (· != '\\') ++ ·)

/-- `src.split('\n')`, never empty. -/
def splitLines : Text → List Text
  | [] => [[]]
  | c :: r =>
    if c = '\n' then [] :: splitLines r
    else
      match splitLines r with
      | [] => [[c]]
      | l :: ls => (c :: l) :: ls

/-- `str::strip_prefix`. -/
def stripPrefix (p s : Text) : Option Text :=
  match p, s with
  | [], s => some s
  | _, [] => none
  | a :: p, b :: s => if a = b then stripPrefix p s else none

/-- `src.strip_suffix('\r').unwrap_or(src)` (strings.rs 155). -/
def stripCr (s : Text) : Text := if s.getLast? = some '\r' then s.dropLast else s

/-- The lines of a multi-line string, each decoded and preceded by a newline
(`MultilineStringParts::next`, strings.rs 136-163). -/
def multilineLines (indent : Text) : List Text → Option Text
  | [] => some []
  | l :: ls =>
    match stripPrefix indent l with
    | none => none
    | some src =>
      match stringParts ((stripCr src).length + 1) (stripCr src), multilineLines indent ls with
      | some a, some b => some ('\n' :: a ++ b)
      | _, _ => none

/-- The contents of a multi-line string (`MultilineStringParts::new` and its iteration, strings.rs
86-131): the first newline is skipped. -/
def multilineParts (src : Text) : Option Text :=
  let src := match src with
    | '\r' :: r => r
    | r => r
  let lines := splitLines src
  match lines.getLast? with
  | none => none
  | some indent =>
    if indent.any (· != ' ') then none
    else
      match lines.dropLast with
      | [] :: ls => (multilineLines indent ls).map List.tail
      | _ => none

/-! ## Nodes and the parser (ast.rs, parser.rs) -/

/-- `enum NodeType` (ast.rs 433-480). -/
inductive NodeType where
  | boolTrue | boolFalse | number | char | string | multilineString | tuple | list | record | label
  | variantWithPayload | optionSome | optionNone | resultOk | resultErr | flags
  deriving DecidableEq, Repr

/-- `struct Node` (ast.rs 21-25); `text` is the slice of the span, kept for the leaves only. -/
inductive Node where
  | mk (ty : NodeType) (text : Text) (children : List Node)

def Node.ty : Node → NodeType
  | .mk ty _ _ => ty
def Node.text : Node → Text
  | .mk _ text _ => text
def Node.children : Node → List Node
  | .mk _ _ children => children

abbrev Toks := List Item

/-- `next_is` (parser.rs): the next item is the given token. -/
def nextIs (t : Token) : Toks → Bool
  | .tok t' _ :: _ => t' = t
  | _ => false

/-- `advance` (parser.rs): the next token, an error at the end or at a lexer error. -/
def advance : Toks → Option (Token × Text × Toks)
  | .tok t x :: r => some (t, x, r)
  | _ => none

/-- `advance` followed by `expect_token` (parser.rs). -/
def expect (t : Token) (toks : Toks) : Option Toks :=
  match advance toks with
  | some (t', _, r) => if t' = t then some r else none
  | none => none

section parser
/- `pn` is `parse_node` one level deeper. -/
variable (pn : Toks → Option (Node × Toks))

/-- The loop of `parse_comma_separated_nodes` (parser.rs); the first argument bounds the number of
iterations. -/
def commaLoop (endTok : Token) : Nat → Toks → Option (List Node × Toks)
  | 0, _ => none
  | n + 1, toks =>
    match pn toks with
    | none => none
    | some (node, toks) =>
      match advance toks with
      | none => none
      | some (t, _, toks) =>
        if t = .comma then
          if nextIs endTok toks then some ([node], toks.tail)
          else (commaLoop endTok n toks).map fun (ns, r) => (node :: ns, r)
        else if t = endTok then some ([node], toks) else none

/-- `parse_comma_separated_nodes` (parser.rs). -/
def commaSeparated (endTok : Token) (toks : Toks) : Option (List Node × Toks) :=
  if nextIs endTok toks then some ([], toks.tail)
  else commaLoop pn endTok (toks.length + 1) toks

/-- `trim_start_matches('%')` on a label. -/
def trimPct (t : Text) : Text := t.dropWhile (· = '%')

/-- The loop of `finish_record` (parser.rs), at the token `(t, text)`. -/
def recordLoop : Nat → List Text → Token → Text → Toks → Option (List Node × Toks)
  | 0, _, _, _, _ => none
  | n + 1, seen, t, text, toks =>
    if t ≠ .labelOrKeyword then none
    else
      let field := trimPct text
      if field ∈ seen then none
      else
        match expect .colon toks with
        | none => none
        | some toks =>
          match pn toks with
          | none => none
          | some (value, toks) =>
            match advance toks with
            | none => none
            | some (t1, x1, toks1) =>
              match (if t1 = .comma then advance toks1 else some (t1, x1, toks1)) with
              | none => none
              | some (t2, x2, toks2) =>
                if t2 = .braceClose then some ([.mk .label text [], value], toks2)
                else
                  (recordLoop n (field :: seen) t2 x2 toks2).map
                    fun (ns, r) => (.mk .label text [] :: value :: ns, r)

/-- The loop of `finish_flags` (parser.rs), at the token `(t, text)`. The code collects the labels
in a `BTreeMap` sorted by name and returns them in that order; the model returns them in source
order, since `make_flags` sorts them again by their position in the type. -/
def flagsLoop : Nat → List Text → Token → Text → Toks → Option (List Node × Toks)
  | 0, _, _, _, _ => none
  | n + 1, seen, t, text, toks =>
    if t ≠ .labelOrKeyword then none
    else
      let flag := trimPct text
      if flag ∈ seen then none
      else
        match advance toks with
        | none => none
        | some (t1, x1, toks1) =>
          match (if t1 = .comma then advance toks1 else some (t1, x1, toks1)) with
          | none => none
          | some (t2, x2, toks2) =>
            if t2 = .braceClose then some ([.mk .label text []], toks2)
            else
              (flagsLoop n (flag :: seen) t2 x2 toks2).map fun (ns, r) => (.mk .label text [] :: ns, r)

/-- `parse_record_or_flags` (parser.rs), after the `{`. -/
def recordOrFlags (toks : Toks) : Option (Node × Toks) :=
  match advance toks with
  | none => none
  | some (t, text, toks) =>
    if t = .colon then (expect .braceClose toks).map fun r => (.mk .record [] [], r)
    else if t = .braceClose then some (.mk .flags [] [], toks)
    else if nextIs .colon toks then
      (recordLoop pn (toks.length + 1) [] t text toks).map fun (ns, r) => (.mk .record [] ns, r)
    else (flagsLoop (toks.length + 1) [] t text toks).map fun (ns, r) => (.mk .flags [] ns, r)

/-- A payload in parentheses: `advance`, `expect_token(ParenOpen)`, `parse_node`, `advance`,
`expect_token(ParenClose)` (parser.rs, in `parse_label_maybe_payload`, `parse_option` and
`parse_result`). -/
def payload (toks : Toks) : Option (Node × Toks) :=
  match expect .parenOpen toks with
  | none => none
  | some toks =>
    match pn toks with
    | none => none
    | some (node, toks) => (expect .parenClose toks).map fun r => (node, r)

/-- `parse_node_inner` (parser.rs). -/
def parseNodeInner (toks : Toks) : Option (Node × Toks) :=
  match advance toks with
  | none => none
  | some (t, text, toks) =>
    match t with
    | .number => some (.mk .number text [], toks)
    | .char => some (.mk .char text [], toks)
    | .string => some (.mk .string text [], toks)
    | .multilineString => some (.mk .multilineString text [], toks)
    | .parenOpen =>
      match commaSeparated pn .parenClose toks with
      | none => none
      | some (ns, r) => if ns.isEmpty then none else some (.mk .tuple [] ns, r)
    | .bracketOpen => (commaSeparated pn .bracketClose toks).map fun (ns, r) => (.mk .list [] ns, r)
    | .braceOpen => recordOrFlags pn toks
    | .labelOrKeyword =>
      match Keyword.decode text with
      | some .true => some (.mk .boolTrue text [], toks)
      | some .false => some (.mk .boolFalse text [], toks)
      | some .some => (payload pn toks).map fun (n, r) => (.mk .optionSome [] [n], r)
      | some .none => some (.mk .optionNone [] [], toks)
      | some .ok =>
        if nextIs .parenOpen toks then
          (payload pn toks).map fun (n, r) => (.mk .resultOk [] [n], r)
        else some (.mk .resultOk [] [], toks)
      | some .err =>
        if nextIs .parenOpen toks then
          (payload pn toks).map fun (n, r) => (.mk .resultErr [] [n], r)
        else some (.mk .resultErr [] [], toks)
      | some .inf => some (.mk .number text [], toks)
      | some .nan => some (.mk .number text [], toks)
      | none =>
        if nextIs .parenOpen toks then
          (payload pn toks).map fun (n, r) =>
            (.mk .variantWithPayload [] [.mk .label text [], n], r)
        else some (.mk .label text [], toks)
    | .braceClose | .parenClose | .bracketClose | .colon | .comma => none

end parser

/-- `parse_node` (parser.rs); the argument is what is left of `MAX_DEPTH`. -/
def parseNode : Nat → Toks → Option (Node × Toks)
  | 0, _ => none
  | d + 1, toks => parseNodeInner (parseNode d) toks

/-- `MAX_DEPTH` (parser.rs 20). -/
def maxDepth : Nat := 100

/-! ## Types and values (value/ty.rs, value/mod.rs) -/

/-- The types of `value::Type`; `int signed bits` stands for `s8` … `u64`. -/
inductive Ty where
  | bool
  | int (signed : Bool) (bits : Nat)
  | f32
  | f64
  | char
  | string
  | list (element : Ty)
  | record (fields : List (Text × Ty))
  | tuple (elements : List Ty)
  | variant (cases : List (Text × Option Ty))
  | enum (cases : List Text)
  | option (some : Ty)
  | result (ok err : Option Ty)
  | flags (flags : List Text)

/-- The values of `value::Value`. A `Value` refers to its type and holds indices into it; here
records, variants, enums and flags hold the names (flags in the order of the type). `F` and `D` are
the types of the `f32` and `f64` values with a single NaN. -/
inductive Val (F D : Type) where
  | bool (b : Bool)
  | int (signed : Bool) (bits : Nat) (i : Int)
  | f32 (f : F)
  | f64 (f : D)
  | char (c : Char)
  | string (s : Text)
  | list (elements : List (Val F D))
  | record (fields : List (Text × Val F D))
  | tuple (elements : List (Val F D))
  | variant (case : Text) (payload : Option (Val F D))
  | enum (case : Text)
  | option (value : Option (Val F D))
  | result (isOk : Bool) (payload : Option (Val F D))
  | flags (flags : List Text)

/-- Floating point numbers and the character classes of the standard library, which are not
modelled: `Display`/`FromStr` of `f32` and `f64`, and whether `char::escape_debug` writes a
character as `\u{…}` (grapheme extenders and unprintable characters). -/
structure Env (F D : Type) where
  showF32 : F → Text
  readF32 : Text → Option F
  showF64 : D → Text
  readF64 : Text → Option D
  debugEscapes : Char → Bool

variable {F D : Type} (E : Env F D)

/-! ## Reading a typed value from a node (ast.rs) -/

/-- The optional sign of a number; `true` = negative. -/
def readSign : Text → Bool × Text
  | '-' :: r => (true, r)
  | '+' :: r => (false, r)
  | r => (false, r)

/-- `FromStr` of the integer types on the text of a `Number` token: an optional sign and digits,
within the range of the type. -/
def readInt (signed : Bool) (bits : Nat) (t : Text) : Option Int :=
  let (neg, ds) := readSign t
  if ds = [] ∨ (neg ∧ ¬ signed) then none
  else
    match readDigits 10 0 ds with
    | none => none
    | some n =>
      let i : Int := if neg then -(n : Int) else n
      let lo : Int := if signed then -(2 ^ (bits - 1) : Nat) else 0
      let hi : Int := if signed then (2 ^ (bits - 1) : Nat) else (2 ^ bits : Nat)
      if lo ≤ i ∧ i < hi then some i else none

/-- `as_char` (ast.rs 69-83): the text between the quotes must be one character or one escape
sequence. -/
def asChar (n : Node) : Option Char :=
  if n.ty ≠ .char then none
  else
    match (n.text.drop 1).dropLast with
    | [] => none
    | '\\' :: r =>
      match unescape ('\\' :: r) with
      | some (ch, []) => some ch
      | _ => none
    | ch :: r => if r = [] then some ch else none

/-- `as_str`, `iter_str` (ast.rs 86-125). -/
def asStr (n : Node) : Option Text :=
  match n.ty with
  | .string =>
    let inner := (n.text.drop 1).dropLast
    stringParts (inner.length + 1) inner
  | .multilineString =>
    let inner := (n.text.drop 3).dropLast.dropLast.dropLast
    multilineParts inner
  | _ => none

/-- `as_label` (ast.rs 206-211). -/
def asLabel (n : Node) : Option Text :=
  if n.ty ≠ .label then none
  else
    match n.text with
    | '%' :: r => some r
    | t => some t

/-- `as_record` (ast.rs 141-150): the children are alternately labels and values. -/
def asRecord : List Node → Option (List (Text × Node))
  | l :: v :: r =>
    match asLabel l, asRecord r with
    | some l, some r => some ((l, v) :: r)
    | _, _ => none
  | [] => some []
  | [_] => none

/-- `BTreeMap::get` after collecting the pairs; the keys are distinct (`finish_record` has checked
this). -/
def lookup (name : Text) : List (Text × Node) → Option Node
  | [] => none
  | (n, v) :: r => if n = name then some v else lookup name r

/-- `flattenable` (ast.rs 426-429). -/
def flattenable : Ty → Bool
  | .option _ => false
  | .result _ _ => false
  | _ => true

/-- `Ty` is an option type (`field_type.kind()` in ast.rs 296-299). -/
def Ty.isOption : Ty → Bool
  | .option _ => true
  | _ => false

mutual
/-- `to_wasm_value` (ast.rs 214-243) and the functions `to_wasm_*` (ast.rs 281-403), with the
`make_*` functions of value/mod.rs 160-327. The checks of `check_type` are omitted: the values given
to `make_*` here have just been made for the very same types. -/
def toVal : Ty → Node → Option (Val F D)
  | .bool, n =>
    match n.ty with
    | .boolTrue => some (.bool true)
    | .boolFalse => some (.bool false)
    | _ => none
  | .int s b, n => if n.ty ≠ .number then none else (readInt s b n.text).map (.int s b)
  | .f32, n => if n.ty ≠ .number then none else (E.readF32 n.text).map .f32
  | .f64, n => if n.ty ≠ .number then none else (E.readF64 n.text).map .f64
  | .char, n => (asChar n).map .char
  | .string, n => (asStr n).map .string
  | .list t, n => if n.ty ≠ .list then none else (n.children.mapM (toVal t)).map .list
  | .record fs, n =>
    if n.ty ≠ .record then none
    else
      match asRecord n.children with
      | none => none
      -- as it happens, fields that are not in the type are ignored (ast.rs 290-310)
      | some values => (toFields values fs).map .record
  | .tuple ts, n =>
    if n.ty ≠ .tuple then none
    else if ts.length ≠ n.children.length then none
    else (toTuple ts n.children).map .tuple
  | .variant cs, n =>
    match n.ty with
    | .label =>
      match asLabel n with
      | none => none
      | some label => toCase cs label none
    | .variantWithPayload =>
      match n.children with
      | l :: v :: _ =>
        match asLabel l with
        | none => none
        | some label => toCase cs label (some v)
      | _ => none
    | _ => none
  | .enum cs, n =>
    match asLabel n with
    | none => none
    | some label => if label ∈ cs then some (.enum label) else none
  | .option t, n =>
    match n.ty with
    | .optionSome =>
      match n.children with
      | v :: _ => (toVal t v).map fun v => .option (some v)
      | [] => none
    | .optionNone => some (.option none)
    | _ => if flattenable t then (toVal t n).map fun v => .option (some v) else none
  | .result ok err, n =>
    match n.ty with
    | .resultOk => (toPayload ok n.children.head?).map (.result true)
    | .resultErr => (toPayload err n.children.head?).map (.result false)
    | _ => toFlatResult ok n
  | .flags fs, n =>
    if n.ty ≠ .flags then none
    else if n.children.all (fun c => c.text ∈ fs) then
      some (.flags (fs.filter (fun f => f ∈ n.children.map Node.text)))
    else none
/-- `to_wasm_maybe_payload` (ast.rs 386-403). -/
def toPayload : Option Ty → Option Node → Option (Option (Val F D))
  | some t, some n => (toVal t n).map some
  | none, none => some none
  | _, _ => none
/-- An `ok` written without `ok(…)` (ast.rs 374-377). -/
def toFlatResult : Option Ty → Node → Option (Val F D)
  | some t, n => if flattenable t then (toVal t n).map fun v => .result true (some v) else none
  | none, _ => none
/-- `to_wasm_record` (ast.rs 290-310), the fields of the type from first to last. (`make_record`
would fail if a name occurred twice in the type; this is not modelled.) -/
def toFields (values : List (Text × Node)) : List (Text × Ty) → Option (List (Text × Val F D))
  | [] => some []
  | (name, t) :: fs =>
    let value :=
      match lookup name values with
      | some n => toVal t n
      | none => if t.isOption then some (.option none) else none
    match value, toFields values fs with
    | some v, some vs => some ((name, v) :: vs)
    | _, _ => none
/-- `to_wasm_tuple` (ast.rs 312-329). -/
def toTuple : List Ty → List Node → Option (List (Val F D))
  | t :: ts, n :: ns =>
    match toVal t n, toTuple ts ns with
    | some v, some vs => some (v :: vs)
    | _, _ => none
  | _, _ => some []
/-- `to_wasm_variant` (ast.rs 331-339): the first case with the label. -/
def toCase : List (Text × Option Ty) → Text → Option Node → Option (Val F D)
  | [], _, _ => none
  | (name, t) :: cs, label, p =>
    if name = label then (toPayload t p).map (.variant label) else toCase cs label p
end

/-- `from_str` (lib.rs 34-45): parse one value and require that nothing follows. -/
def fromStr (t : Ty) (s : Text) : Option (Val F D) :=
  match parseNode maxDepth (lexAll s) with
  | none => none
  | some (n, rest) =>
    match toVal E t n with
    | none => none
    | some v => if rest = [] then some v else none

/-! ## The writer (writer.rs) -/

/-- `char::escape_unicode`. -/
def escapeUnicode (c : Char) : Text := '\\' :: 'u' :: '{' :: Nat.toDigits 16 c.toNat ++ ['}']

/-- `char::is_control`: the general category `Cc`. -/
def isControl (c : Char) : Bool := c.toNat < 0x20 || (0x7f ≤ c.toNat && c.toNat < 0xa0)

/-- `write_char` (writer.rs 185-194). `escape_default` on the six characters of the first case;
`escape_debug` treats those and NUL specially, and the rest as `debugEscapes` says. -/
def writeChar (ch : Char) : Text :=
  if ch = '\\' then ['\\', '\\']
  else if ch = '"' then ['\\', '"']
  else if ch = '\'' then ['\\', '\'']
  else if ch = '\t' then ['\\', 't']
  else if ch = '\r' then ['\\', 'r']
  else if ch = '\n' then ['\\', 'n']
  else if isControl ch then escapeUnicode ch
  else if E.debugEscapes ch then escapeUnicode ch
  else [ch]

/-- `Display` of the integers. -/
def showInt (i : Int) : Text :=
  if i < 0 then '-' :: Nat.toDigits 10 i.natAbs else Nat.toDigits 10 i.natAbs

/-- `write_char('%')` before a name that is a keyword (writer.rs 121-123, 134-136). -/
def escapeName (name : Text) : Text := if (Keyword.decode name).isSome then '%' :: name else name

/-- `", "` between the texts (writer.rs 70-73 and others). -/
def sepBy : List Text → Text
  | [] => []
  | [t] => t
  | t :: ts => t ++ ", ".toList ++ sepBy ts

mutual
/-- `write_value` (writer.rs 27-173). -/
def write : Val F D → Text
  | .bool b => if b then "true".toList else "false".toList
  | .int _ _ i => showInt i
  | .f32 f => E.showF32 f
  | .f64 f => E.showF64 f
  | .char c => '\'' :: writeChar E c ++ ['\'']
  | .string s => '"' :: s.flatMap (writeChar E) ++ ['"']
  | .list vs => '[' :: sepBy (writeAll vs) ++ [']']
  | .record fs =>
    let ts := writeFields fs
    '{' :: (if ts = [] then [':'] else sepBy ts) ++ ['}']
  | .tuple vs => '(' :: sepBy (writeAll vs) ++ [')']
  | .variant name none => escapeName name
  | .variant name (some v) => escapeName name ++ '(' :: write v ++ [')']
  | .enum name => escapeName name
  | .option (some v) => "some(".toList ++ write v ++ [')']
  | .option none => "none".toList
  | .result ok none => if ok then "ok".toList else "err".toList
  | .result ok (some v) => (if ok then "ok".toList else "err".toList) ++ '(' :: write v ++ [')']
  | .flags fs => '{' :: sepBy fs ++ ['}']
/-- The elements of a list or tuple. -/
def writeAll : List (Val F D) → List Text
  | [] => []
  | v :: vs => write v :: writeAll vs
/-- The fields of a record that are not `none` (writer.rs 91-103). -/
def writeFields : List (Text × Val F D) → List Text
  | [] => []
  | (name, v) :: fs =>
    match v with
    | .option none => writeFields fs
    | v => (name ++ ": ".toList ++ write v) :: writeFields fs
end

end Verif.Wave
