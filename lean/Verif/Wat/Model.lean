import Verif.Std.Utf8
import Verif.Std.Digits
/-
The lexer of the text format (crates/wast/src/lexer.rs), integers (crates/wast/src/token.rs), and
the functions of the printer (crates/wasmprinter/src/lib.rs) that print strings and identifiers.

The input is a list of characters; positions are byte positions in its UTF-8 encoding, as in the
code, and slicing at a position that is not a character boundary is a panic.
-/
namespace Verif.Wat

open Verif.Std

/-- `enum SignToken` (lexer.rs 231-235). -/
inductive Sign where
  | plus | minus
  deriving DecidableEq, Repr

/-- `struct IntegerKind` (lexer.rs 123-127). -/
structure IntegerKind where
  sign : Option Sign
  hasUnderscores : Bool
  hex : Bool
  deriving DecidableEq, Repr

/-- `enum FloatKind` (lexer.rs 132-143). -/
inductive FloatKind where
  | inf (negative : Bool)
  | nan (negative : Bool)
  | nanVal (negative hasUnderscores : Bool)
  | normal (hasUnderscores hex : Bool)
  deriving DecidableEq, Repr

/-- `enum TokenKind` (lexer.rs 74-119). -/
inductive TokenKind where
  | lineComment | blockComment | whitespace | lparen | rparen | string | id | keyword | annotation
  | reserved
  | integer (k : IntegerKind)
  | float (k : FloatKind)
  deriving DecidableEq, Repr

/-- `enum LexError` (lexer.rs 165-227), those that the lexer itself reports. -/
inductive LexError where
  | danglingBlockComment
  | unexpected (c : Char)
  | invalidStringElement (c : Char)
  | invalidStringEscape (c : Char)
  | invalidHexDigit (c : Char)
  | expected (wanted found : Char)
  | unexpectedEof
  | numberTooBig
  | invalidUnicodeValue (n : Nat)
  | loneUnderscore
  | confusingUnicode (c : Char)
  deriving DecidableEq, Repr

/-- A result, an error at a byte position, or a panic. -/
inductive Res (α : Type) where
  | ok (a : α)
  | err (pos : Nat) (e : LexError)
  | panic
  deriving DecidableEq, Repr

/-! ## Characters -/

/-- `is_ascii_digit`. -/
def isDigit (c : Char) : Bool := 0x30 ≤ c.toNat && c.toNat ≤ 0x39
/-- `is_ascii_hexdigit`. -/
def isHexDigit (c : Char) : Bool :=
  isDigit c || (0x41 ≤ c.toNat && c.toNat ≤ 0x46) || (0x61 ≤ c.toNat && c.toNat ≤ 0x66)

/-- The macro `idchars!` (lexer.rs 278-307), for a byte or the code of a character. -/
def isIdCode (n : Nat) : Bool :=
  (0x30 ≤ n && n ≤ 0x39) || (0x41 ≤ n && n ≤ 0x5a) || (0x61 ≤ n && n ≤ 0x7a)
    || [0x21, 0x23, 0x24, 0x25, 0x26, 0x27, 0x2a, 0x2b, 0x2d, 0x2e, 0x2f, 0x3a, 0x3c, 0x3d, 0x3e, 0x3f,
        0x40, 0x5c, 0x5e, 0x5f, 0x60, 0x7c, 0x7e].contains n

/-- The table `WS` of `skip_ws` (lexer.rs 528-551). -/
def isWsCode (n : Nat) : Bool := n == 0x20 || n == 0x09 || n == 0x0a || n == 0x0d

/-- `is_confusing_unicode` (lexer.rs 1248-1261). -/
def isConfusing (c : Char) : Bool :=
  [0x202a, 0x202b, 0x202d, 0x202e, 0x2066, 0x2067, 0x2068, 0x206c, 0x2069].contains c.toNat

/-- `to_hex` (lexer.rs 1188-1194); `u8` subtraction never underflows for hexadecimal digits. -/
def toHex (c : Char) : Nat :=
  if 0x61 ≤ c.toNat ∧ c.toNat ≤ 0x66 then c.toNat - 0x61 + 10
  else if 0x41 ≤ c.toNat ∧ c.toNat ≤ 0x46 then c.toNat - 0x41 + 10
  else c.toNat - 0x30

/-! ## Strings -/

/-- The loop of `hexnum` (lexer.rs 884-899): the number, whether the last character was an
underscore, and the iterator; on an error the iterator after the offending digit. -/
def hexLoop (n : Nat) (last : Bool) : Text → Except LexError (Nat × Bool) × Text
  | [] => (.ok (n, last), [])
  | c :: it =>
    if c = '_' then hexLoop n true it
    else if !isHexDigit c then (.ok (n, last), c :: it)
    else if n * 16 < 2 ^ 32 ∧ n * 16 + toHex c < 2 ^ 32 then hexLoop (n * 16 + toHex c) false it
    else (.error .numberTooBig, it)

/-- `hexdigit` (lexer.rs 909-916). -/
def hexDigit : Text → Except LexError Nat × Text
  | [] => (.error .unexpectedEof, [])
  | c :: it => if isHexDigit c then (.ok (toHex c), it) else (.error (.invalidHexDigit c), it)

/-- `hexnum` (lexer.rs 880-904). -/
def hexNum (it : Text) : Except LexError Nat × Text :=
  match hexDigit it with
  | (.error e, it) => (.error e, it)
  | (.ok n, it) =>
    match hexLoop n false it with
    | (.error e, it) => (.error e, it)
    | (.ok (n, last), it) => if last then (.error .loneUnderscore, it) else (.ok n, it)

/-- `must_eat_char` (lexer.rs 925-932). -/
def mustEat (wanted : Char) : Text → Except LexError Unit × Text
  | [] => (.error .unexpectedEof, [])
  | c :: it => if c = wanted then (.ok (), it) else (.error (.expected wanted c), it)

/-- `char::from_u32`. -/
def charFromU32 (n : Nat) : Option Char := if h : n.isValidChar then some (Char.ofNatAux n h) else none

/-- The escape `\u{…}` (lexer.rs 816-822), after the `u`. -/
def unicodeEscape (it : Text) : Except LexError (List UInt8) × Text :=
  match mustEat '{' it with
  | (.error e, it) => (.error e, it)
  | (.ok (), it) =>
    match hexNum it with
    | (.error e, it) => (.error e, it)
    | (.ok n, it) =>
      match charFromU32 n with
      | none => (.error (.invalidUnicodeValue n), it)
      | some c =>
        match mustEat '}' it with
        | (.error e, it) => (.error e, it)
        | (.ok (), it) => (.ok (String.utf8EncodeChar c), it)

/-- The `match` after a backslash (lexer.rs 809-828): the bytes to add. -/
def escape : Text → Except LexError (List UInt8) × Text
  | [] => (.error .unexpectedEof, [])
  | c :: it =>
    if c = '"' then (.ok [0x22], it)
    else if c = '\'' then (.ok [0x27], it)
    else if c = 't' then (.ok [0x09], it)
    else if c = 'n' then (.ok [0x0a], it)
    else if c = 'r' then (.ok [0x0d], it)
    else if c = '\\' then (.ok [0x5c], it)
    else if c = 'u' then unicodeEscape it
    else if isHexDigit c then
      match hexDigit it with
      | (.error e, it) => (.error e, it)
      | (.ok c2, it) => (.ok [UInt8.ofNat (toHex c * 16 + c2)], it)
    else (.error (.invalidStringEscape c), it)

/-- `orig[..orig.len() - it.as_str().len() - 1]` (lexer.rs 801, 845): what was read before the last
character, a `"` or `\` of one byte. -/
def readBefore (orig it : Text) : List UInt8 := utf8 (orig.take (orig.length - it.length - 1))

/-- The loop of `parse_str` (lexer.rs 793-843). `state` is `none` for `State::Start`. The first
argument bounds the number of turns; `parseStr` gives enough (each turn reads a character). -/
def strLoop (allow : Bool) (orig : Text) : Nat → Option (List UInt8) → Text →
    Except LexError (List UInt8) × Text
  | 0, _, it => (.error .unexpectedEof, it)
  | fuel + 1, state, it =>
    match it with
    | [] => (.error .unexpectedEof, [])
    | c :: it =>
      if c = '"' then (.ok (state.getD (readBefore orig it)), it)
      else if c = '\\' then
        let buf := state.getD (readBefore orig it)
        match escape it with
        | (.error e, it) => (.error e, it)
        | (.ok bs, it) => strLoop allow orig fuel (some (buf ++ bs)) it
      else if c.toNat < 0x20 ∨ c.toNat = 0x7f then (.error (.invalidStringElement c), it)
      else if !allow && isConfusing c then (.error (.confusingUnicode c), it)
      else strLoop allow orig fuel (state.map (· ++ String.utf8EncodeChar c)) it

/-- `parse_str` (lexer.rs 783-848), after the opening quote: the bytes or an error, and where the
iterator is left. -/
def parseStr (allow : Bool) (it : Text) : Except LexError (List UInt8) × Text :=
  strLoop allow it (it.length + 1) none it

/-! ## Numbers -/

/-- The loop of `skip_underscores` (lexer.rs 729-741). -/
def underscoreLoop (good : Char → Bool) (last has : Bool) : Text → Bool × Bool × Text
  | [] => (last, has, [])
  | c :: it =>
    if c = '_' ∧ last = false then underscoreLoop good true true it
    else if !good c then (last, has, c :: it)
    else underscoreLoop good false has it

/-- `skip_underscores` (lexer.rs 722-746): whether there are underscores, and the iterator. -/
def skipUnderscores (good : Char → Bool) : Text → Option (Bool × Text)
  | [] => none
  | c :: it =>
    if !good c then none
    else
      match underscoreLoop good false false it with
      | (last, has, it) => if last then none else some (has, it)

/-- `str::strip_prefix`. -/
def stripPrefix : Text → Text → Option Text
  | [], s => some s
  | _ :: _, [] => none
  | p :: ps, c :: s => if p = c then stripPrefix ps s else none

/-- The sign (lexer.rs 622-628). -/
def splitSign : Text → Option Sign × Text
  | '+' :: s => (some .plus, s)
  | '-' :: s => (some .minus, s)
  | s => (none, s)

/-- The exponent's sign (lexer.rs 694-702). -/
def skipSign : Text → Text
  | '-' :: s => s
  | '+' :: s => s
  | s => s

/-- The exponent (lexer.rs 692-709): whether underscores were found, and the iterator. -/
def exponentPart (hex : Bool) : Text → Option (Bool × Text)
  | [] => some (false, [])
  | c :: it =>
    if (hex = true ∧ (c = 'p' ∨ c = 'P')) ∨ (hex = false ∧ (c = 'e' ∨ c = 'E')) then
      skipUnderscores isDigit (skipSign it)
    else none

/-- The fraction (lexer.rs 677-688). -/
def fractionPart (good : Char → Bool) : Text → Option (Bool × Text)
  | '.' :: it =>
    match it with
    | c :: _ => if good c then skipUnderscores good it else some (false, it)
    | [] => some (false, it)
  | it => some (false, it)

/-- After the integral part (lexer.rs 660-720). -/
def classifyRest (sign : Option Sign) (hex : Bool) (good : Char → Bool) (num : Text) : Option TokenKind :=
  match skipUnderscores good num with
  | none => none
  | some (u1, it) =>
    if it = [] then some (.integer ⟨sign, u1, hex⟩)
    else
      match fractionPart good it with
      | none => none
      | some (u2, it) =>
        match exponentPart hex it with
        | none => none
        | some (u3, it) => if it = [] then some (.float (.normal (u1 || u2 || u3) hex)) else none

/-- `classify_number` (lexer.rs 621-747). -/
def classifyNumber (src : Text) : Option TokenKind :=
  let (sign, num) := splitSign src
  let negative := decide (sign = some .minus)
  if num = ['i', 'n', 'f'] then some (.float (.inf negative))
  else if num = ['n', 'a', 'n'] then some (.float (.nan negative))
  else
    match stripPrefix ['n', 'a', 'n', ':', '0', 'x'] num with
    | some it =>
      match skipUnderscores isHexDigit it with
      | none => none
      | some (u, it) => if it = [] then some (.float (.nanVal negative u)) else none
    | none =>
      match stripPrefix ['0', 'x'] num with
      | some it => classifyRest sign true isHexDigit it
      | none => classifyRest sign false isDigit num

/-! ## Tokens -/

/-- The lexer (lexer.rs 42-45). -/
structure Lexer where
  input : Text
  allowConfusing : Bool

variable (L : Lexer)

/-- `self.input.as_bytes()`. -/
def Lexer.bytes : List UInt8 := utf8 L.input

/-- The loop over the bytes of a block comment (lexer.rs 388-414): what follows the comment. -/
def blockLoop (level : Nat) : List UInt8 → Option (List UInt8)
  | [] => none
  | [_] => none
  | a :: b :: r =>
    if a = 0x28 ∧ b = 0x3b then blockLoop (level + 1) r
    else if a = 0x3b ∧ b = 0x29 then (if level = 1 then some r else blockLoop (level - 1) r)
    else blockLoop level (b :: r)

/-- The loop of `check_confusing_comment` (lexer.rs 767-778) over the positions from `pos` on:
`end - comment.len() + pos` is the position of an error. -/
def confusingLoop (start : Nat) (comment : Text) (pos : Nat) : List UInt8 → Res Unit
  | [] => .ok ()
  | b :: bs =>
    if b = 0xe2 then
      match sliceFrom comment pos with
      | none => .panic
      | some [] => confusingLoop start comment (pos + 1) bs
      | some (c :: _) =>
        if isConfusing c then .err (start + pos) (.confusingUnicode c)
        else confusingLoop start comment (pos + 1) bs
    else confusingLoop start comment (pos + 1) bs

/-- `check_confusing_comment` (lexer.rs 752-781). -/
def checkConfusing (fin : Nat) (comment : Text) : Res Unit :=
  if L.allowConfusing then .ok ()
  else confusingLoop (fin - strLen comment) comment 0 (utf8 comment)

/-- `enum ReservedKind` (lexer.rs 146-160). -/
inductive ReservedKind where
  | string | idchars | idString | annotationString | reserved
  deriving DecidableEq, Repr

/-- The classification at the end of `parse_reserved` (lexer.rs 607-618); `(0, 0)` is unreachable
there. -/
def reservedKind (idchars strings : Nat) (ret : Text) : Option ReservedKind :=
  if idchars = 0 ∧ strings = 0 then none
  else if idchars = 0 ∧ strings = 1 then some .string
  else if strings = 0 then some .idchars
  else if idchars = 1 ∧ strings = 1 ∧ ret.head? = some '$' then some .idString
  else if idchars = 1 ∧ strings = 1 ∧ ret.head? = some '@' then some .annotationString
  else some .reserved

/-- `self.input[..*pos].char_indices().next_back().unwrap().0` (lexer.rs 597). -/
def lastCharPos (pos : Nat) : Option Nat :=
  match sliceTo L.input pos with
  | none => none
  | some s =>
    match s.getLast? with
    | none => none
    | some c => some (strLen s - (String.utf8EncodeChar c).length)

/-- The loop of `parse_reserved` (lexer.rs 576-605): the counters and the position. The counters
are `u32` in the code and would overflow for tokens of 4 GiB. -/
def reservedLoop : Nat → Nat → Nat → Nat → Res (Nat × Nat × Nat)
  | 0, _, _, _ => .panic
  | fuel + 1, pos, idchars, strings =>
    match L.bytes[pos]? with
    | none => .ok (idchars, strings, pos)
    | some b =>
      if isIdCode b.toNat then reservedLoop fuel (pos + 1) (idchars + 1) strings
      else if b = 0x22 then
        match sliceFrom L.input (pos + 1) with
        | none => .panic
        | some it =>
          match parseStr L.allowConfusing it with
          | (.ok _, it) => reservedLoop fuel (strLen L.input - strLen it) idchars (strings + 1)
          | (.error e, it) =>
            if e = .unexpectedEof then .err (strLen L.input) e
            else
              match lastCharPos L (strLen L.input - strLen it) with
              | none => .panic
              | some p => .err p e
      else .ok (idchars, strings, pos)

/-- `&self.input[start..pos]`. -/
def slice (s : Text) (start pos : Nat) : Option Text :=
  match sliceFrom s start with
  | none => none
  | some t => if start ≤ pos then sliceTo t (pos - start) else none

/-- `parse_reserved` (lexer.rs 572-619): the kind, the text, and the position. -/
def parseReserved (start : Nat) : Res (ReservedKind × Text × Nat) :=
  match reservedLoop L (L.bytes.length + 1) start 0 0 with
  | .err p e => .err p e
  | .panic => .panic
  | .ok (idchars, strings, pos) =>
    match slice L.input start pos with
    | none => .panic
    | some ret =>
      match reservedKind idchars strings ret with
      | none => .panic
      | some k => .ok (k, ret, pos)

/-- What becomes of a reserved token whose first byte is `c` (lexer.rs 435-471). -/
def tokenOfReserved (c : Nat) (k : ReservedKind) (src : Text) : TokenKind :=
  match k with
  | .string => .string
  | .idchars =>
    match classifyNumber src with
    | some t => t
    | none =>
      if c = 0x24 then .id
      else if c = 0x40 then .annotation
      else if 0x61 ≤ c ∧ c ≤ 0x7a then .keyword
      else .reserved
  | .idString => .id
  | .annotationString => .annotation
  | .reserved => .reserved

/-- The block comment at `pos` (lexer.rs 376-416); `r` are the bytes after `(;`. -/
def blockComment (pos : Nat) (remaining r : List UInt8) : Res (Option TokenKind × Nat) :=
  match blockLoop 1 r with
  | none => .err pos .danglingBlockComment
  | some rest =>
    let len := remaining.length - rest.length
    match slice L.input pos (pos + len) with
    | none => .panic
    | some comment =>
      match checkConfusing L (pos + len) comment with
      | .ok () => .ok (some .blockComment, pos + len)
      | .err p e => .err p e
      | .panic => .panic

/-- The line comment at `pos` (lexer.rs 480-488). -/
def lineComment (pos : Nat) (remaining : List UInt8) : Res (Option TokenKind × Nat) :=
  let len := (remaining.takeWhile (fun b => b != 0x0a && b != 0x0d)).length
  match slice L.input pos (pos + len) with
  | none => .panic
  | some comment =>
    match checkConfusing L (pos + len) comment with
    | .ok () => .ok (some .lineComment, pos + len)
    | .err p e => .err p e
    | .panic => .panic

/-- `skip_ws` (lexer.rs 552-558). -/
def skipWs (pos : Nat) (remaining : List UInt8) : Res (Option TokenKind × Nat) :=
  match sliceFrom L.input pos with
  | none => .panic
  | some _ => .ok (some .whitespace, pos + (remaining.takeWhile (fun b => isWsCode b.toNat)).length)

/-- `parse_kind` (lexer.rs 361-508): the kind of the next token, if any, and the position after
it. -/
def parseKind (pos : Nat) : Res (Option TokenKind × Nat) :=
  if L.bytes.length < pos then .panic
  else
    let remaining := L.bytes.drop pos
    match remaining with
    | [] => .ok (none, pos)
    | b :: rest =>
      if b = 0x28 then
        match rest with
        | b2 :: r => if b2 = 0x3b then blockComment L pos remaining r else .ok (some .lparen, pos + 1)
        | [] => .ok (some .lparen, pos + 1)
      else if b = 0x29 then .ok (some .rparen, pos + 1)
      else if isWsCode b.toNat then skipWs L pos remaining
      else if isIdCode b.toNat || b = 0x22 then
        match parseReserved L pos with
        | .ok (k, src, p) => .ok (some (tokenOfReserved b.toNat k src), p)
        | .err p e => .err p e
        | .panic => .panic
      else if b = 0x3b then
        match rest with
        | b2 :: _ => if b2 = 0x3b then lineComment L pos remaining else .ok (some .reserved, pos + 1)
        | [] => .ok (some .reserved, pos + 1)
      else if b = 0x2c ∨ b = 0x5b ∨ b = 0x5d ∨ b = 0x7b ∨ b = 0x7d then .ok (some .reserved, pos + 1)
      else
        match sliceFrom L.input pos with
        | some (c :: _) => .err pos (.unexpected c)
        | _ => .panic

/-- `struct Token` (lexer.rs 49-61). -/
structure Token where
  kind : TokenKind
  offset : Nat
  len : Nat
  deriving DecidableEq, Repr

/-- `Lexer::parse` (lexer.rs 349-359): the next token and the position after it. The length is
converted to `u32`. -/
def parse (pos : Nat) : Res (Option Token × Nat) :=
  match parseKind L pos with
  | .err p e => .err p e
  | .panic => .panic
  | .ok (none, p) => .ok (none, p)
  | .ok (some kind, p) =>
    if p - pos < 2 ^ 32 then .ok (some ⟨kind, pos, p - pos⟩, p) else .panic

/-- All items of `Lexer::iter(pos)` (lexer.rs 941-943) up to and including the first error. The
first argument bounds their number. -/
inductive Items where
  | done (tokens : List Token)
  | failed (tokens : List Token) (pos : Nat) (e : LexError)
  | panicked
  | outOfFuel
  deriving DecidableEq, Repr

def Items.cons (t : Token) : Items → Items
  | .done ts => .done (t :: ts)
  | .failed ts p e => .failed (t :: ts) p e
  | .panicked => .panicked
  | .outOfFuel => .outOfFuel

def iterFrom : Nat → Nat → Items
  | 0, _ => .outOfFuel
  | fuel + 1, pos =>
    match parse L pos with
    | .err p e => .failed [] p e
    | .panic => .panicked
    | .ok (none, _) => .done []
    | .ok (some t, p) => (iterFrom fuel p).cons t

/-! ## The contents of tokens -/

/-- `Token::src` (lexer.rs 968-970). -/
def Token.src (t : Token) (s : Text) : Option Text := slice s t.offset (t.offset + t.len)

/-- `Token::string` (lexer.rs 1040-1044) on the text of the token; `none` is a panic. -/
def tokenString (src : Text) : Option (List UInt8) :=
  match src with
  | [] => none
  | _ :: it =>
    match parseStr true it with
    | (.ok bs, _) => some bs
    | (.error _, _) => none

/-- `Token::id` (lexer.rs 985-994) with `parse_name` (lexer.rs 862-878) on the text of the token,
after the `$`; `none` is an error. -/
def tokenId (src : Text) : Option Text :=
  let name :=
    match src.tail with
    | '"' :: it =>
      match parseStr true it with
      | (.ok bs, _) => fromUtf8 bs
      | (.error _, _) => none
    | it => some it
  match name with
  | none => none
  | some [] => none
  | some n => some n

/-- `str::replace("_", "")`. -/
def dropUnderscores (s : Text) : Text := s.filter (· != '_')

/-- `str::replace("0x", "")`. -/
def dropHexPrefix : Text → Text
  | [] => []
  | [c] => [c]
  | a :: b :: s => if a = '0' ∧ b = 'x' then dropHexPrefix s else a :: dropHexPrefix (b :: s)

/-- `Token::integer` (lexer.rs 1143-1162): the text of the value. -/
def integerVal (src : Text) (k : IntegerKind) : Option Text :=
  let val := match k.sign with
    | some .plus => stripPrefix ['+'] src
    | _ => some src
  val.map fun val =>
    let val := if k.hasUnderscores then dropUnderscores val else val
    if k.hex then dropHexPrefix val else val

/-- `from_str_radix` of the integer types of the standard library. -/
def fromStrRadix (signed : Bool) (bits base : Nat) (s : Text) : Option Int :=
  let (sign, ds) := splitSign s
  if ds = [] ∨ (sign = some .minus ∧ signed = false) then none
  else
    match readDigits base 0 ds with
    | none => none
    | some n =>
      let i : Int := if sign = some .minus then -(n : Int) else n
      let lo : Int := if signed then -((2 ^ (bits - 1) : Nat) : Int) else 0
      let hi : Int := if signed then ((2 ^ (bits - 1) : Nat) : Int) else ((2 ^ bits : Nat) : Int)
      if lo ≤ i ∧ i < hi then some i else none

/-- `Parse for (iN, Span)` (token.rs 310-331): the text of an `Integer` token as a value of the
integer type; `signed` is whether it is `iN` or `uN`. The result is the value of type `iN` or `uN`
(`as iN` wraps). -/
def parseInteger (signed : Bool) (bits : Nat) (src : Text) (k : IntegerKind) : Option Int :=
  match integerVal src k with
  | none => none
  | some val =>
    let base := if k.hex then 16 else 10
    match fromStrRadix signed bits base val with
    | some i => some i
    | none =>
      match fromStrRadix false bits base val with
      | some i => some (if signed then i.bmod (2 ^ bits) else i)
      | none => none

/-! ## The printer -/

/-- `print_str_contents` (wasmprinter/src/lib.rs 1934-1944) for one character. -/
def printChar (c : Char) : Text :=
  if 0x20 ≤ c.toNat ∧ c.toNat < 0x7f ∧ c ≠ '"' ∧ c ≠ '\\' ∧ c.toNat < 0xff then [c]
  else '\\' :: 'u' :: '{' :: Nat.toDigits 16 c.toNat ++ ['}']

/-- `print_str_contents` (lib.rs 1934-1944). -/
def printStrContents (s : Text) : Text := s.flatMap printChar

/-- `print_str` (lib.rs 1925-1932); without colours. -/
def printStr (s : Text) : Text := '"' :: printStrContents s ++ ['"']

/-- `hex_byte` (lib.rs 1961-1964): `\{:02x}`. -/
def hexByte (b : UInt8) : Text := ['\\', (b.toNat / 16).digitChar, (b.toNat % 16).digitChar]

/-- One byte of `print_bytes` (lib.rs 1949-1955). -/
def printByte (b : UInt8) : Text :=
  if 0x20 ≤ b.toNat ∧ b.toNat < 0x7f ∧ b ≠ 0x22 ∧ b ≠ 0x5c then [Char.ofNat b.toNat] else hexByte b

/-- `print_bytes` (lib.rs 1946-1959). -/
def printBytes (bs : List UInt8) : Text := '"' :: bs.flatMap printByte ++ ['"']

/-- `write!(" {}", val)` of the payloads of `i32.const` and `i64.const`
(wasmprinter/src/operator.rs 632-641), without the space: `Display` of integers. -/
def printInt (i : Int) : Text :=
  if i < 0 then '-' :: Nat.toDigits 10 i.natAbs else Nat.toDigits 10 i.natAbs

/-- `{:02x}` of a byte. -/
def hex2 (b : UInt8) : Text := [(b.toNat / 16).digitChar, (b.toNat % 16).digitChar]

/-- One chunk of four bytes of `v128.const` (operator.rs 653-661), without the space. -/
def printChunk (b0 b1 b2 b3 : UInt8) : Text :=
  '0' :: 'x' :: hex2 b3 ++ hex2 b2 ++ hex2 b1 ++ hex2 b0

/-- `i32::to_le_bytes` (wast/src/core/expr.rs 2230). -/
def leBytes32 (i : Int) : List UInt8 :=
  let n := (i % 2 ^ 32).toNat
  [UInt8.ofNat n, UInt8.ofNat (n / 256), UInt8.ofNat (n / 65536), UInt8.ofNat (n / 16777216)]

/-- `enum NamingKind` (lib.rs 189-193). -/
inductive NamingKind where
  | dollarName
  | dollarQuotedName
  | syntheticPrefix (prefix_ : Text)
  deriving DecidableEq, Repr

/-- `struct Naming` (lib.rs 184-187). -/
structure Naming where
  name : Text
  kind : NamingKind
  deriving DecidableEq, Repr

/-- `Naming::new` (lib.rs 2344-2382); `used` is the set of names used so far, if names must not be
reused. Also returns the new set. -/
def Naming.new (name : Text) (index : Nat) (group : Text) (used : Option (List Text)) :
    Naming × Option (List Text) :=
  let kind := if name.any (fun c => !isIdCode c.toNat) then NamingKind.dollarQuotedName else .dollarName
  let synthetic := NamingKind.syntheticPrefix ('#' :: group ++ Nat.toDigits 10 index)
  if name = [] ∨ name.head? = some '#' then (⟨name, synthetic⟩, used)
  else
    match used with
    | none => (⟨name, kind⟩, none)
    | some set => if name ∈ set then (⟨name, synthetic⟩, some set) else (⟨name, kind⟩, some (name :: set))

/-- `write_identifier` (lib.rs 2418-2438). -/
def Naming.identifier (n : Naming) : Text :=
  match n.kind with
  | .dollarName => '$' :: n.name
  | .dollarQuotedName => '$' :: '"' :: printStrContents n.name ++ ['"']
  | .syntheticPrefix p => '$' :: '"' :: p ++ ' ' :: printStrContents n.name ++ ['"']

/-- The loop of `name_map` (lib.rs 2494-2504): the entries of a map from indices to names, from
first to last inserted. -/
def nameMapLoop (group : Text) (used : Option (List Text)) : List (Nat × Text) → List (Nat × Naming)
  | [] => []
  | (index, name) :: rest =>
    let r := Naming.new name index group used
    (index, r.1) :: nameMapLoop group r.2 rest

/-- `name_map` (lib.rs 2494-2504) for the entries of one subsection. -/
def nameMap (group : Text) (names : List (Nat × Text)) : List (Nat × Naming) :=
  nameMapLoop group (some []) names

/-- Several subsections of the same kind (`register_names`, lib.rs 829-876): each starts with no
names used. -/
def nameMaps (group : Text) (subsections : List (List (Nat × Text))) : List (Nat × Naming) :=
  subsections.flatMap (nameMap group)

/-- `HashMap::get` after the insertions: the last entry counts. -/
def getName (entries : List (Nat × Naming)) (idx : Nat) : Option Naming :=
  ((entries.reverse.find? (fun e => e.1 == idx)).map Prod.snd)

/-- `_print_idx` (lib.rs 1740-1749): how a reference to the item is printed. -/
def printIdx (nameUnnamed : Bool) (desc : Text) (entries : List (Nat × Naming)) (idx : Nat) : Text :=
  match getName entries idx with
  | some n => n.identifier
  | none => if nameUnnamed then '$' :: '#' :: desc ++ Nat.toDigits 10 idx else Nat.toDigits 10 idx

end Verif.Wat
