import Verif.Wat.Model
/-
Floating point literals: how `wast` reads them (crates/wast/src/lexer.rs, token.rs) and how
`wasmprinter` prints them (crates/wasmprinter/src/lib.rs).

Bit patterns are natural numbers below `2 ^ width`; shifts to the left are reduced modulo
`2 ^ width`, `i32`, `i64` values are integers.
-/
namespace Verif.Float

open Verif.Std Verif.Wat

/-- The parameters of the macros `float!` (token.rs 679-690) and `print_float!` (lib.rs 2337-2338):
the bits of the integer type and of the exponent. -/
structure Fmt where
  width : Nat
  expBits : Nat
  deriving DecidableEq, Repr

def f32 : Fmt := ⟨32, 8⟩
def f64 : Fmt := ⟨64, 11⟩

/-! ## Decomposing a token -/

/-- `enum Float` (lexer.rs 249-275). -/
inductive FloatVal where
  | nan (val : Option Text) (negative : Bool)
  | inf (negative : Bool)
  | val (hex : Bool) (integral : Text) (fractional exponent : Option Text)
  deriving DecidableEq, Repr

/-- `str::find` of a character, with the text before and after it. -/
def findChar (c : Char) : Text → Option (Text × Text)
  | [] => none
  | d :: s => if d = c then some ([], s) else (findChar c s).map (fun p => (d :: p.1, p.2))

/-- `strip_prefix('+').unwrap_or(…)` (lexer.rs 1108, 1117). -/
def stripPlus : Text → Text
  | '+' :: s => s
  | s => s

/-- Where the exponent starts (lexer.rs 1083-1087, 1094-1098). -/
def findExponent (hex : Bool) (s : Text) : Option (Text × Text) :=
  if hex then (findChar 'p' s).or (findChar 'P' s) else (findChar 'e' s).or (findChar 'E' s)

/-- The parts of a float (lexer.rs 1079-1105). -/
def splitFloat (hex : Bool) (src : Text) : Text × Option Text × Option Text :=
  match findChar '.' src with
  | some (integral, rest) =>
    match findExponent hex rest with
    | some (f, e) => (integral, some f, some e)
    | none => (integral, some rest, none)
  | none =>
    match findExponent hex src with
    | some (i, e) => (i, none, some e)
    | none => (src, none, none)

/-- `Token::float` (lexer.rs 1052-1135) on the text of the token; `none` is a panic of `unwrap`. -/
def tokenFloat (src : Text) : FloatKind → Option FloatVal
  | .inf negative => some (.inf negative)
  | .nan negative => some (.nan none negative)
  | .nanVal negative hasUnderscores =>
    let src := if src.head? = some 'n' then src else src.tail
    match stripPrefix ['n', 'a', 'n', ':', '0', 'x'] src with
    | none => none
    | some val => some (.nan (some (if hasUnderscores then dropUnderscores val else val)) negative)
  | .normal hasUnderscores hex =>
    let p := splitFloat hex src
    let fix := fun (s : Text) => if hasUnderscores then dropUnderscores s else s
    let integral := fix (stripPlus p.1)
    let fractional := (p.2.1.bind (fun s => if s = [] then none else some s)).map fix
    let exponent := (p.2.2.map stripPlus).map fix
    some (.val hex (if hex then dropHexPrefix integral else integral) fractional exponent)

/-! ## Reading -/

/-- The result of `$parse`: `panic` is an arithmetic overflow (with checks on). -/
inductive FRes where
  | bits (b : Nat)
  | invalid
  | panic
  deriving DecidableEq, Repr

namespace Fmt

variable (F : Fmt)

/-- `signif_bits` and `exp_offset` (token.rs 441-442). -/
def signifBits : Nat := F.width - 1 - F.expBits

/-- `bias` (token.rs 444). -/
def bias : Nat := 2 ^ (F.expBits - 1) - 1

/-- `msb` (token.rs 445). -/
def msb : Nat := 2 ^ (F.width - 1)

/-- `x << k` on the integer type. -/
def shl (x k : Nat) : Nat := x * 2 ^ k % 2 ^ F.width

/-- `!x` on the integer type. -/
def not (x : Nat) : Nat := 2 ^ F.width - 1 - x

/-- The value if it fits in `i32`. -/
def inI32 (x : Int) : Option Int := if -(2 ^ 31) ≤ x ∧ x < 2 ^ 31 then some x else none

/-- `(digit as u8).leading_zeros() as i32 - 4` (token.rs 552), for a digit from 1 to 15. -/
def digitLz (d : Nat) : Nat := 3 - Nat.log2 d

/-- The state of the loop over the digits (token.rs 556-567). -/
structure Scan where
  exponent : Int
  pos : Int
  significand : Nat
  extra : Bool
  deriving DecidableEq, Repr

/-- One turn of the loop (token.rs 574-591); `none` is an overflow. -/
def scanStep (st : Scan) (digit : Nat) (inFractional : Bool) : Option Scan :=
  match (if inFractional then some st.exponent else inI32 (st.exponent + 4)) with
  | none => none
  | some exponent =>
    let pos := if -4 < st.pos then st.pos - 4 else st.pos
    if 0 ≤ pos then
      some ⟨exponent, pos, st.significand ||| F.shl digit pos.toNat, st.extra⟩
    else if -4 < pos then
      some ⟨exponent, pos, st.significand ||| digit >>> (4 - pos).toNat,
        decide (digit &&& F.not (F.not 0 >>> (4 - pos).toNat) ≠ 0)⟩
    else some ⟨exponent, pos, st.significand, st.extra || decide (digit ≠ 0)⟩

/-- The loop over the digits after the first (token.rs 574-591). -/
def scanLoop (st : Scan) : List (Nat × Bool) → Option Scan
  | [] => some st
  | (d, f) :: ds =>
    match F.scanStep st d f with
    | none => none
    | some st => scanLoop st ds

/-- The encoded exponent and significand and the discarded bits (token.rs 605-640). -/
def encodeParts (exponent : Int) (significand : Nat) : Nat × Nat × Nat :=
  if exponent ≤ -(F.bias : Int) then
    let shift := (F.signifBits : Int) + exponent + F.bias
    if shift = 0 then (0, 0, significand)
    else if shift < 0 ∨ (F.width : Int) ≤ shift then (0, 0, 0)
    else (0, significand >>> (F.width - shift.toNat), F.shl significand shift.toNat)
  else if exponent ≤ F.bias then
    (F.shl (exponent + F.bias).toNat F.signifBits,
     (significand >>> (F.width - F.signifBits - 1)) &&& (2 ^ F.signifBits - 1),
     F.shl significand (F.signifBits + 1))
  else (F.shl (2 ^ F.expBits - 1) F.signifBits, 0, 0)

/-- Encoding and rounding (token.rs 605-671), and the test for infinity. -/
def encode (negative : Bool) (exponent : Int) (significand : Nat) (extra : Bool) : FRes :=
  let parts := F.encodeParts exponent significand
  let bits := parts.1 ||| parts.2.1
  let up := (parts.2.2 &&& F.msb ≠ 0) ∧
    ((parts.2.2 &&& F.not F.msb ≠ 0) ∨ extra = true ∨ parts.2.1 &&& 1 ≠ 0)
  let bits := bits + (if up then 1 else 0)
  if 2 ^ F.width ≤ bits then .panic
  else
    let bits := if negative then bits ||| F.msb else bits
    -- `from_bits(bits).is_infinite()`
    if bits % 2 ^ (F.width - 1) = (2 ^ F.expBits - 1) * 2 ^ F.signifBits then .invalid else .bits bits

/-- `trim_start_matches('0')`. -/
def trimZeros (s : Text) : Text := s.dropWhile (· == '0')

/-- The hexadecimal branch of `$parse` (token.rs 509-673). -/
def parseHex (integral : Text) (fractional exponentStr : Option Text) : FRes :=
  let negative := decide (integral.head? = some '-')
  let integral := trimZeros (integral.dropWhile (· == '-'))
  let fractional := fractional.getD []
  let noLeading := trimZeros fractional
  let digits := integral.map (fun c => (toHex c, false)) ++
    (if integral = [] then noLeading else fractional).map (fun c => (toHex c, true))
  match digits with
  | [] => .bits (if negative then F.msb else 0)
  | (lead, _) :: digits =>
    let lz := digitLz lead
    let start : Option Int :=
      if integral ≠ [] then some 1
      else
        -- `(… + 1) as i32` wraps
        (inI32 (-((fractional.length - noLeading.length + 1 : Nat) : Int).bmod (2 ^ 32))).bind
          (fun x => inI32 (x + 1))
    match start with
    | none => .panic
    | some start =>
      match (inI32 (start * 4)).bind (fun x => inI32 (x - (lz + 1))) with
      | none => .invalid
      | some exponent =>
        let pos := F.width - (4 - lz)
        match F.scanLoop ⟨exponent, pos, F.shl lead pos, false⟩ digits with
        | none => .panic
        | some st =>
          match (match exponentStr with
            | some s => fromStrRadix true 32 10 s
            | none => some 0) with
          | none => .invalid
          | some e =>
            match inI32 (st.exponent + e) with
            | none => .invalid
            | some exponent => F.encode negative exponent st.significand st.extra

/-- `$parse` (token.rs 435-674). `dec` stands for the standard library's decimal `parse::<f32>()` or
`parse::<f64>()`, as bits. -/
def parseVal (dec : Text → Option Nat) : FloatVal → FRes
  | .inf negative =>
    .bits (F.shl (if negative then 1 else 0) (F.width - 1) ||| F.shl (2 ^ F.expBits - 1) F.signifBits)
  | .nan val negative =>
    match (match val with
      | some val => (fromStrRadix false F.width 16 val).map Int.toNat
      | none => some (2 ^ (F.signifBits - 1))) with
    | none => .invalid
    | some signif =>
      if signif = 0 ∨ signif &&& F.not (2 ^ F.signifBits - 1) ≠ 0 then .invalid
      else .bits (F.shl (if negative then 1 else 0) (F.width - 1) |||
        F.shl (2 ^ F.expBits - 1) F.signifBits ||| signif)
  | .val hex integral fractional exponent =>
    if hex then F.parseHex integral fractional exponent
    else
      let s := integral ++ (match fractional with | some f => '.' :: f | none => []) ++
        (match exponent with | some e => 'e' :: e | none => [])
      match dec s with
      | none => .invalid
      | some bits =>
        if bits % 2 ^ (F.width - 1) = (2 ^ F.expBits - 1) * 2 ^ F.signifBits then .invalid else .bits bits

/-- `Parse for F32` and `F64` (token.rs 408-433) on the token and its text; `none` if the token
is not a number (or `unwrap` panics). -/
def parseToken (dec : Text → Option Nat) (kind : TokenKind) (src : Text) : Option FRes :=
  match kind with
  | .float k => (tokenFloat src k).map (F.parseVal dec)
  | .integer k => (integerVal src k).map (fun s => F.parseVal dec (.val k.hex s none none))
  | _ => none

/-! ## Printing -/

/-- The value as a signed integer (`as $sint`). -/
def toSigned (x : Int) : Int := x.bmod (2 ^ F.width)

/-- `leading_zeros` of the integer type. -/
def leadingZeros (x : Nat) : Nat := if x = 0 then F.width else F.width - 1 - Nat.log2 x

/-- The loop over the digits of the fraction (lib.rs 2318-2321). The first argument bounds the
number of turns; four bits of `width` are shifted out in each. -/
def fractionDigits : Nat → Nat → Text
  | 0, _ => []
  | fuel + 1, fraction =>
    if fraction = 0 then [] else (fraction >>> (F.width - 4)).digitChar :: fractionDigits fuel (F.shl fraction 4)

/-- `{:+}` of an integer. -/
def printSigned (i : Int) : Text :=
  if i < 0 then '-' :: Nat.toDigits 10 i.natAbs else '+' :: Nat.toDigits 10 i.natAbs

/-- `print_float!` (lib.rs 2241-2334): the text of the literal, without colours and without the
comment and the spaces after it. -/
def printFloat (bits : Nat) : Text :=
  let mantissaWidth := F.width - 1 - F.expBits
  let bias : Int := 2 ^ (F.expBits - 1) - 1
  let maxExp : Int := 2 ^ (F.expBits - 1)
  let minExp : Int := -maxExp + 1
  let sign : Text := if bits >>> (F.width - 1) ≠ 0 then ['-'] else []
  let bits := if bits >>> (F.width - 1) ≠ 0 then bits ^^^ 2 ^ (F.width - 1) else bits
  -- `f.is_infinite()` and `f.is_nan()`
  let special := (2 ^ F.expBits - 1) * 2 ^ mantissaWidth
  if bits = special then sign ++ ['i', 'n', 'f']
  else if special < bits then
    let payload := bits &&& (2 ^ mantissaWidth - 1)
    if payload = 2 ^ (mantissaWidth - 1) then sign ++ ['n', 'a', 'n']
    else sign ++ ['n', 'a', 'n', ':', '0', 'x'] ++ Nat.toDigits 16 payload
  else
    let exponent := F.toSigned (F.toSigned (F.shl bits 1) / 2 ^ (mantissaWidth + 1) - bias)
    let exponent := F.toSigned (exponent * 2 ^ (F.width - F.expBits)) / 2 ^ (F.width - F.expBits)
    let fraction := bits &&& (2 ^ mantissaWidth - 1)
    if bits = 0 then sign ++ ['0', 'x', '0', 'p', '+', '0']
    else if 0 < fraction then
      let fraction := F.shl fraction (F.width - mantissaWidth)
      let leading := F.leadingZeros fraction
      let p : Nat × Int :=
        if exponent = minExp then
          (if leading < F.width - 1 then F.shl fraction (leading + 1) else 0, exponent - leading)
        else (fraction, exponent)
      sign ++ ['0', 'x', '1', '.'] ++ F.fractionDigits F.width p.1 ++ 'p' :: printSigned p.2
    else sign ++ ['0', 'x', '1', 'p'] ++ printSigned exponent

end Fmt

end Verif.Float
