import Mathlib.Data.Rat.Lemmas
import Mathlib.Algebra.Order.Field.Rat
import Mathlib.Algebra.Order.AbsoluteValue.Basic
import Verif.Float.Model
import Verif.Wat.Spec
/-
What floating point literals stand for: binary interchange formats of IEEE 754 and rounding to
nearest, ties to even.
-/
namespace Verif.Float.Spec

open Verif.Std Verif.Wat Verif.Wat.Spec

/-- The digits of a base in a text; anything else, like underscores, is skipped. -/
def digitsOf (base : Nat) (t : Text) : List Nat := t.filterMap (toDigit base)

/-- The number with these digits. -/
def ofDigits (base : Nat) (ds : List Nat) : Nat := ds.foldl (fun n d => n * base + d) 0

/-- The number of bits of the significand that are stored. -/
def fracBits (F : Fmt) : Nat := F.width - 1 - F.expBits

/-- The exponent of one, as stored. -/
def bias (F : Fmt) : Int := 2 ^ (F.expBits - 1) - 1

/-- The magnitude of the number whose exponent and significand are stored as `b`. For values of `b`
that do not fit (from the one that encodes infinity on) this is the number if the format had
more exponents. -/
def magnitude (F : Fmt) (b : Nat) : ℚ :=
  let e : Nat := b / 2 ^ fracBits F
  let f : Nat := b % 2 ^ fracBits F
  if e = 0 then f * (2 : ℚ) ^ (1 - bias F - fracBits F)
  else (2 ^ fracBits F + f : Nat) * (2 : ℚ) ^ ((e : Int) - bias F - fracBits F)

/-- The encoding of infinity. -/
def infinity (F : Fmt) : Nat := (2 ^ F.expBits - 1) * 2 ^ fracBits F

/-- `b` is what `v` is rounded to: no number is nearer, and of two that are as near it is the even
one. -/
structure Rounds (F : Fmt) (v : ℚ) (b : Nat) : Prop where
  nearest : ∀ b', |v - magnitude F b| ≤ |v - magnitude F b'|
  even : ∀ b', b' ≠ b → |v - magnitude F b'| = |v - magnitude F b| → b % 2 = 0

/-- The sign bit. -/
def signBit (F : Fmt) (negative : Bool) : Nat := if negative then 2 ^ (F.width - 1) else 0

/-- The value of a literal is rounded; what overflows is not a literal of the type. -/
def Literal (F : Fmt) (negative : Bool) (v : ℚ) (r : FRes) : Prop :=
  ∃ b, Rounds F v b ∧ r = if b < infinity F then .bits (signBit F negative + b) else .invalid

/-- The fraction of a float and its digits. -/
inductive FracDigits (base : Nat) : Text → List Nat → Prop where
  | none : FracDigits base [] []
  | dot : FracDigits base ['.'] []
  | digits {t : Text} {n : Nat} : Digits base true t n → FracDigits base ('.' :: t) (digitsOf base t)

/-- The exponent of a float and its value. -/
inductive ExpVal (hex : Bool) : Text → Int → Prop where
  | none : ExpVal hex [] 0
  | some {e : Char} {s t : Text} {sg : Option Sign} {n : Nat} :
      (if hex = true then e = 'p' ∨ e = 'P' else e = 'e' ∨ e = 'E') →
      Sgn sg s → Digits 10 true t n → ExpVal hex (e :: s ++ t) (if sg = some .minus then -(n : Int) else n)

/-- A hexadecimal number token: its sign, digits, how many of the digits are after the point, and the
binary exponent. -/
inductive HexLit : TokenKind → Text → Bool → List Nat → Nat → Int → Prop where
  | int {sg : Option Sign} {s t : Text} {n : Nat} : Sgn sg s → Digits 16 true t n →
      HexLit (.integer ⟨sg, hasUnderscore t, true⟩) (s ++ ['0', 'x'] ++ t) (sg = some .minus) (digitsOf 16 t) 0 0
  | float {sg : Option Sign} {s t f e : Text} {n : Nat} {df : List Nat} {x : Int} : Sgn sg s →
      Digits 16 true t n → FracDigits 16 f df → ExpVal true e x → f ++ e ≠ [] →
      HexLit (.float (.normal (hasUnderscore (t ++ f ++ e)) true)) (s ++ ['0', 'x'] ++ (t ++ f ++ e))
        (sg = some .minus) (digitsOf 16 t ++ df) df.length x

/-- The magnitude a hexadecimal literal stands for. -/
def hexValue (ds : List Nat) (fracDigits : Nat) (exponent : Int) : ℚ :=
  ofDigits 16 ds * (2 : ℚ) ^ (exponent - 4 * fracDigits)

/-- The digits from the first one that is not zero on. -/
def significant (ds : List Nat) : List Nat := ds.dropWhile (· == 0)

/-- The digits without the one that straddles the end of the integer type: the digit with index
`width / 4` after the first significant one, if that is below 8. -/
def dropStraddling (F : Fmt) (ds : List Nat) : List Nat :=
  let sig := significant ds
  if sig.headD 0 < 8 then ds.set (ds.length - sig.length + F.width / 4) 0 else ds

end Verif.Float.Spec
