import Verif.Smith.NoTraps
/-
What the claims about code that does not trap are in terms of.
-/
namespace Verif.Smith.Spec

open Verif.Smith

variable {S P : Type}

/-- The instructions are well nested, and executing them in the first state ends normally in the second one,
whatever the functions of the module are. -/
def Evaluates (W : World S P) (is : List (Instr P)) (st st' : St S) : Prop :=
  ∃ c, parse is = some c ∧ ∀ M, ∃ n, ∀ n', n ≤ n' → exec W M n' c st = .normal st'

/-- Nothing but the stack, the store and locals from this number on differs. -/
structure Keeps (locals : Nat) (st st' : St S) : Prop where
  locals : ∀ i, i < locals → st'.locals i = st.locals i
  globals : st'.globals = st.globals
  ticks : st'.ticks = st.ticks

/-- The divisor in place of zero. -/
def nonzero {w : Nat} (b : BitVec w) : BitVec w := if b = 0 then 1 else b

/-- The divisor in place of zero and of minus one where the quotient would be out of range. -/
def safeDivisor {w : Nat} (a b : BitVec w) : BitVec w := if b = 0 ∨ a = BitVec.intMin w ∧ b = -1 then 1 else b

/-- Does the generated code access the memory? -/
def accesses (w pages pageSize offset size : Nat) (a : BitVec w) : Prop :=
  0 < a.toInt ∧ a.toNat + offset + size < pages * pageSize % 2 ^ w

instance (w pages pageSize offset size : Nat) (a : BitVec w) : Decidable (accesses w pages pageSize offset size a) := by
  unfold accesses; infer_instance

/-- The number of a float; infinities and what is not a number count as zero. -/
def finite : FVal → ℚ
  | .fin q => q
  | _ => 0

/-- The least number that is truncated as it is. -/
def minLimit : ITy → FTy → Bool → Int
  | _, _, false => 0
  | .i32, .f32, true => -(2 ^ 31 - 128)
  | .i64, .f32, true => -2 ^ 63
  | .i32, .f64, true => -2 ^ 31
  | .i64, .f64, true => -(2 ^ 63 - 1024)

/-- The greatest number that is truncated as it is. -/
def maxLimit : ITy → FTy → Int
  | .i32, .f32 => 2 ^ 31 - 128
  | .i64, .f32 => 2 ^ 63 - 2 ^ 39
  | .i32, .f64 => 2 ^ 31 - 1
  | .i64, .f64 => 2 ^ 63 - 1024

/-- The nearest number between the limits. -/
def clamp (lo hi q : ℚ) : ℚ := if q < lo then lo else if hi < q then hi else q

/-- The canonical NaN of the specification: positive, and of the fraction only the first bit is set. -/
def canonicalNan (t : FTy) : BitVec t.bits :=
  BitVec.ofNat t.bits (Float.Spec.infinity t.fmt + 2 ^ (Float.Spec.fracBits t.fmt - 1))

/-- A float with every NaN replaced by the canonical one. -/
def canonical (t : FTy) (x : BitVec t.bits) : BitVec t.bits :=
  if FVal.ofBits t.fmt x.toNat = .nan then canonicalNan t else x

end Verif.Smith.Spec
