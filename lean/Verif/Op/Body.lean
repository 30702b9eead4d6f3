import Verif.Op.Gate
import Verif.Op.InitLemmas
/-! Validating a function from the bytes of its body, declarations of locals included. -/
namespace Verif.Op
open Verif.Types (ValType)
open Verif.Instr (Operator OperatorsReader)
open Verif.Reader

variable (E : Env)

/-- The loop of `FuncValidator::read_locals` (func.rs lines 191-197): the number counts the
groups to come. -/
def readLocalsFrom : Nat → Reader → M Reader
  | 0, r => pure r
  | n + 1, r =>
    match readVarU32 r with
    | .error _ => fail .error
    | .ok (cnt, r) =>
      match Types.readValType r with
      | .error _ => fail .error
      | .ok (ty, r) => do
        defineLocals E cnt ty
        readLocalsFrom n r

/-- `FuncValidator::read_locals` (func.rs lines 190-198). -/
def readLocals (r : Reader) : M Reader :=
  match readVarU32 r with
  | .error _ => fail .error
  | .ok (n, r) => readLocalsFrom E n.toNat r

/-- `FuncValidator::validate` (func.rs lines 117-185). The features that `set_features` gives to
the reader of the operators are `rf`; the debugging checks are left out. -/
def validate (rf : Instr.Features) (body : Reader) : M Unit := do
  let r ← readLocals E body
  validateBody E rf r

/-! ## What the bytes say -/

/-- So many groups of declarations of locals. -/
inductive Groups : Nat → Reader → List (BitVec 32 × ValType) → Reader → Prop
  | nil (r : Reader) : Groups 0 r [] r
  | cons {n : Nat} {r r1 r2 r3 : Reader} {c : BitVec 32} {t : ValType}
      {ds : List (BitVec 32 × ValType)} : readVarU32 r = .ok (c, r1) →
      Types.readValType r1 = .ok (t, r2) → Groups n r2 ds r3 → Groups (n + 1) r ((c, t) :: ds) r3

/-- The bytes of a body hold these declarations of locals and then these operators, and nothing
else. The operators are those of `OperatorsReader`, which knows nothing of types. -/
def Parsed (rf : Instr.Features) (body : Reader) (ds : List (BitVec 32 × ValType))
    (os : List Operator) : Prop :=
  ∃ (n : BitVec 32) (r r' : Reader) (s : OperatorsReader), readVarU32 body = .ok (n, r) ∧
    Groups n.toNat r ds r' ∧ (OperatorsReader.new r').collect rf = .ok (os, s) ∧
    s.finish = .ok ()

end Verif.Op
