import Verif.Op.Arity
/-! What it means that an operator has an arity. -/
namespace Verif.Op.AritySpec
open Verif.Op
open Verif.Types (ValType)
open Verif.Instr (Operator)

/-- How many operands the innermost block has. -/
def avail (S : St) : Nat :=
  match S.control with
  | [] => 0
  | fr :: _ => S.operands.length - fr.height

/-- The innermost block can be reached. -/
def Live (S : St) : Prop := ∃ fr rest, S.control = fr :: rest ∧ fr.unreachable = false

/-- From one state to the next, `a` operands of the innermost block are taken and `b` are left in
their place; what is below stays as it is. Only in code that cannot be reached may there be fewer
operands than are taken. -/
structure Takes (a b : Nat) (S S' : St) : Prop where
  enough : Live S → a ≤ avail S
  left : ∃ new, new.length = b ∧ S'.operands = new ++ S.operands.drop (min a (avail S))

/-- From one state to the next, `a` operands of the innermost block are taken, and what follows in
the block cannot be reached. -/
structure Leaves (a : Nat) (S S' : St) : Prop where
  enough : Live S → a ≤ avail S
  left : S'.operands = S.operands.drop (avail S)
  dead : ¬ Live S'

/-- The operators after which a block cannot go on. -/
def stops : Operator → Bool
  | .plain .unreachable | .plain .return_ | .plain .throwRef => true
  | .idx .br _ | .idx .throw _ | .idx .rethrow _ | .idx .returnCall _
  | .idx .returnCallRef _ => true
  | .brTable _ | .returnCallIndirect _ _ => true
  | _ => false

/-- Pops and pushes in the order in which they happen, from a log in which the last comes first
and pushes are `none`; `true` is a push. -/
def trace (l : List (Option MT)) : List Bool := l.reverse.map Option.isNone

/-- The states that come about while a function or a constant is accepted: a new validator, then
locals, then operators while a block is open, with `op` or `try_op`. An operator that `try_op`
refuses does not end it. -/
inductive Runs (E : Env) : St → Prop where
  | func {ty : BitVec 32} {S : St} : newFunc E ty = .ok S → Runs E S
  | constExpr (ty : Val) : Runs E (newConstExpr ty)
  | locals {n : BitVec 32} {t : ValType} {S S' : St} : Runs E S →
    defineLocals E n t S = (.ok (), S') → Runs E S'
  | op {o : Operator} {S S' : St} : Runs E S → S.control ≠ [] → Op.op E o S = (.ok (), S') →
    Runs E S'
  | tryOp {o : Operator} {S S' : St} {r : Except Fail Unit} : Runs E S → S.control ≠ [] →
    Op.tryOp E o S = (r, S') → r ≠ .error .panic → Runs E S'

end Verif.Op.AritySpec
