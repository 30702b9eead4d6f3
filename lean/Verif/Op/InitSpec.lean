import Verif.Instr.Model
import Verif.TypeList.Spec
/-! Which locals are initialized, by the structure of blocks. -/
namespace Verif.Op.InitSpec
open Verif.Instr (Operator)

/-- A type that has a default value: all but references that cannot be null. -/
def HasDefault : TypeList.Spec.Val Nat → Prop
  | .ref r => r.nullable = true
  | _ => True

/-- The locals that have been set, for each block around the current position, innermost first. -/
abbrev Scopes := List (List (BitVec 32))

/-- The locals that have been set so far. -/
def Scopes.top (s : Scopes) : List (BitVec 32) := s.headD []

/-- The effect of an operator. What is set inside a block is forgotten at its end and where its
next part begins. -/
def Scopes.step (s : Scopes) : Operator → Scopes
  | .block _ _ => s.top :: s
  | .tryTable _ _ => s.top :: s
  | .else_ => Scopes.top s.tail :: s.tail
  | .catch_ _ => Scopes.top s.tail :: s.tail
  | .catchAll => Scopes.top s.tail :: s.tail
  | .end_ => s.tail
  | .delegate _ => s.tail
  | .idx .localSet i => (i :: s.top) :: s.tail
  | .idx .localTee i => (i :: s.top) :: s.tail
  | _ => s

/-- The locals that have been set after a sequence of operators in the body of a function. -/
def setLocals (os : List Operator) : List (BitVec 32) := Scopes.top (os.foldl Scopes.step [[]])

/-- The locals that groups of declarations stand for. -/
def expand (vs : List (BitVec 32 × TypeList.Spec.Val Nat)) : List (TypeList.Spec.Val Nat) :=
  vs.flatMap fun d => List.replicate d.1.toNat d.2

end Verif.Op.InitSpec
