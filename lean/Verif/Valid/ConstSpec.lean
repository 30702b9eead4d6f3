import Verif.Op.TypingSpec
import Verif.Items.Model
/-! Constant expressions, in the manner of the WebAssembly specification (version 3.0, section
3.4.14, with the proposals `extended-const`, `gc` and `shared-everything-threads`). -/
namespace Verif.Valid.Spec
open Verif.Op.Typing
open Verif.Instr (Operator OperatorsReader)

/-- The instructions without immediates that are constant. -/
def constPlain : List Instr.Plain :=
  [.i32Add, .i32Sub, .i32Mul, .i64Add, .i64Sub, .i64Mul, .refI31, .refI31Shared,
    .externConvertAny, .anyConvertExtern]

/-- The instructions with an index that are constant. -/
def constIdx : List Instr.Idx :=
  [.refFunc, .structNew, .structNewDefault, .arrayNew, .arrayNewDefault]

/-- The instructions that may occur in constant expressions. -/
def Const (C : Ctx) : Operator → Prop
  | .i32Const _ | .i64Const _ | .f32Const _ | .f64Const _ | .v128Const _ => True
  | .plain o => o ∈ constPlain
  | .heap o _ => o = .refNull
  | .idx o i => o ∈ constIdx ∨
      o = .globalGet ∧ ∃ g, C.globals[i.toNat]? = some g ∧ g.mutable = false
  | .idx2 o _ _ => o = .arrayNewFixed
  | _ => False

/-- The expression has this type and is constant. -/
def ConstTy (C : Ctx) (os : List Operator) (t : V) : Prop :=
  Valid (Fn.body C [] [t] [] false) os ∧ ∀ o ∈ os, o = .end_ ∨ Const C o

/-- The bytes of a constant expression are these operators. -/
def ConstOps (f : Instr.Features) (c : Items.ConstExpr) (os : List Operator) : Prop :=
  ∃ s, (OperatorsReader.new c.reader).collect f = .ok (os, s) ∧ s.finish = .ok ()

end Verif.Valid.Spec
