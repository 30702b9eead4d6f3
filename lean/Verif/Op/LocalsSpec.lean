import Verif.TypeList.Spec
/-! What declarations of locals mean. -/
namespace Verif.Op.LocalsSpec

/-- The locals that a sequence of declarations introduces, in order. A declaration that would
make more than 50000 locals is not accepted and introduces none; the flag of each declaration
says whether it was accepted. -/
def declare : List (TypeList.Spec.Val Nat) → List (BitVec 32 × TypeList.Spec.Val Nat) → List Bool × List (TypeList.Spec.Val Nat)
  | L, [] => ([], L)
  | L, (n, t) :: ds =>
    if L.length + n.toNat ≤ 50000 then
      let r := declare (L ++ List.replicate n.toNat t) ds
      (true :: r.1, r.2)
    else
      let r := declare L ds
      (false :: r.1, r.2)

end Verif.Op.LocalsSpec
