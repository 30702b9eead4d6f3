import Verif.Op.LocalsLemmas
/-! Looking up locals. -/
namespace Verif.Op.Props
open Verif.Std LocalsSpec

/-- **C19.** After any sequence of declarations, whatever the implementation of binary search:
each declaration is accepted exactly when at most 50000 locals are declared in total, the number
of locals is right, and looking up any index gives the type that was declared for it, or nothing
past the end. -/
theorem locals_lookup (bs : BSearch) (ds : List (BitVec 32 × Val)) (idx : BitVec 32) :
    (Locals.new.defineAll ds).1 = (declare [] ds).1 ∧
    (Locals.new.defineAll ds).2.numLocals.toNat = (declare [] ds).2.length ∧
    (Locals.new.defineAll ds).2.get bs idx = (declare [] ds).2[idx.toNat]? :=
  have h := Locals.rep_defineAll ds Locals.rep_new
  ⟨h.1, h.2.num, Locals.rep_get h.2 bs idx⟩

/-- Three groups across the border of the cache, a rejected one and an empty one. -/
example : (declare [] [(49, .i32), (3, .i64), (0, .f32), (49990, .f64), (2, .v128)]).1 =
      [true, true, true, false, true] ∧
    (declare [] [(49, .i32), (3, .i64), (0, .f32), (49990, .f64), (2, .v128)]).2[51]? = some .i64 ∧
    (Locals.new.defineAll [(49, .i32), (3, .i64), (0, .f32), (49990, .f64), (2, .v128)]).2.get
      BSearch.linear 53 = some .v128 ∧
    (Locals.new.defineAll [(49, .i32), (3, .i64), (0, .f32), (49990, .f64), (2, .v128)]).2.get
      BSearch.linear 54 = none := by
  decide +kernel

end Verif.Op.Props
