import Verif.TypeList.Spec
/-! # Canonical identifiers -/
namespace Verif.TypeList
open Spec (DefType)

/-- The identifiers `ids` of the defined types `ds`, one after the other: a type that has been
there before keeps its identifier, and a new one gets the least that has not been used. `n` have
been used. -/
inductive Numbered : List DefType → List Nat → Nat → Prop
  | nil : Numbered [] [] 0
  | old {ds ids n d id} {i : Nat} : Numbered ds ids n → ds[i]? = some d → ids[i]? = some id →
      Numbered (ds ++ [d]) (ids ++ [id]) n
  | new {ds ids n d} : Numbered ds ids n → d ∉ ds → Numbered (ds ++ [d]) (ids ++ [n]) (n + 1)

end Verif.TypeList
