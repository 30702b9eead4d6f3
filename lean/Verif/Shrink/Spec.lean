import Verif.Shrink.Model
/-
What a shrinking run is supposed to do, in terms of the calls that it makes to the predicate and
to the callback.
-/
namespace Verif.Shrink.Spec

/-- The predicate was asked about `w` and found it interesting. -/
def FoundInteresting (log : List (Wasm × Option Bool)) (w : Wasm) : Prop := (w, some true) ∈ log

/-- The sizes strictly decrease along the list. -/
def Decreasing (l : List Wasm) : Prop := l.Pairwise (fun a b => b.length < a.length)

/-- No candidate was given to the predicate twice, apart from the two checks at the start. -/
def NoRepeat (log : List (Wasm × Option Bool)) : Prop := ((log.drop 2).map Prod.fst).Nodup

end Verif.Shrink.Spec
