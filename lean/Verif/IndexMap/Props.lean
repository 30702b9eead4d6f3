import Verif.IndexMap.Lemmas
/-! # C21: `IndexMap` is an insertion-ordered map -/
namespace Verif.IndexMap
variable {K V : Type} [DecidableEq K]

/-- **C21.** Any history of operations on a new map runs without panic and shows the caller
exactly what the insertion-ordered list of pairs shows; at the end, iteration yields that
list, and no key occurs twice in it. -/
theorem c21_refines (ops : List (Op K V)) :
    ∃ m, run (.new : IndexMap K V) ops = some (m, (Spec.run [] ops).2) ∧
      m.iter = (Spec.run [] ops).1 ∧ (m.iter.map (·.1)).Nodup := by
  obtain ⟨m, h1, h2, h3⟩ := run_refines (m := (.new : IndexMap K V)) inv_new ops
  exact ⟨m, h1, h3, inv_nodup h2⟩

/-- Removing the first of three keys moves the last one to the front; lookups still work. -/
example : ((run (.new : IndexMap Nat Nat) [.insert 1 10, .insert 2 20, .insert 3 30,
    .swapRemoveFull 1, .getFull 3, .insertFull 2 21, .iter]).map (·.2)) =
    some [.optVal none, .optVal none, .optVal none, .optFull (some (0, 1, 10)),
      .optFull (some (0, 3, 30)), .inserted 1 (some 20), .items [(3, 30), (2, 21)]] := by
  decide

end Verif.IndexMap
