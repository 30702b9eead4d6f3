import Verif.Snapshot.Lemmas
/-! # C22: `SnapshotList` is a vector with a frozen prefix -/
namespace Verif.Snapshot
open Verif.Std
variable {T : Type}

/-- **C22.** Whatever the binary search, any history of operations on any number of lists,
including all the clones returned by `commit`, shows the caller what independent vectors show,
where a commit copies the vector and freezes its elements; and it panics exactly when those
vectors do: on an index out of range and on truncating into the frozen part. -/
theorem c22_refines (bs : BSearch) (ops : List (Op T)) :
    (run bs [] ops).map (·.2) = (Spec.run [] ops).map (·.2) :=
  run_refines bs ops .nil

/-- Four buckets, one of them taken by a clone that goes its own way. -/
example : (run BSearch.linear [] [.default, .push 0 'a', .push 0 'b', .commit 0, .push 0 'c',
    .commit 0, .push 1 'x', .push 0 'd', .push 0 'e', .truncate 0 4, .get 0 1, .get 0 2,
    .get 1 2, .get 2 2, .get 2 3, .index 0 3, .len 0, .len 1, .len 2]).map (·.2.drop 10) =
    some [.opt (some 'b'), .opt (some 'c'), .opt (some 'x'), .opt (some 'c'), .opt none,
      .val 'd', .nat 4, .nat 3, .nat 3] := by
  decide

/-- Truncating into the committed part panics. -/
example : (run BSearch.linear [] [.default, .push 0 'a', .commit 0, .truncate 0 0]).map (·.2) =
    none := by decide

end Verif.Snapshot
