import Verif.Snapshot.Model
/-! # What a `SnapshotList` should be: a vector whose first `committed` elements are frozen -/
namespace Verif.Snapshot.Spec

structure Vec (T : Type) where
  items : List T
  committed : Nat
  deriving DecidableEq, Repr

variable {T : Type}

def step (p : List (Vec T)) : Op T → Option (List (Vec T) × Res T)
  | .default => some (p ++ [⟨[], 0⟩], .unit)
  | .push h v => p[h]?.map fun l => (p.set h ⟨l.items ++ [v], l.committed⟩, .unit)
  | .truncate h n => p[h]?.bind fun l =>
      if l.committed ≤ n then some (p.set h ⟨l.items.take n, l.committed⟩, .unit) else none
  | .commit h => p[h]?.map fun l =>
      (p.set h ⟨l.items, l.items.length⟩ ++ [⟨l.items, l.items.length⟩], .unit)
  | .get h i => p[h]?.map fun l => (p, .opt l.items[i]?)
  | .index h i => p[h]?.bind fun l => l.items[i]?.map fun x => (p, .val x)
  | .len h => p[h]?.map fun l => (p, .nat l.items.length)

def run (p : List (Vec T)) : List (Op T) → Option (List (Vec T) × List (Res T))
  | [] => some (p, [])
  | op :: ops =>
    (step p op).bind fun (p', r) => (run p' ops).map fun (p'', rs) => (p'', r :: rs)

end Verif.Snapshot.Spec
