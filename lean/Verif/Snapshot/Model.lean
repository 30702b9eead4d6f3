import Verif.Std.BinarySearch
/-!
# wasmparser's `SnapshotList`

Source: `/repo/crates/wasmparser/src/validator/types.rs`, line numbers below.

The `Arc`s only share immutable data, so a clone is a copy. A panic (`assert!`, index out of
range, `usize` underflow, which panics in debug builds and makes the following index panic in
release builds) is `none`.
-/
namespace Verif.Snapshot
open Verif.Std

/-- `struct Snapshot` (lines 749-753). -/
structure Snapshot (T : Type) where
  priorTypes : Nat
  items : List T

/-- `struct SnapshotList` (lines 729-747). -/
structure SnapshotList (T : Type) where
  snapshots : List (Snapshot T)
  snapshotsTotal : Nat
  cur : List T

variable {T : Type}

namespace SnapshotList

/-- `Default::default` (lines 848-856). -/
def default : SnapshotList T := ⟨[], 0, []⟩

/-- `get` (lines 757-775). The outer `Option` is the panic. -/
def get (bs : BSearch) (l : SnapshotList T) (index : Nat) : Option (Option T) :=
  if l.snapshotsTotal ≤ index then some l.cur[index - l.snapshotsTotal]?
  else do
    let i ← match bs.search (l.snapshots.map (·.priorTypes)) index with
      | .ok i => some i
      | .error i => if i = 0 then none else some (i - 1)
    let snapshot ← l.snapshots[i]?
    if index < snapshot.priorTypes then none
    else
      let x ← snapshot.items[index - snapshot.priorTypes]?
      pure (some x)

/-- `push` (lines 778-780). -/
def push (l : SnapshotList T) (v : T) : SnapshotList T := { l with cur := l.cur ++ [v] }

/-- `len` (lines 783-785). -/
def len (l : SnapshotList T) : Nat := l.cur.length + l.snapshotsTotal

/-- `truncate` (lines 789-792). -/
def truncate (l : SnapshotList T) (n : Nat) : Option (SnapshotList T) :=
  if l.snapshotsTotal ≤ n then some { l with cur := l.cur.take (n - l.snapshotsTotal) }
  else none

/-- `commit` (lines 800-818): the list afterwards, and the returned list. -/
def commit (l : SnapshotList T) : SnapshotList T × SnapshotList T :=
  let len := l.cur.length
  let l := if 0 < len then
      ⟨l.snapshots ++ [⟨l.snapshotsTotal, l.cur⟩], l.snapshotsTotal + len, []⟩
    else l
  (l, ⟨l.snapshots, l.snapshotsTotal, []⟩)

/-- `Index::index` (lines 821-846). -/
def index (bs : BSearch) (l : SnapshotList T) (i : Nat) : Option T := do
  let r ← l.get bs i
  r

end SnapshotList

/-- Operations on a pool of lists: `h` says on which list. A `commit` adds the list it returns
to the pool. -/
inductive Op (T : Type) where
  | default
  | push (h : Nat) (v : T)
  | truncate (h : Nat) (n : Nat)
  | commit (h : Nat)
  | get (h : Nat) (i : Nat)
  | index (h : Nat) (i : Nat)
  | len (h : Nat)

/-- What the caller sees of an operation. -/
inductive Res (T : Type) where
  | unit
  | opt (v : Option T)
  | val (v : T)
  | nat (n : Nat)
  deriving DecidableEq, Repr

/-- One operation on the pool; `none` is a panic (or a handle that does not exist, which no
program can have). -/
def step (bs : BSearch) (p : List (SnapshotList T)) :
    Op T → Option (List (SnapshotList T) × Res T)
  | .default => some (p ++ [.default], .unit)
  | .push h v => do let l ← p[h]?; pure (p.set h (l.push v), .unit)
  | .truncate h n => do let l ← p[h]?; pure (p.set h (← l.truncate n), .unit)
  | .commit h => do let l ← p[h]?; pure (p.set h l.commit.1 ++ [l.commit.2], .unit)
  | .get h i => do let l ← p[h]?; pure (p, .opt (← l.get bs i))
  | .index h i => do let l ← p[h]?; pure (p, .val (← l.index bs i))
  | .len h => do let l ← p[h]?; pure (p, .nat l.len)

/-- A history of operations. -/
def run (bs : BSearch) (p : List (SnapshotList T)) :
    List (Op T) → Option (List (SnapshotList T) × List (Res T))
  | [] => some (p, [])
  | op :: ops => do
    let (p', r) ← step bs p op
    let (p'', rs) ← run bs p' ops
    pure (p'', r :: rs)

end Verif.Snapshot
