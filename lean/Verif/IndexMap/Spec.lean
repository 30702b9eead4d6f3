import Verif.IndexMap.Model
/-!
The abstract map: a list of key/value pairs in insertion order, with at most one pair per
key. Every operation is described on that list alone.
-/
namespace Verif.IndexMap.Spec
variable {K V : Type} [DecidableEq K]

/-- Position of a key. -/
def pos (l : List (K × V)) (k : K) : Option Nat := l.findIdx? (fun p => decide (p.1 = k))

/-- The pair with the given key. -/
def find (l : List (K × V)) (k : K) : Option (K × V) := l.find? (fun p => decide (p.1 = k))

/-- A new key goes to the end; an existing key keeps its place and gets the new value. -/
def insert (l : List (K × V)) (k : K) (v : V) : List (K × V) :=
  if (find l k).isSome then l.map (fun p => if p.1 = k then (k, v) else p) else l ++ [(k, v)]

/-- Apply `f` to the value of `k`. -/
def modify (l : List (K × V)) (k : K) (f : V → V) : List (K × V) :=
  l.map fun p => if p.1 = k then (p.1, f p.2) else p

/-- Remove the pair at `i`; the last pair takes its place. -/
def removeAt (l : List (K × V)) (i : Nat) : List (K × V) :=
  if i + 1 = l.length then l.take i
  else l.take i ++ l.getLast?.toList ++ (l.drop (i + 1)).dropLast

/-- Remove a key; the last pair takes its place. -/
def swapRemove (l : List (K × V)) (k : K) : List (K × V) :=
  match pos l k with
  | none => l
  | some i => removeAt l i

/-- Position, key and value. -/
def full (l : List (K × V)) (k : K) : Option (Nat × K × V) :=
  match pos l k, find l k with
  | some i, some p => some (i, p)
  | _, _ => none

/-- One operation on the abstract map. -/
def step (l : List (K × V)) : Op K V → List (K × V) × Res K V
  | .insertFull k v =>
    (insert l k v, .inserted ((pos l k).getD l.length) ((find l k).map (·.2)))
  | .insert k v => (insert l k v, .optVal ((find l k).map (·.2)))
  | .swapRemoveFull k => (swapRemove l k, .optFull (full l k))
  | .swapRemoveEntry k => (swapRemove l k, .optPair (find l k))
  | .swapRemove k => (swapRemove l k, .optVal ((find l k).map (·.2)))
  | .modify k f => (modify l k f, .bool (find l k).isSome)
  | .modifyIndex i f => match l[i]? with
    | none => (l, .bool false)
    | some p => (modify l p.1 f, .bool true)
  | .entryOrInsert k v => match find l k with
    | some p => (l, .val p.2)
    | none => (l ++ [(k, v)], .val v)
  | .entryReplace k v => match find l k with
    | some p => (insert l k v, .optVal (some p.2))
    | none => (l, .optVal none)
  | .extend kvs => (kvs.foldl (fun l p => insert l p.1 p.2) l, .unit)
  | .clear => ([], .unit)
  | .len => (l, .nat l.length)
  | .containsKey k => (l, .bool (find l k).isSome)
  | .get k => (l, .optVal ((find l k).map (·.2)))
  | .getFull k => (l, .optFull (full l k))
  | .getIndexOf k => (l, .optNat (pos l k))
  | .getIndex i => (l, .optPair l[i]?)
  | .iter => (l, .items l)

def run (l : List (K × V)) : List (Op K V) → List (K × V) × List (Res K V)
  | [] => (l, [])
  | op :: ops =>
    let (l', r) := step l op
    let (l'', rs) := run l' ops
    (l'', r :: rs)

end Verif.IndexMap.Spec
