/-!
# wasmparser's b-tree backed `IndexMap`

Source: `/repo/crates/wasmparser/src/collections/index_map/detail.rs`, line numbers below;
`IndexSet` in `/repo/crates/wasmparser/src/collections/index_set.rs`.

The `BTreeMap<K, SlotIndex>` is represented by the partial function it stands for
(its documented behaviour for a lawful `Ord`); only lookups, insertions, removals and
in-place updates of it are used by the code. A panic (slice index out of range, `expect`) is
`none`.
-/
namespace Verif.IndexMap

/-- `struct Slot` (lines 63-70). -/
structure Slot (K V : Type) where
  key : K
  value : V
  deriving Repr

/-- `struct IndexMap` (lines 126-137). -/
structure IndexMap (K V : Type) where
  key2slot : K → Option Nat
  slots : List (Slot K V)

variable {K V : Type} [DecidableEq K]

/-- `BTreeMap::insert` / `VacantEntry::insert` / assignment through `get_mut`. -/
def mapSet (m : K → Option Nat) (k : K) (i : Nat) : K → Option Nat :=
  fun x => if x = k then some i else m x

/-- `BTreeMap::remove`. -/
def mapRemove (m : K → Option Nat) (k : K) : K → Option Nat :=
  fun x => if x = k then none else m x

/-- `Vec::swap_remove`: takes out element `i` and puts the last element in its place; `none`
is its panic. -/
def vecSwapRemove {α : Type} (l : List α) (i : Nat) : Option (α × List α) := do
  let x ← l[i]?
  let last ← l.getLast?
  pure (x, (l.set i last).dropLast)

namespace IndexMap

/-- `new` (lines 149-154). -/
def new : IndexMap K V := ⟨fun _ => none, []⟩

/-- `len` (lines 172-174). -/
def len (m : IndexMap K V) : Nat := m.slots.length

/-- `is_empty` (lines 177-179). -/
def isEmpty (m : IndexMap K V) : Bool := m.len == 0

/-- `contains_key` (lines 185-191). -/
def containsKey (m : IndexMap K V) (k : K) : Bool := (m.key2slot k).isSome

/-- `insert_full` (lines 216-236). -/
def insertFull (m : IndexMap K V) (key : K) (value : V) :
    Option (IndexMap K V × Nat × Option V) :=
  match m.key2slot key with
  | none =>
    let index := m.slots.length
    some (⟨mapSet m.key2slot key index, m.slots ++ [⟨key, value⟩]⟩, index, none)
  | some index => do
    let oldSlot ← m.slots[index]?
    pure (⟨m.key2slot, m.slots.set index ⟨key, value⟩⟩, index, some oldSlot.value)

/-- `insert` (lines 200-205). -/
def insert (m : IndexMap K V) (key : K) (value : V) : Option (IndexMap K V × Option V) := do
  let (m', _, old) ← m.insertFull key value
  pure (m', old)

/-- `swap_remove_full` (lines 279-298). The outer `Option` is the panic, the inner one the
method's result. -/
def swapRemoveFull (m : IndexMap K V) (key : K) :
    Option (IndexMap K V × Option (Nat × K × V)) :=
  match m.key2slot key with
  | none => some (m, none)
  | some index => do
    let key2slot := mapRemove m.key2slot key
    let (removed, slots) ← vecSwapRemove m.slots index
    if index ≠ slots.length then
      let swapped := (← slots[index]?).key
      let _ ← key2slot swapped
      pure (⟨mapSet key2slot swapped index, slots⟩, some (index, removed.key, removed.value))
    else
      pure (⟨key2slot, slots⟩, some (index, removed.key, removed.value))

/-- `swap_remove_entry` (lines 262-269). -/
def swapRemoveEntry (m : IndexMap K V) (key : K) : Option (IndexMap K V × Option (K × V)) := do
  let (m', r) ← m.swapRemoveFull key
  pure (m', r.map fun x => (x.2.1, x.2.2))

/-- `swap_remove` (lines 244-251). -/
def swapRemove (m : IndexMap K V) (key : K) : Option (IndexMap K V × Option V) := do
  let (m', r) ← m.swapRemoveFull key
  pure (m', r.map fun x => x.2.2)

/-- `get` (lines 321-329). -/
def get (m : IndexMap K V) (key : K) : Option (Option V) :=
  match m.key2slot key with
  | none => some none
  | some i => do pure (some (← m.slots[i]?).value)

/-- `get_mut` (lines 335-343) followed by a write of `f` of the old value through the
reference; the result says whether the key was there. -/
def modify (m : IndexMap K V) (key : K) (f : V → V) : Option (IndexMap K V × Bool) :=
  match m.key2slot key with
  | none => some (m, false)
  | some i => do
    let s ← m.slots[i]?
    pure (⟨m.key2slot, m.slots.set i ⟨s.key, f s.value⟩⟩, true)

/-- `get_full` (lines 366-376); the key returned is the one in the b-tree. `get_key_value`
(350-358) is the same without the index. -/
def getFull (m : IndexMap K V) (key : K) : Option (Option (Nat × K × V)) :=
  match m.key2slot key with
  | none => some none
  | some i => do pure (some (i, key, (← m.slots[i]?).value))

/-- `get_index_of` (lines 383-389). -/
def getIndexOf (m : IndexMap K V) (key : K) : Option Nat := m.key2slot key

/-- `get_index` (lines 392-394). -/
def getIndex (m : IndexMap K V) (i : Nat) : Option (K × V) :=
  m.slots[i]?.map fun s => (s.key, s.value)

/-- `get_index_mut` (lines 397-399) followed by a write through the reference. -/
def modifyIndex (m : IndexMap K V) (i : Nat) (f : V → V) : IndexMap K V × Bool :=
  match m.slots[i]? with
  | none => (m, false)
  | some s => (⟨m.key2slot, m.slots.set i ⟨s.key, f s.value⟩⟩, true)

/-- `iter` (lines 402-406, 565-578), the items in order. -/
def iter (m : IndexMap K V) : List (K × V) := m.slots.map fun s => (s.key, s.value)

/-- `clear` (lines 437-440). -/
def clear (_ : IndexMap K V) : IndexMap K V := ⟨fun _ => none, []⟩

/-- `entry(key).or_insert(default)` (lines 301-315, 816-824, 938-947, 1000-1003): the value
the returned reference points to. -/
def entryOrInsert (m : IndexMap K V) (key : K) (default : V) : Option (IndexMap K V × V) :=
  match m.key2slot key with
  | some index => do pure (m, (← m.slots[index]?).value)
  | none => do
    let index := m.slots.length
    let slots := m.slots ++ [⟨key, default⟩]
    pure (⟨mapSet m.key2slot key index, slots⟩, (← slots[index]?).value)

/-- `entry(key)`, and if it is occupied `OccupiedEntry::insert(value)` (lines 1007-1016). -/
def entryReplace (m : IndexMap K V) (key : K) (value : V) : Option (IndexMap K V × Option V) :=
  match m.key2slot key with
  | none => some (m, none)
  | some index => do
    let oldSlot ← m.slots[index]?
    pure (⟨m.key2slot, m.slots.set index ⟨key, value⟩⟩, some oldSlot.value)

/-- `extend` (lines 488-500). -/
def extend (m : IndexMap K V) : List (K × V) → Option (IndexMap K V)
  | [] => some m
  | (k, v) :: rest => do
    let (m', _) ← m.insert k v
    m'.extend rest

end IndexMap

/-- The operations of the map, with their arguments. -/
inductive Op (K V : Type) where
  | insertFull (k : K) (v : V)
  | insert (k : K) (v : V)
  | swapRemoveFull (k : K)
  | swapRemoveEntry (k : K)
  | swapRemove (k : K)
  | modify (k : K) (f : V → V)
  | modifyIndex (i : Nat) (f : V → V)
  | entryOrInsert (k : K) (v : V)
  | entryReplace (k : K) (v : V)
  | extend (l : List (K × V))
  | clear
  | len
  | containsKey (k : K)
  | get (k : K)
  | getFull (k : K)
  | getIndexOf (k : K)
  | getIndex (i : Nat)
  | iter

/-- What a caller sees of an operation. -/
inductive Res (K V : Type) where
  | unit
  | bool (b : Bool)
  | nat (n : Nat)
  | val (v : V)
  | optNat (n : Option Nat)
  | optVal (v : Option V)
  | optPair (p : Option (K × V))
  | optFull (p : Option (Nat × K × V))
  | inserted (i : Nat) (old : Option V)
  | items (l : List (K × V))
  deriving DecidableEq, Repr

/-- Runs one operation on the model; `none` is a panic. -/
def step (m : IndexMap K V) : Op K V → Option (IndexMap K V × Res K V)
  | .insertFull k v => do let (m', i, o) ← m.insertFull k v; pure (m', .inserted i o)
  | .insert k v => do let (m', o) ← m.insert k v; pure (m', .optVal o)
  | .swapRemoveFull k => do let (m', o) ← m.swapRemoveFull k; pure (m', .optFull o)
  | .swapRemoveEntry k => do let (m', o) ← m.swapRemoveEntry k; pure (m', .optPair o)
  | .swapRemove k => do let (m', o) ← m.swapRemove k; pure (m', .optVal o)
  | .modify k f => do let (m', b) ← m.modify k f; pure (m', .bool b)
  | .modifyIndex i f => let (m', b) := m.modifyIndex i f; some (m', .bool b)
  | .entryOrInsert k v => do let (m', x) ← m.entryOrInsert k v; pure (m', .val x)
  | .entryReplace k v => do let (m', o) ← m.entryReplace k v; pure (m', .optVal o)
  | .extend l => do pure (← m.extend l, .unit)
  | .clear => some (m.clear, .unit)
  | .len => some (m, .nat m.len)
  | .containsKey k => some (m, .bool (m.containsKey k))
  | .get k => do pure (m, .optVal (← m.get k))
  | .getFull k => do pure (m, .optFull (← m.getFull k))
  | .getIndexOf k => some (m, .optNat (m.getIndexOf k))
  | .getIndex i => some (m, .optPair (m.getIndex i))
  | .iter => some (m, .items m.iter)

/-- Runs a sequence of operations and collects what the caller sees. -/
def run (m : IndexMap K V) : List (Op K V) → Option (IndexMap K V × List (Res K V))
  | [] => some (m, [])
  | op :: ops => do
    let (m', r) ← step m op
    let (m'', rs) ← run m' ops
    pure (m'', r :: rs)

end Verif.IndexMap
