import Verif.Std.BinarySearch
import Verif.TypeList.Spec
/-! The locals of a function, as the operator validator stores them
(crates/wasmparser/src/validator/operators.rs). -/
namespace Verif.Op
open Verif.Std

/-- Canonicalized value types: every type index is a `CoreTypeId`. In the packed form of
`ValType`s these are the references whose index is `UnpackedIndex::Id` (C11). -/
abbrev Val := TypeList.Spec.Val Nat
/-- Canonicalized reference types. -/
abbrev Ref := TypeList.Spec.Ref Nat
/-- Canonicalized heap types. -/
abbrev Heap := TypeList.Spec.Heap Nat

/-- `MAX_LOCALS_TO_TRACK` (lines 187-189). -/
def maxLocalsToTrack : Nat := 50
/-- `MAX_WASM_FUNCTION_LOCALS` (limits.rs line 32). -/
def maxWasmFunctionLocals : Nat := 50000

/-- `struct Locals` (lines 191-216). `num_locals` is a `u32`. -/
structure Locals where
  numLocals : BitVec 32
  first : List Val
  uncached : List (BitVec 32 × Val)
  deriving DecidableEq, Repr

/-- The locals of a new validator (lines 347-378, with empty allocations). -/
def Locals.new : Locals := ⟨0, [], []⟩

/-- `u32::checked_add`. -/
def checkedAdd (a b : BitVec 32) : Option (BitVec 32) :=
  if a.toNat + b.toNat < 2 ^ 32 then some (a + b) else none

/-- `Locals::define` (lines 4737-4761): whether it worked, and the new value. -/
def Locals.define (l : Locals) (count : BitVec 32) (ty : Val) : Bool × Locals :=
  if count = 0 then (true, l)
  else
    let vacantFirst := maxLocalsToTrack - l.numLocals.toNat
    match checkedAdd l.numLocals count with
    | none => (false, l)
    | some n =>
      if n.toNat > maxWasmFunctionLocals then (false, l)
      else
        let pushToFirst := min vacantFirst count.toNat
        let first := l.first ++ List.replicate pushToFirst ty
        let uncached :=
          if count.toNat - pushToFirst > 0 then l.uncached ++ [(n - 1, ty)] else l.uncached
        (true, ⟨n, first, uncached⟩)

/-- `Locals::get_bsearch` (lines 4777-4791), for any implementation of the standard library's
binary search. -/
def Locals.getBsearch (bs : BSearch) (l : Locals) (idx : BitVec 32) : Option Val :=
  match bs.search (l.uncached.map (·.1.toNat)) idx.toNat with
  | .error i => if i = l.uncached.length then none else (l.uncached[i]?).map (·.2)
  | .ok i => (l.uncached[i]?).map (·.2)

/-- `Locals::get` (lines 4769-4775). -/
def Locals.get (bs : BSearch) (l : Locals) (idx : BitVec 32) : Option Val :=
  match l.first[idx.toNat]? with
  | some ty => some ty
  | none => l.getBsearch bs idx

end Verif.Op
