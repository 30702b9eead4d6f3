import Verif.Gc.EncSpec
/-! What it means that a collected adapter allocates its stack. -/
namespace Verif.Gc.Spec
open Verif.Reader Verif.Instr Verif.Items Verif.Reenc Verif.Reenc.Spec

/-- The mutable `i32` global is kept and has this name. -/
def IsNamed (m : Module) (L : Live) (name : List UInt8) (i : BitVec 32) : Prop :=
  ∃ g, m.globals[i.toNat]? = some g ∧ live L (.global, i) = true ∧ g.ty.mutable = true ∧
    g.ty.contentType = .i32 ∧ m.globalNames.lookup i = some name

/-- It is the only one, or there is none. -/
def Named (m : Module) (L : Live) (name : List UInt8) : Option (BitVec 32) → Prop
  | none => ∀ i, ¬ IsNamed m L name i
  | some i => IsNamed m L name i ∧ ∀ j, IsNamed m L name j → j = i

/-- The function is the `cabi_realloc` of the main module or `realloc_via_memory_grow`. -/
def IsReallocOut (main : Option (List UInt8)) : OutFunc → Prop
  | .imp mm n _ => mm = mainModule ∧ main = some n
  | .loc _ b => reallocFunction = .ok b

def ReallocAt (main : Option (List UInt8)) (o : Out) (k : BitVec 32) : Prop :=
  ∃ fn, (outFuncs o)[k.toNat]? = some fn ∧ IsReallocOut main fn

/-- Function `k` has type `[] → []` and gets a stack for the stack pointer `sp` from a
`cabi_realloc`, and the state of the allocation is in the global `st`. -/
def StackAt (main : Option (List UInt8)) (o : Out) (k sp : BitVec 32) (st : Option (BitVec 32)) :
    Prop :=
  ∃ ty b realloc, (outFuncs o)[k.toNat]? = some (.loc ty b) ∧
    o.types[ty.toNat]? = some emptyFuncType ∧ ReallocAt main o realloc ∧
    stackFunction realloc sp st = .ok b

/-- Who allocates the stack: with a `cabi_realloc` of the main module and a global for the state
all exported functions do so first, otherwise the start function, provided that there is a memory.
-/
def StackInit (m : Module) (main : Option (List UInt8)) (L : Live) (o : Out)
    (first : List Operator) (sp' : BitVec 32) (st st' : Option (BitVec 32)) : Prop :=
  if st.isSome ∧ main.isSome then
    o.start = none ∧ ∃ k, first = [.idx .call k] ∧ StackAt main o k sp' st'
  else first = [] ∧
    ((∀ i t, m.memories[i.toNat]? = some t → live L (.memory, i) = false) ∧ o.start = none ∨
      (∃ i t, m.memories[i.toNat]? = some t ∧ live L (.memory, i) = true) ∧
        ∃ k, o.start = some k ∧ StackAt main o k sp' st')

/-- The adapter without a stack pointer gets no stack, and an adapter with one gets it, with the
globals where the renaming put them. -/
def Stack (m : Module) (main : Option (List UInt8)) (L : Live) (o : Out) (ρ : Maps)
    (first : List Operator) : Prop :=
  ∃ sp st, Named m L stackPointer sp ∧ Named m L allocationState st ∧
    match sp with
    | none => first = [] ∧ o.start = none
    | some sp => StackInit m main L o first (ρ.global sp) st (st.map ρ.global)

end Verif.Gc.Spec
