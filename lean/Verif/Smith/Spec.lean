import Verif.Smith.Terminate
/-
What the claims about generated code are in terms of.
-/
namespace Verif.Smith.Spec

open Verif.Smith

variable {S P : Type}

/-- The functions of a module as they are executed: imported functions come first. -/
def func (m : Module P) (f : Nat) : Option (Func P) := do
  let imports := m.funcs.length - m.code.length
  if f < imports then none
  else
    let ty ← m.funcs[f]?
    let code ← m.code[f - imports]?
    match code.instructions with
    | .generated is => do
      let body ← parse is
      some ⟨ty.1, ty.2, code.locals, body⟩
    | .arbitrary => none

/-- What validation says about the indices of locals and globals in a function. -/
def InScope (globals locals : Nat) (is : List (Instr P)) : Prop :=
  (∀ i, .op (.globalGet i) ∈ is ∨ .op (.globalSet i) ∈ is → i < globals) ∧
  ∀ i, .op (.localGet i) ∈ is ∨ .op (.localSet i) ∈ is ∨ .op (.localTee i) ∈ is → i < locals

/-- A generated module as validation wants it to be: bodies are well nested and use locals and globals
that exist. -/
structure Valid (m : Module P) : Prop where
  counts : m.code.length ≤ m.funcs.length
  bodies : ∀ i (h : i < m.code.length) ty, m.funcs[m.funcs.length - m.code.length + i]? = some ty →
    ∃ body : Code P, m.code[i].instructions = .generated body.flatten ∧
      InScope m.globals.length (ty.1 + m.code[i].locals.length) body.flatten

/-- The tables a bulk instruction refers to. -/
def tables : Bulk → List Nat
  | .tableInit t _ | .tableFill t => [t]
  | .tableCopy d s => [d, s]
  | _ => []

/-- The memories a bulk instruction refers to. -/
def memories : Bulk → List Nat
  | .memoryInit m _ | .memoryFill m => [m]
  | .memoryCopy d s => [d, s]
  | _ => []

/-- The tables and memories that bulk instructions refer to exist. -/
def BulkInScope (m : Module P) : Prop :=
  ∀ code ∈ m.code, ∀ is, code.instructions = .generated is → ∀ b, .op (.bulk b) ∈ is →
    (∀ t ∈ tables b, t < m.table64.length) ∧ ∀ i ∈ memories b, i < m.memory64.length

/-- The memories and tables of a module have the address types that the embedder gives them. -/
structure Agrees (W : World S P) (m : Module P) : Prop where
  memory : ∀ i b, m.memory64[i]? = some b → W.memTy i = if b then .i64 else .i32
  table : ∀ i b, m.table64[i]? = some b → W.tableTy i = if b then .i64 else .i32

/-- The state at an end, if there is one. -/
def final? : Out S → Option (St S)
  | .normal st | .branch _ st | .ret st | .exn _ st | .trap st => some st
  | .stuck | .timeout => none

/-- A call ends in this way: with every budget from some on. -/
def Ends (W : World S P) (m : Module P) (f : Nat) (st : St S) (o : Out S) : Prop :=
  o ≠ .timeout ∧ ∃ n, ∀ n', n ≤ n' → invoke W (func m) n' f st = o

/-- The same except for one global. The locals are those of the caller. -/
structure SameBut (g : Nat) (st st' : St S) : Prop where
  stack : st'.stack = st.stack
  store : st'.store = st.store
  globals : ∀ i, i ≠ g → st'.globals i = st.globals i
  ticks : st'.ticks = st.ticks

/-- Ends in the same way and in the same state except for one global; a trap discards the operands. -/
inductive SameEnd (g : Nat) : Out S → Out S → Prop where
  | normal {st st'} : SameBut g st st' → SameEnd g (.normal st) (.normal st')
  | exn {vs st st'} : SameBut g st st' → SameEnd g (.exn vs st) (.exn vs st')
  | trap {st st'} : SameBut g { st with stack := [] } { st' with stack := [] } → SameEnd g (.trap st) (.trap st')

end Verif.Smith.Spec
