import Verif.Op.Reach
/-! `try_op` (C18). -/
namespace Verif.Op.Props
open Verif.Std Verif.Op
open Verif.Instr (Operator)

/-- **C18.** Whatever calls have led to the state `S` of a function validator, and for every
operator: if `op` accepts it then `try_op` does so and leads to the same state; if `op` reports an
error, at whatever point, then so does `try_op`, and the whole state (operands, frames,
reachability, initialized locals) is what it was. `try_op` panics only if `op` does. -/
theorem try_op_atomic {E : Env} {S : St} (h : Reachable E S) (o : Operator) :
    (∀ S', op E o S = (.ok (), S') → tryOp E o S = (.ok (), S')) ∧
    (∀ S', op E o S = (.error .error, S') → tryOp E o S = (.error .error, S)) ∧
    (∀ S', op E o S = (.error .panic, S') → ∃ S'', tryOp E o S = (.error .panic, S'')) :=
  tryOp_eq h.ready o

/-- **C18.** A transaction that is rolled back after an operator gives back the state, also when
the operator was accepted (the check of `debug_check_try_op`, func.rs lines 125-136). -/
theorem rollback_restores {E : Env} {S S1 S2 : St} (h : Reachable E S) {o : Operator}
    {r : Except Fail Unit} (hb : beginTryOp S = (.ok (), S1)) (ho : op E o S1 = (r, S2))
    (hr : r ≠ .error .panic) : rollback S2 = (.ok (), S) := by
  rw [begin_eq h.ready] at hb
  cases hb
  obtain ⟨r', S', L', h1, h2, hb⟩ := op_exec (E := E) h.ready o
  rw [h2] at ho
  cases ho
  rcases hb with hb | ⟨hb, -⟩
  · exact absurd hb hr
  · exact rollback_eq hb

/-! ## An example -/

/-- All features. -/
def allFeatures : Features :=
  ⟨true, true, true, true, true, true, true, true, true, true, true, true, true, true, true, true,
    true, true, true, true, true, true⟩

/-- A module with one type, a function from `i32` to nothing. -/
def exampleEnv : Env where
  f := allFeatures
  bs := BSearch.linear
  R := {
    tableAt := fun _ => none
    memoryAt := fun _ => none
    tagAt := fun _ => none
    globalAt := fun _ => none
    subTypeAt := fun i => if i = 0 then some ⟨true, none, false, none, none, .func [.i32] []⟩ else none
    subTypeAtId := fun _ => none
    typeIdOfFunction := fun _ => none
    typeIndexOfFunction := fun _ => none
    elementTypeAt := fun _ => none
    isSubtype := fun a b => a == b
    isShared := fun _ => false
    checkHeapType := fun _ => .error .error
    topType := id
    dataCount := none
    isFunctionReferenced := fun _ => false
    hasFunctionExactType := fun _ => false }

/-- The state after `local.get 0; i64.const 7; i32.const 0`. -/
def exampleState : St :=
  match newFunc exampleEnv 0 with
  | .error _ => newConstExpr .i32
  | .ok S => (runOps exampleEnv [.idx .localGet 0, .i64Const 7, .i32Const 0] S).2

theorem reachable_runOps {E : Env} : ∀ (os : List Operator) {S S' : St} {r : Except Fail Unit},
    Reachable E S → runOps E os S = (r, S') → r ≠ .error .panic → Reachable E S'
  | [], S, S', r, h, hr, _ => by cases hr; exact h
  | o :: os, S, S', r, h, hr, hp => by
    unfold runOps each at hr
    rw [bind_def] at hr
    rcases ho : op E o S with ⟨r1, S1⟩
    rw [ho] at hr
    cases r1 with
    | error e => cases hr; exact h.op ho hp
    | ok u => exact reachable_runOps os (h.op ho (by simp)) hr hp

/-- Adding an `i64` to an `i32` fails after one operand was taken off: `op` loses it, `try_op`
does not. Popping both and pushing the sum works on the operands before. -/
example : Reachable exampleEnv exampleState ∧
    exampleState.operands = [.known .i32, .known .i64, .known .i32] ∧
    (op exampleEnv (.plain .i32Add) exampleState).1 = .error .error ∧
    (op exampleEnv (.plain .i32Add) exampleState).2.operands = [.known .i32] ∧
    tryOp exampleEnv (.plain .i32Add) exampleState = (.error .error, exampleState) := by
  refine ⟨?_, by decide +kernel, by decide +kernel, by decide +kernel, by decide +kernel⟩
  unfold exampleState
  cases h : newFunc exampleEnv 0 with
  | error e => exact .constExpr _
  | ok S =>
    rcases hr : runOps exampleEnv [.idx .localGet 0, .i64Const 7, .i32Const 0] S with ⟨r, S'⟩
    dsimp only
    rw [hr]
    refine reachable_runOps _ (.func h) hr ?_
    rw [show S = (match newFunc exampleEnv 0 with | .error _ => newConstExpr .i32 | .ok S => S) by
      rw [h]] at hr
    have : (runOps exampleEnv [.idx .localGet 0, .i64Const 7, .i32Const 0]
      (match newFunc exampleEnv 0 with | .error _ => newConstExpr .i32 | .ok S => S)).1 = .ok () := by
      decide +kernel
    rw [hr] at this
    dsimp only at this
    rw [this]
    simp

end Verif.Op.Props
