import Verif.Op.ArityCtrl
import Verif.Op.TryProps
/-! Every operator that the validator accepts has an arity, and the arity is what the validator
does. -/
namespace Verif.Op.AritySpec
open Verif.Op
open Verif.Types (ValType)
open Verif.Instr (Operator)
open Verif.Op.Props (exampleEnv)

variable {E : Env} {S S' : St} {o : Operator}

/-- Where the validator accepts an operator, `operator_arity` gives numbers and does not panic;
the operator takes as many operands as the first of them says, and leaves as many as the second,
or else ends the block. -/
theorem operator_arity (h : Runs E S) (hc : S.control ≠ []) (ho : op E o S = (.ok (), S')) :
    ∃ a b, operatorArity E S.control o = .ok (a, b) ∧ (stops o = false → Takes a b S S') ∧
      (stops o = true → b = 0 ∧ Leaves a S S') := by
  cases hS : S.control with
  | nil => exact absurd hS hc
  | cons fr rest =>
    obtain ⟨a, b, S1, h1, h2, h3, h4⟩ := (did_op o h.nested hS ho).arity
    refine ⟨a, b, h1, fun hs => ?_, fun hs => ?_⟩
    · rw [hs] at h4
      cases (h4 : S' = S1)
      exact h2.takes hS
    · rw [hs] at h4
      obtain ⟨rfl, hc1⟩ := h3 hs
      exact ⟨rfl, h2.leaves' hS hc1 h4⟩

/-- The check of debug builds in `FuncValidator::validate`, in code that can be reached: counting
the pops and pushes of an operator that is accepted gives its arity. Where the block ends, the
operands that are thrown away are not counted. -/
theorem arity_of_log {S0 : St} {L : Log} {a b : Nat} (h : Runs E S) (hlive : Live S)
    (hb : beginTryOp S = (.ok (), S0)) (ho : op E o S0 = (.ok (), S'))
    (hL : S'.log = some L) (ha : operatorArity E S.control o = .ok (a, b)) :
    ∃ (left : List MT) (counted : List (Option MT)),
      L.operands = left.map some ++ counted ∧ countLog (trace counted) (0, 0) = (a, b) ∧
      left.length = if stops o then avail S - a else 0 := by
  obtain ⟨fr, rest, hS, hu⟩ := hlive
  have h0 : S0.control = S.control ∧ S0.operands = S.operands ∧
      ∃ L0, S0.log = some L0 ∧ L0.operands = [] := by
    unfold beginTryOp at hb
    split at hb
    · cases hb
    · cases hb
      exact ⟨rfl, rfl, _, rfl, rfl⟩
  obtain ⟨c0, o0, L0, hl0, hL0⟩ := h0
  have hn0 : Nested S0 := by
    have := h.nested
    unfold Nested at *
    rw [c0, o0]
    exact this
  obtain ⟨a', b', S1, h1, h2, h3, h4⟩ := (did_op o hn0 (c0.trans hS) ho).arity
  rw [hS, h1] at ha
  cases ha
  obtain ⟨tr, L1, e1, e2, e3⟩ := h2.log L0 hl0
  rw [hL0, List.append_nil] at e2
  have hcnt : countLog (trace tr) (0, 0) = (a, b) := e3 hu
  cases hs : stops o with
  | false =>
    rw [hs] at h4
    cases (h4 : S' = S1)
    rw [hL] at e1
    cases e1
    exact ⟨[], tr, by simpa using e2, hcnt, rfl⟩
  | true =>
    rw [hs] at h4
    obtain ⟨rfl, hc1⟩ := h3 hs
    have hav : avail S = S0.operands.length - fr.height := by
      unfold avail
      rw [hS, o0]
    have hlen := h2.length
    have hen := h2.enough hu
    have hle := hn0.top (c0.trans hS)
    change unreachable S1 = _ at h4
    unfold unreachable at h4
    rw [hc1, c0, hS] at h4
    dsimp only at h4
    rw [if_pos (show fr.height ≤ S1.operands.length by omega), e1, hu] at h4
    cases h4
    cases hL
    refine ⟨(S1.operands.take (S1.operands.length - fr.height)).reverse, tr, ?_, hcnt, ?_⟩
    · dsimp only
      rw [e2]
    · rw [if_pos rfl, List.length_reverse, List.length_take, hav]
      omega

/-- In code that can be reached, the number of operands after an operator is known before it. -/
theorem height_of_arity {a b : Nat} (h : Runs E S) (hlive : Live S)
    (ho : op E o S = (.ok (), S')) (hs : stops o = false)
    (ha : operatorArity E S.control o = .ok (a, b)) :
    a ≤ S.operands.length ∧ S'.operands.length = S.operands.length - a + b := by
  have hc : S.control ≠ [] := by
    obtain ⟨fr, rest, hS, -⟩ := hlive
    rw [hS]
    simp
  obtain ⟨a', b', h1, h2, -⟩ := operator_arity h hc ho
  rw [h1] at ha
  cases ha
  obtain ⟨h3, new, rfl, h4⟩ := h2 hs
  have h5 := h3 hlive
  have h6 : avail S ≤ S.operands.length := by
    unfold avail
    split <;> omega
  rw [h4, Nat.min_eq_left h5, List.length_append, List.length_drop]
  omega

/-- Whether operators are accepted one after the other, each in an open block. -/
def accepted (E : Env) : List Operator → St → Bool
  | [], _ => true
  | o :: os, S => !S.control.isEmpty && (op E o S).1.isOk && accepted E os (op E o S).2

/-- The state after operators. -/
def after (E : Env) : List Operator → St → St
  | [], S => S
  | o :: os, S => after E os (op E o S).2

theorem runs_after : ∀ (os : List Operator) {S : St}, Runs E S → accepted E os S = true →
    Runs E (after E os S)
  | [], _, h, _ => h
  | o :: os, S, h, ha => by
    simp only [accepted, Bool.and_eq_true, Bool.not_eq_eq_eq_not, Bool.not_true,
      List.isEmpty_eq_false_iff] at ha
    refine runs_after os ?_ ha.2
    rcases ho : op E o S with ⟨r, S1⟩
    rw [ho] at ha
    cases r with
    | error e => exact absurd ha.1.2 (by simp [Except.isOk, Except.toBool])
    | ok u => exact h.op ha.1.1 ho

/-- A new function that takes an `i32`. -/
def arityStart : St :=
  match newFunc exampleEnv 0 with
  | .error _ => newConstExpr .i32
  | .ok S => S

theorem runs_arityStart : Runs exampleEnv arityStart := by
  unfold arityStart
  cases h : newFunc exampleEnv 0 with
  | error e => exact .constExpr _
  | ok S => exact .func h

/-- Operands, and an `if` with more of them. -/
def arityOps : List Operator :=
  [.i64Const 7, .i64Const 8, .idx .localGet 0, .block .if_ .empty, .idx .localGet 0,
    .idx .localGet 0]

/-- Within the `if`: `i32.add` takes two and leaves one; `br_if` to the function takes one; `br`
to the `if` takes none, and the two operands in the `if` go; afterwards `i32.add` is accepted and
takes two although there are none. The frames are those of the function and the `if`. -/
example :
    let S := after exampleEnv arityOps arityStart
    Runs exampleEnv S ∧ S.control ≠ [] ∧ Live S ∧ avail S = 2 ∧ S.operands.length = 4 ∧
    (op exampleEnv (.plain .i32Add) S).1 = .ok () ∧
    operatorArity exampleEnv S.control (.plain .i32Add) = .ok (2, 1) ∧
    (op exampleEnv (.plain .i32Add) S).2.operands.length = 3 ∧
    (op exampleEnv (.idx .brIf 1) S).1 = .ok () ∧
    operatorArity exampleEnv S.control (.idx .brIf 1) = .ok (1, 0) ∧
    (op exampleEnv (.idx .brIf 1) S).2.operands.length = 3 ∧
    (op exampleEnv (.idx .br 0) S).1 = .ok () ∧
    operatorArity exampleEnv S.control (.idx .br 0) = .ok (0, 0) ∧
    (op exampleEnv (.idx .br 0) S).2.operands.length = 2 ∧
    accepted exampleEnv [.idx .br 0, .plain .i32Add] S = true := by
  refine ⟨runs_after arityOps runs_arityStart (by decide +kernel), by decide +kernel,
    ⟨⟨.if_, .empty, 2, false, 0⟩, [⟨.block, .func 0, 0, false, 0⟩], by decide +kernel, rfl⟩, ?_⟩
  refine ⟨by decide +kernel, by decide +kernel, by decide +kernel, by decide +kernel,
    by decide +kernel, by decide +kernel, by decide +kernel, by decide +kernel, by decide +kernel,
    by decide +kernel, by decide +kernel, by decide +kernel⟩

/-- A label of a loop counts the parameters of the loop, another label the results: with a loop
of type 0, which takes an `i32` and gives nothing, and with a block of that type. -/
example :
    operatorArity exampleEnv [⟨.loop, .func 0, 0, false, 0⟩] (.idx .br 0) = .ok (1, 0) ∧
    operatorArity exampleEnv [⟨.block, .func 0, 0, false, 0⟩] (.idx .br 0) = .ok (0, 0) ∧
    operatorArity exampleEnv [⟨.if_, .func 0, 0, false, 0⟩] .else_ = .ok (0, 1) := by
  decide +kernel

end Verif.Op.AritySpec
