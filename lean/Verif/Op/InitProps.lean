import Verif.Op.InitLemmas
import Verif.Op.TryProps
/-! Reading locals (C20). -/
namespace Verif.Op.Props
open Verif.Std Verif.Op
open Verif.Instr (Operator)
open Verif.Types (ValType RefType)

theorem hasDefault_iff (t : Val) : InitSpec.HasDefault t ↔ isDefaultable t = true := by
  cases t <;> simp [InitSpec.HasDefault, isDefaultable]

/-- **C20.** A function of type `ty`, with parameters `ps`, declares groups of locals `ds` whose
types in the module are those of `vs`; operators `os` have been accepted, in whatever nesting of
blocks. Then `local.get x` is accepted if and only if there is a local `x` and it is a parameter,
or has a type with default values, or was set by an operator of `os` in a block that is still open
(`InitSpec.setLocals`). The number of parameters is at most 1000 in a valid module
(`MAX_WASM_FUNCTION_PARAMS`). -/
theorem local_get_iff {E : Env} {ty : BitVec 32} {sub : TypeList.Spec.SubT Nat} {ps rs : List Val}
    (hsub : E.R.subTypeAt ty = some sub) (hf : sub.comp = .func ps rs) (hl : ps.length ≤ 50000)
    {ds : List (BitVec 32 × ValType)} {vs : List (BitVec 32 × Val)} {os : List Operator}
    {S0 S1 S2 : St} (h0 : newFunc E ty = .ok S0)
    (hd : List.Forall₂ (fun d v => d.1 = v.1 ∧ ∃ S, checkValueType E d.2 S0 = (.ok v.2, S)) ds vs)
    (h1 : defineAllLocals E ds S0 = (.ok (), S1)) (h2 : runOps E os S1 = (.ok (), S2))
    (x : BitVec 32) :
    (∃ S, op E (.idx .localGet x) S2 = (.ok (), S)) ↔
      ∃ t, (ps ++ InitSpec.expand vs)[x.toNat]? = some t ∧
        (x.toNat < ps.length ∨ InitSpec.HasDefault t ∨ x ∈ InitSpec.setLocals os) := by
  have h := ((St.Pre.defineAll ds vs (newFunc_pre h0 hsub hf hl) hd h1).ok).runOps os h2
  rw [h.get x]
  simp only [hasDefault_iff]
  exact Iff.rfl

/-! ## An example -/

/-- A module with one type, a function from `(ref func)` to nothing. -/
def initEnv : Env where
  f := allFeatures
  bs := BSearch.linear
  R := { exampleEnv.R with
    subTypeAt := fun i =>
      if i = 0 then some ⟨true, none, false, none, none, .func [.ref ⟨false, .abs false .func⟩] []⟩
      else none
    checkHeapType := fun h => match h with
      | .abstract s a => .ok (.abs s a)
      | _ => .error .error }

/-- `(local (ref func)) (local i32)`. -/
def initLocals : List (BitVec 32 × ValType) := [(1, .ref ⟨RefType.funcAbstype⟩), (1, .i32)]

/-- The state before the first operator. -/
def initStart : St :=
  match newFunc initEnv 0 with
  | .error _ => newConstExpr .i32
  | .ok S => S

/-- Local 1, of type `(ref func)`, is set inside a block: it can be read there, and no longer after
its end. Locals 0 (a parameter) and 2 (an `i32`) can always be read, and there is no local 3. -/
example :
    newFunc initEnv 0 = .ok initStart ∧
    initLocals.map (fun d => (checkValueType initEnv d.2 initStart).1) =
      [.ok (.ref ⟨false, .abs false .func⟩), .ok .i32] ∧
    (defineAllLocals initEnv initLocals initStart).1 = .ok () ∧
    (let S := (defineAllLocals initEnv initLocals initStart).2
     let inside : List Operator := [.block .block .empty, .idx .localGet 0, .idx .localSet 1]
     let after : List Operator := inside ++ [.idx .localGet 1, .plain .drop, .end_]
     (runOps initEnv inside S).1 = .ok () ∧ (runOps initEnv after S).1 = .ok () ∧
     InitSpec.setLocals inside = [1] ∧ InitSpec.setLocals after = [] ∧
     (op initEnv (.idx .localGet 1) (runOps initEnv inside S).2).1 = .ok () ∧
     (op initEnv (.idx .localGet 1) (runOps initEnv after S).2).1 = .error .error ∧
     (op initEnv (.idx .localGet 0) (runOps initEnv after S).2).1 = .ok () ∧
     (op initEnv (.idx .localGet 2) (runOps initEnv after S).2).1 = .ok () ∧
     (op initEnv (.idx .localGet 3) (runOps initEnv after S).2).1 = .error .error) := by
  decide +kernel

end Verif.Op.Props
