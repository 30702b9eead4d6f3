import Verif.Op.RollbackVisit
/-! The states that a function validator can be in. -/
namespace Verif.Op
open Verif.Types (ValType)
open Verif.Instr (Operator)

variable (E : Env)

/-- The states that come about by calls of the interface of `FuncValidator`: a new validator,
then declarations of locals and operators, with `op` or with `try_op`, whether they succeed or
not. A call that panics gives no state. -/
inductive Reachable : St → Prop where
  | func {ty : BitVec 32} {S : St} : newFunc E ty = .ok S → Reachable S
  | constExpr (ty : Val) : Reachable (newConstExpr ty)
  | locals {n : BitVec 32} {t : ValType} {S S' : St} {r : Except Fail Unit} : Reachable S →
    defineLocals E n t S = (r, S') → r ≠ .error .panic → Reachable S'
  | op {o : Operator} {S S' : St} {r : Except Fail Unit} : Reachable S →
    op E o S = (r, S') → r ≠ .error .panic → Reachable S'
  | tryOp {o : Operator} {S S' : St} {r : Except Fail Unit} : Reachable S →
    tryOp E o S = (r, S') → r ≠ .error .panic → Reachable S'

theorem LocalInits.good_new : LocalInits.new.Good := ⟨.nil, by simp [LocalInits.new]⟩

theorem LocalInits.good_params {l : LocalInits} (hg : l.Good) (n : Nat) :
    (l.defineParams n).Good :=
  ⟨hg.nodup, fun i hi => ⟨(hg.mem i hi).1, by
    have h := (hg.mem i hi).2
    unfold LocalInits.defineParams
    dsimp only
    rw [List.getElem?_append_left (List.getElem?_eq_some_iff.1 h).1, h]⟩⟩

theorem LocalInits.good_locals {l : LocalInits} (hg : l.Good) (n : BitVec 32) (t : Val) :
    (l.defineLocals n t).Good := by
  refine ⟨hg.nodup, fun i hi => ⟨?_, ?_⟩⟩
  · have h := (hg.mem i hi).1
    unfold LocalInits.defineLocals
    dsimp only
    split
    · next hc =>
      have hf : l.first = BitVec.allOnes 32 := by
        simp only [Bool.and_eq_true, beq_iff_eq] at hc
        exact hc.2
      rw [hf] at h
      have hi : i = BitVec.allOnes 32 := by
        apply BitVec.eq_of_toNat_eq
        have h1 : (BitVec.allOnes 32).toNat ≤ i.toNat := h
        have h2 := i.isLt
        simp only [BitVec.toNat_allOnes] at h1 ⊢
        omega
      rw [hi]
      have := (BitVec.ofNat 32 l.localInits.length).isLt
      show (BitVec.ofNat 32 l.localInits.length).toNat ≤ (BitVec.allOnes 32).toNat
      simp only [BitVec.toNat_allOnes]
      omega
    · exact h
  · have h := (hg.mem i hi).2
    unfold LocalInits.defineLocals
    dsimp only
    rw [List.getElem?_append_left (List.getElem?_eq_some_iff.1 h).1, h]

/-- What holds in all these states. -/
structure St.Ready (S : St) : Prop where
  log : S.log = none
  good : S.inits.Good

variable {E}

theorem St.log_none {S : St} (h : S.log = none) : { S with log := none } = S := by
  cases S
  cases h
  rfl

/-- An operator with and without a transaction. -/
theorem op_exec {S : St} (h : S.Ready) (o : Operator) :
    ∃ (r : Except Fail Unit) (S1 : St) (L1 : Log),
    op E o S = (r, { S1 with log := none }) ∧
    op E o { S with log := some (log0 S) } = (r, { S1 with log := some L1 }) ∧
    (r = .error .panic ∨ (S1.undo L1 = some S ∧ S1.inits.Good)) := by
  obtain ⟨r, S1, L1, h1, h2, hb⟩ := exec_op E o S h.good
  rw [St.log_none h.log] at h1
  refine ⟨r, S1, L1, h1, h2, ?_⟩
  rcases hb with hb | ⟨hb, hb'⟩
  · exact .inl hb
  · rw [St.log_none h.log] at hb
    exact .inr ⟨hb, hb'⟩

theorem begin_eq {S : St} (h : S.Ready) :
    beginTryOp S = (.ok (), { S with log := some (log0 S) }) := by
  unfold beginTryOp
  rw [h.log]
  rfl

theorem undo_log (S : St) (lg : Option Log) (L : Log) : { S with log := lg }.undo L = S.undo L := by
  rw [undo_eq, undo_eq]

theorem rollback_eq {S1 S : St} {L1 : Log} (h : S1.undo L1 = some S) :
    rollback { S1 with log := some L1 } = (.ok (), S) := by
  unfold rollback
  dsimp only
  rw [undo_log, h]

theorem tryOp_eq {S : St} (h : S.Ready) (o : Operator) :
    (∀ S', op E o S = (.ok (), S') → tryOp E o S = (.ok (), S')) ∧
    (∀ S', op E o S = (.error .error, S') → tryOp E o S = (.error .error, S)) ∧
    (∀ S', op E o S = (.error .panic, S') → ∃ S'', tryOp E o S = (.error .panic, S'')) := by
  obtain ⟨r, S1, L1, h1, h2, hb⟩ := op_exec (E := E) h o
  rw [h1]
  unfold tryOp
  rw [begin_eq h]
  dsimp only
  rw [h2]
  refine ⟨?_, ?_, ?_⟩
  · intro S' hS'
    cases hS'
    rfl
  · intro S' hS'
    cases hS'
    dsimp only
    rcases hb with hb | ⟨hb, -⟩
    · cases hb
    · rw [rollback_eq hb]
  · intro S' hS'
    cases hS'
    exact ⟨_, rfl⟩

theorem op_ready {S S' : St} {r : Except Fail Unit} (h : S.Ready) {o : Operator}
    (ho : op E o S = (r, S')) (hr : r ≠ .error .panic) : S'.Ready := by
  obtain ⟨r', S1, L1, h1, h2, hb⟩ := op_exec (E := E) h o
  rw [h1] at ho
  cases ho
  rcases hb with hb | ⟨-, hb⟩
  · exact absurd hb hr
  · exact ⟨rfl, hb⟩

theorem tryOp_ready {S S' : St} {r : Except Fail Unit} (h : S.Ready) {o : Operator}
    (ho : tryOp E o S = (r, S')) (hr : r ≠ .error .panic) : S'.Ready := by
  obtain ⟨h1, h2, h3⟩ := tryOp_eq (E := E) h o
  rcases hop : op E o S with ⟨r', S''⟩
  rcases r' with e | u
  · cases e with
    | error =>
      rw [h2 _ hop] at ho
      cases ho
      exact h
    | panic =>
      obtain ⟨S3, h3⟩ := h3 _ hop
      rw [h3] at ho
      cases ho
      exact absurd rfl hr
  · rw [h1 _ hop] at ho
    cases ho
    exact op_ready h hop hr

theorem defineLocals_ready {S S' : St} {r : Except Fail Unit} (h : S.Ready) {n : BitVec 32}
    {t : ValType} (hd : defineLocals E n t S = (r, S')) : S'.Ready := by
  unfold defineLocals at hd
  obtain ⟨rt, ops, d, -, hspec⟩ := (inferInstance : OpOnly (checkValueType E t)).spec S
  have ht := hspec none
  rw [St.log_none h.log] at ht
  have hS : ({ S with operands := ops, log := none } : St).Ready := ⟨rfl, h.good⟩
  cases rt with
  | error e =>
    rw [bind_error _ ht] at hd
    cases hd
    exact hS
  | ok ty =>
    rw [bind_ok _ ht] at hd
    dsimp only at hd
    split at hd
    · cases hd
      exact hS
    · dsimp only [bind_def, getS, modifyS, require] at hd
      split at hd
      · next hok =>
        split at hok
        · cases hok
          cases hd
          exact ⟨rfl, LocalInits.good_locals h.good n ty⟩
        · cases hok
      · next hok =>
        split at hok
        · cases hok
        · cases hok
          cases hd
          exact ⟨rfl, h.good⟩

theorem Reachable.ready {S : St} (h : Reachable E S) : S.Ready := by
  induction h with
  | func hn =>
    unfold newFunc at hn
    split at hn
    · cases hn
    · split at hn
      · cases hn
        exact ⟨rfl, LocalInits.good_params LocalInits.good_new _⟩
      · cases hn
  | constExpr ty => exact ⟨rfl, LocalInits.good_new⟩
  | locals _ hd _ ih => exact defineLocals_ready ih hd
  | op _ ho hr ih => exact op_ready ih ho hr
  | tryOp _ ho hr ih => exact tryOp_ready ih ho hr

end Verif.Op
