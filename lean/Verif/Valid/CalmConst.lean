import Verif.Valid.CalmItems
import Verif.Valid.CalmFlag
/-! # Constant expressions are checked without panics -/
namespace Verif.Valid
open Verif.Reader Verif.Items
open Verif.Op.Calm
open Verif.Op.Typing Verif.Op.View
open Verif.Op (TableTy GlobalTy St)
open Verif.Std (BSearch)
open Verif.TypeList (TypeList)
open Verif.TypeList.Spec (SubT)
open Verif.Types (RefType ValType HeapType)
open Verif.Instr (Operator)

variable {f : Feats} {bs : BSearch} {T : TypeList} {α β σ : Type}

/-- The state with other references. -/
def WithRefs (s s' : ModuleState) : Prop := ∃ rs, s' = { s with m := setRefs s.m rs }

theorem WithRefs.rfl' {s : ModuleState} : WithRefs s s := ⟨s.m.functionReferences, rfl⟩

theorem WithRefs.trans {s1 s2 s3 : ModuleState} (h : WithRefs s1 s2) (h' : WithRefs s2 s3) :
    WithRefs s1 s3 := by
  obtain ⟨rs, rfl⟩ := h
  obtain ⟨rs', rfl⟩ := h'
  exact ⟨rs', rfl⟩

theorem WithRefs.good {s s' : ModuleState} (h : WithRefs s s') (hg : Good f T s) : Good f T s' := by
  obtain ⟨rs, rfl⟩ := h
  exact hg.refs rs

theorem withRefs_insert {s : ModuleState} {i : BitVec 32} :
    WithRefs s { s with m := insertRef s.m i } := by
  refine ⟨(insertRef s.m i).functionReferences, ?_⟩
  rw [← insertRef_eq]

theorem validateGlobal_calm {s : ModuleState} {i : BitVec 32} :
    NoPanic (validateGlobal f s i) fun _ => True :=
  NoPanic.orErr.bind fun _ _ _ => NoPanic.bind (P := fun _ => True)
    (.ite (fun _ => NoPanic.need.unit) fun _ => .pure trivial) fun _ _ _ => NoPanic.need.unit

theorem constOp_calm {s : ModuleState} {u : Bool} {o : Operator} :
    NoPanic (constOp f s u o) fun x => WithRefs s x.1 := by
  have pure : NoPanic (pure (s, u) : X (ModuleState × Bool)) fun x => WithRefs s x.1 :=
    .pure .rfl'
  cases o with
  | end_ | i32Const | i64Const | f32Const | f64Const | v128Const => exact pure
  | plain o =>
    exact NoPanic.bind (P := fun _ => True) (.ite (fun _ => NoPanic.need.unit) fun _ =>
      .ite (fun _ => NoPanic.need.unit) fun _ => .ite (fun _ => NoPanic.need.unit) fun _ => .err)
      fun _ _ _ => pure
  | heap o x => exact NoPanic.ite (fun _ => pure) fun _ => .err
  | idx o i =>
    refine NoPanic.ite (fun _ => NoPanic.need.bind fun _ _ _ => pure) fun _ =>
      .ite (fun _ => validateGlobal_calm.bind fun _ _ _ => pure) fun _ =>
      .ite (fun _ => .pure ?_) fun _ => .err
    unfold insertRefFunc
    split
    · exact withRefs_insert
    · exact .rfl'
  | idx2 o i j =>
    exact NoPanic.bind (P := fun _ => True) (.ite (fun _ => NoPanic.need.unit) fun _ => .err)
      fun _ _ _ => pure
  | _ => exact NoPanic.err

/-- The answers of the environment itself. -/
def ownAnswers (R : Op.Resources) : Answers := ⟨R.isSubtype, R.isShared, R.topType⟩

theorem same_own (R : Op.Resources) (n : Nat) : Op.Calm.Same R n (ownAnswers R) :=
  ⟨fun _ _ _ _ => rfl, fun _ _ => rfl, fun _ _ => rfl⟩

theorem wf0_env {m m' : Op.Module} {n : Nat} {S : St} (h : Wf0 (env f bs T m) n S) :
    Wf0 (env f bs T m') n S := ⟨h.nested, h.blocks, h.operands, h.locals, h.bottom⟩

/-- Before an operator that has been read. -/
theorem wf_read {E : Op.Env} {n : Nat} {S : St} (h : Wf0 E n S) {rf : Instr.Features} {r r' : Reader}
    {o : Operator} (hv : Instr.visitOperator rf (S.control.head?.map (·.kind)) r = .ok (o, r')) :
    Wf E n S ∧ FitsKind S o := by
  obtain ⟨fk, hk, ha⟩ := Instr.visitOperator_allowed hv
  refine ⟨⟨h, fun h => by rw [h] at hk; cases hk⟩, ?_⟩
  cases o with
  | delegate d =>
    have : S.kinds.head? = some fk := by
      unfold St.kinds
      rw [List.head?_map]
      exact hk
    show S.kinds.head? = _
    rw [this, ha.2.2 rfl]
  | _ => trivial

theorem constStep_calm {s : ModuleState} {u : Bool} {S : St} {o : Operator} (hg : Good f T s)
    (hw : Wf (env f bs T s.m) (listOf T).length S) (hk : FitsKind S o) (ho : ModularOp o) :
    NoPanic (constStep f bs T s u S o) fun x =>
      WithRefs s x.1 ∧ Wf0 (env f bs T s.m) (listOf T).length x.2.2 := by
  refine constOp_calm.bind fun x _ hx => ?_
  obtain ⟨s1, u1⟩ := x
  have hg1 := hx.good hg
  obtain ⟨h1, h2, h3⟩ := calm_op (E := Valid.env f bs T s1.m) hg1.fine (same_own _ _) ho S
    ⟨⟨wf0_env hw.toWf0, hw.frame⟩, hk⟩
  dsimp only
  split
  · next hop =>
    exact .pure ⟨hx, wf0_env (h3 _ _ hop)⟩
  · next e _ hop =>
    cases e with
    | error => exact .err
    | panic => rw [hop] at h2; exact absurd rfl h2

theorem constFrom_calm : ∀ (k : Nat) (r : Reader) (s : ModuleState) (u : Bool) (S : St),
    Good f T s → Wf0 (env f bs T s.m) (listOf T).length S → r.bytesRemaining ≤ k →
    NoPanic (constFrom f bs T k r s u S) fun x => WithRefs s x.1
  | 0, r, s, u, S, _, _, hr => by
    unfold constFrom
    rw [if_pos (eof_of (by omega))]
    exact .pure .rfl'
  | k + 1, r, s, u, S, hg, hw, hr => by
    unfold constFrom
    refine NoPanic.ite (fun _ => .pure .rfl') fun _ => NoPanic.ofRead.bind fun x _ hx => ?_
    obtain ⟨o, r'⟩ := x
    obtain ⟨h1, h2⟩ := wf_read hw hx
    refine (constStep_calm hg h1 h2 (visitOperator_modular hx)).bind fun y _ hy => ?_
    obtain ⟨s1, u1, S1⟩ := y
    refine (constFrom_calm k r' s1 u1 S1 (hy.1.good hg) (wf0_env hy.2) ?_).mono fun z hz => hy.1.trans hz
    have := visitOperator_consumes hx
    omega

theorem newConst_wf {E : Op.Env} {n : Nat} {ty : Op.Val} (h : ValIn n ty) :
    Wf0 E n (Op.newConstExpr ty) where
  nested := ⟨Nat.le_refl _, Nat.le_refl _, trivial⟩
  blocks fr hfr := by rw [List.mem_singleton.1 hfr]; exact h
  operands := fun _ h => (List.not_mem_nil h).elim
  locals i t ht := by
    rw [show (Op.newConstExpr ty).locals = Op.Locals.new from rfl,
      Op.Locals.rep_get Op.Locals.rep_new] at ht
    cases ht
  bottom fr h := by cases h; exact nofun

/-- The flag of the assertion is false where the assertion is reached. -/
theorem checkConstExpr_calm {s : ModuleState} {e : ConstExpr} {ty : Op.Val}
    (hg : Good f T s) (he : ReadExpr f.reader.toFeatures e)
    (hty : ValIn (listOf T).length ty) (ho : s.owned = true ∨ ty = .i32 ∨ ty = .i64) :
    NoPanic (checkConstExpr f bs T s e ty) fun s' => WithRefs s s' := by
  refine (constFrom_calm _ _ _ _ _ hg (newConst_wf hty) (Nat.le_refl _)).bind fun x hx h => ?_
  obtain ⟨s', u⟩ := x
  obtain ⟨r, r', hr⟩ := he
  cases Flag.flag_false hr ho hx
  exact .pure h

end Verif.Valid
