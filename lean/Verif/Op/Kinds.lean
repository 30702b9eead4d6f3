import Verif.Op.InitLemmas
import Verif.Op.Gate
import Verif.Instr.Frames
/-! The kinds of the frames of the validator follow those of the reader. -/
namespace Verif.Op
open Verif.Types (ValType)
open Verif.Instr (FrameKind BlockType Catch Operator stepStack OperatorsReader IsStack)
open Verif.Reader

/-- The kinds of the frames. -/
def St.kinds (S : St) : List FrameKind := S.control.map (·.kind)

theorem opOnly_kinds {α : Type} {m : M α} (hm : OpOnly m) {S S' : St} {r : Except Fail α}
    (h : m S = (r, S')) : S'.kinds = S.kinds := by
  unfold St.kinds
  rw [(opOnly_ini hm h).2.1]

theorem take_kinds {S S' : St} {fr : Frame} (h : takeFrame S = (.ok fr, S')) :
    S'.kinds = S.kinds.tail := by
  rw [takeFrame_eq] at h
  unfold St.kinds
  split at h
  · cases h
  · next fr' rest hc =>
    split at h
    · cases h
    · next rm i' hp =>
      cases h
      simp [hc]

theorem pushBare_kinds {S S' : St} {kind : FrameKind} {bt : BT} {u : Unit}
    (h : pushBareCtrl kind bt S = (.ok u, S')) : S'.kinds = kind :: S.kinds := by
  cases h
  rfl

theorem setInit_kinds {S S' : St} {i : BitVec 32} {u : Unit}
    (h : setInit i S = (.ok u, S')) : S'.kinds = S.kinds := by
  rw [setInit_eq] at h
  split at h
  · next l hl =>
    cases h
    rfl
  · cases h

theorem unreachable_kinds {S S' : St} {u : Unit} (h : unreachable S = (.ok u, S')) :
    S'.kinds = S.kinds := by
  unfold unreachable at h
  split at h
  · cases h
  · next fr rest hc =>
    dsimp only at h
    split at h
    · cases h
      simp [St.kinds, hc]
    · cases h

variable {E : Env}

theorem popCtrl_kinds {S S' : St} {fr : Frame} (h : popCtrl E S = (.ok fr, S')) :
    S'.kinds = S.kinds.tail := by
  rw [popCtrl_eq] at h
  obtain ⟨_, S1, h1, h2⟩ := bind_eq_ok h
  rw [take_kinds h2, opOnly_kinds inferInstance h1]

theorem pushCtrl_kinds {S S' : St} {kind : FrameKind} {bt : BT} {u : Unit}
    (h : pushCtrl E kind bt S = (.ok u, S')) : S'.kinds = kind :: S.kinds := by
  rw [pushCtrl_eq] at h
  obtain ⟨_, S1, h1, h2⟩ := bind_eq_ok h
  rw [opOnly_kinds inferInstance h2]
  exact pushBare_kinds h1

theorem stop_kinds {α : Type} {m : M α} (hm : OpOnly m) {S S' : St} {u : Unit}
    (h : (m >>= fun _ => unreachable) S = (.ok u, S')) : S'.kinds = S.kinds := by
  obtain ⟨_, S1, h1, h2⟩ := bind_eq_ok h
  rw [unreachable_kinds h2, opOnly_kinds hm h1]

theorem block_kinds {c : BT → M Unit} (hc : ∀ bt, OpOnly (c bt)) {ty : BlockType}
    {kind : FrameKind} {S S' : St} {u : Unit} (h : (do
      let bt ← checkBlockType E ty
      c bt
      pushCtrl E kind bt) S = (.ok u, S')) : S'.kinds = kind :: S.kinds := by
  obtain ⟨bt, S1, h1, h⟩ := bind_eq_ok h
  obtain ⟨_, S2, h2, h3⟩ := bind_eq_ok h
  rw [pushCtrl_kinds h3, opOnly_kinds (hc bt) h2, opOnly_kinds inferInstance h1]

theorem blk_kinds {o : Instr.Blk} {ty : BlockType} {S S' : St} {u : Unit}
    (h : visitBlk E o ty S = (.ok u, S')) :
    S'.kinds = Instr.opened (.block o ty) :: S.kinds := by
  have block : ∀ kind, visitBlock E kind ty S = (.ok u, S') → S'.kinds = kind :: S.kinds := by
    intro kind h
    refine block_kinds (E := E) (c := popParams E) (ty := ty) (kind := kind)
      (fun _ => inferInstance) (u := u) ?_
    unfold popParams
    simp only [bind_assoc]
    exact h
  cases o
  · exact block _ h
  · exact block _ h
  · refine block_kinds (E := E) (c := fun bt => do popT E .i32; popParams E bt) (ty := ty)
      (kind := .if_) (fun _ => inferInstance) (u := u) ?_
    unfold popParams
    simp only [bind_assoc]
    exact h
  · exact block _ h

theorem tryTable_kinds {cs : List Catch} {ty : BlockType} {S S' : St} {u : Unit}
    (h : visitTryTable E ty cs S = (.ok u, S')) : S'.kinds = .tryTable :: S.kinds := by
  refine block_kinds (E := E) (c := fun bt => do popParams E bt; each (checkCatch E) cs) (ty := ty)
      (kind := .tryTable) (fun _ => inferInstance) (u := u) ?_
  unfold popParams
  simp only [bind_assoc]
  exact h

theorem else_kinds {S S' : St} {u : Unit} (h : visitElse E S = (.ok u, S')) :
    S'.kinds = .else_ :: S.kinds.tail := by
  obtain ⟨fr, S1, h1, h2⟩ := bind_eq_ok h
  rw [pushCtrl_kinds h2, popCtrl_kinds h1]

theorem catch_kinds {S S' : St} {u : Unit} {tag : BitVec 32}
    (h : visitCatch E tag S = (.ok u, S')) : S'.kinds = .legacyCatch :: S.kinds.tail := by
  obtain ⟨fr, S1, h1, h⟩ := bind_eq_ok h
  obtain ⟨_, S2, h2, h⟩ := bind_eq_ok h
  rw [opOnly_kinds inferInstance h, pushBare_kinds h2, popCtrl_kinds h1]

theorem catchAll_kinds {S S' : St} {u : Unit} (h : visitCatchAll E S = (.ok u, S')) :
    S'.kinds = .legacyCatchAll :: S.kinds.tail := by
  obtain ⟨fr, S1, h1, h⟩ := bind_eq_ok h
  rw [pushBare_kinds h, popCtrl_kinds h1]

theorem end_kinds {S S' : St} {u : Unit} (h : visitEnd E S = (.ok u, S')) :
    S'.kinds = S.kinds.tail := by
  obtain ⟨fr, S1, h1, h⟩ := bind_eq_ok h
  rw [← popCtrl_kinds h1]
  dsimp only at h
  split at h
  · obtain ⟨fr', S2, h2, h⟩ := bind_eq_ok h
    obtain ⟨_, S3, h3, h4⟩ := bind_eq_ok h2
    rw [opOnly_kinds inferInstance h, popCtrl_kinds h4, pushCtrl_kinds h3]
    rfl
  · rw [pure_bind] at h
    rw [opOnly_kinds inferInstance h]

theorem delegate_kinds {S S' : St} {u : Unit} {d : BitVec 32}
    (h : visitDelegate E d S = (.ok u, S')) : S'.kinds = S.kinds.tail := by
  obtain ⟨fr, S1, h1, h⟩ := bind_eq_ok h
  rw [opOnly_kinds inferInstance h, popCtrl_kinds h1]

theorem plain_kinds {b : PlainBody} {S S' : St} {u : Unit} (h : runPlain E b S = (.ok u, S')) :
    S'.kinds = S.kinds := by
  cases b with
  | unreachable => exact unreachable_kinds h
  | ret =>
    refine stop_kinds (m := do let rs ← functionResults E; popAll E rs) inferInstance (u := u) ?_
    simp only [bind_assoc]
    exact h
  | throwRef => exact stop_kinds (m := popT E exnref) inferInstance h
  | _ => exact opOnly_kinds (by unfold runPlain; op_only) h

theorem returnCallTy_kinds {m : M FuncTy} (hm : OpOnly m) {S S' : St} {u : Unit}
    (h : (do let ty ← m; checkReturnCallTy E ty) S = (.ok u, S')) : S'.kinds = S.kinds := by
  refine stop_kinds (m := do
        let ty ← m
        checkFuncTypeSameResults E ty
        popAll E ty.params
        pushAll ty.results
        let rs ← functionResults E
        popAll E rs) inferInstance (u := u) ?_
  unfold checkReturnCallTy checkReturn at h
  simp only [bind_assoc]
  exact h

theorem idx_kinds {o : Instr.Idx} {i : BitVec 32} {S S' : St} {u : Unit}
    (h : visitIdx E o i S = (.ok u, S')) : S'.kinds = S.kinds := by
  cases o with
  | br =>
    refine stop_kinds (m := do let ts ← jumpTypes E i; popAll E ts) inferInstance (u := u) ?_
    simp only [bind_assoc]
    exact h
  | throw =>
    refine stop_kinds (m := do let ty ← exceptionTagAt E i; popAll E ty.params)
      inferInstance (u := u) ?_
    simp only [bind_assoc]
    exact h
  | rethrow =>
    refine stop_kinds (m := do
      let p ← jump i
      require (p.2 == .legacyCatch || p.2 == .legacyCatchAll)) inferInstance (u := u) ?_
    simp only [bind_assoc]
    exact h
  | returnCall => exact returnCallTy_kinds inferInstance h
  | returnCallRef => exact returnCallTy_kinds inferInstance h
  | localSet =>
    obtain ⟨ty, S1, h1, h⟩ := bind_eq_ok h
    obtain ⟨_, S2, h2, h⟩ := bind_eq_ok h
    rw [setInit_kinds h, opOnly_kinds inferInstance h2, opOnly_kinds inferInstance h1]
  | localTee =>
    obtain ⟨ty, S1, h1, h⟩ := bind_eq_ok h
    obtain ⟨_, S2, h2, h⟩ := bind_eq_ok h
    obtain ⟨_, S3, h3, h⟩ := bind_eq_ok h
    rw [opOnly_kinds inferInstance h, setInit_kinds h3, opOnly_kinds inferInstance h2,
      opOnly_kinds inferInstance h1]
  | _ => exact opOnly_kinds (by unfold visitIdx; op_only) h

theorem visit_kinds {o : Operator} {S S' : St} {u : Unit} {k : FrameKind} {ks : List FrameKind}
    (hk : S.kinds = k :: ks) (h : visit E o S = (.ok u, S')) :
    S'.kinds = stepStack o (k :: ks) := by
  have tl : S.kinds.tail = ks := by rw [hk]; rfl
  cases o with
  | plain o => rw [plain_kinds h, hk]; rfl
  | else_ => rw [else_kinds h, tl]; rfl
  | end_ => rw [end_kinds h, tl]; rfl
  | catchAll => rw [catchAll_kinds h, tl]; rfl
  | block o ty => rw [blk_kinds h, hk]; cases o <;> rfl
  | tryTable ty cs => rw [tryTable_kinds h, hk]; rfl
  | idx o i => rw [idx_kinds h, hk]; rfl
  | catch_ tag => rw [catch_kinds h, tl]; rfl
  | delegate d => rw [delegate_kinds h, tl]; rfl
  | returnCallIndirect i j => rw [returnCallTy_kinds inferInstance h, hk]; rfl
  | brTable t =>
    rw [stop_kinds (m := do
        popT E .i32
        let ds ← jumpTypes E t.default
        each (checkBrTarget E ds.length) (brItems t.reader t.cnt)
        popAll E ds) inferInstance (u := u) (by
          simp only [bind_assoc]
          exact h), hk]
    rfl
  | _ => rw [opOnly_kinds (by unfold visit; op_only) h, hk]; rfl

theorem op_kinds {o : Operator} {S S' : St} {u : Unit} {k : FrameKind} {ks : List FrameKind}
    (hk : S.kinds = k :: ks) (h : op E o S = (.ok u, S')) : S'.kinds = stepStack o (k :: ks) := by
  obtain ⟨_, S1, h1, h⟩ := bind_eq_ok h
  exact visit_kinds ((opOnly_kinds inferInstance h1).trans hk) h

/-! ## From bytes -/

theorem isStack_top {s : Instr.ControlStack} {ks : List FrameKind} (h : IsStack s ks) :
    s.top = ks.head? := by
  cases h <;> rfl

theorem runOps_cons {o : Operator} {os : List Operator} :
    runOps E (o :: os) = (do op E o; runOps E os) := rfl

/-- What the validator reads is what the reader of operators reads. -/
theorem from_sound (rf : Instr.Features) : ∀ (n : Nat) (s : OperatorsReader) (S S' : St) (u : Unit),
    IsStack s.stack S.kinds → validateFrom E rf n s.reader S = (.ok u, S') →
    ∃ os s', s.collectFrom rf n = .ok (os, s') ∧ runOps E os S = (.ok (), S') ∧
      s'.reader.eof = true ∧ IsStack s'.stack S'.kinds
  | 0, s, S, S', u, hs, h => by
    unfold validateFrom at h
    split at h
    · next he =>
      cases h
      exact ⟨[], s, rfl, rfl, he, hs⟩
    · cases h
  | n + 1, s, S, S', u, hs, h => by
    unfold validateFrom at h
    split at h
    · next he =>
      cases h
      refine ⟨[], s, ?_, rfl, he, hs⟩
      unfold OperatorsReader.collectFrom
      rw [if_pos he]
    · next he =>
      obtain ⟨S0, S1, h1, h⟩ := bind_eq_ok h
      cases h1
      rw [show S.control.head?.map (·.kind) = s.stack.top by
        rw [isStack_top hs]; unfold St.kinds; simp] at h
      cases hv : Instr.visitOperator rf s.stack.top s.reader with
      | error e => rw [hv] at h; cases h
      | ok x =>
        obtain ⟨o, r'⟩ := x
        rw [hv] at h
        obtain ⟨_, S1, h1, h⟩ := bind_eq_ok h
        obtain ⟨k, hk, -⟩ := Instr.visitOperator_allowed hv
        obtain ⟨k', ks, hks⟩ : ∃ k ks, S.kinds = k :: ks := by
          rw [isStack_top hs] at hk
          cases hc : S.kinds with
          | nil => rw [hc] at hk; cases hk
          | cons a b => exact ⟨a, b, rfl⟩
        have hk1 := op_kinds hks h1
        obtain ⟨os, s', h2, h3, h4, h5⟩ := from_sound rf n ⟨r', s.stack.visit o⟩ S1 S' u
          (by rw [hk1]; rw [hks] at hs; exact Instr.visit_stack hs o) h
        refine ⟨o :: os, s', ?_, ?_, h4, h5⟩
        · unfold OperatorsReader.collectFrom
          rw [if_neg he]
          unfold OperatorsReader.read
          rw [hv]
          dsimp only
          rw [h2]
        · rw [runOps_cons, bind_def, h1]
          exact h3

theorem from_complete (rf : Instr.Features) : ∀ (n : Nat) (s s' : OperatorsReader) (S S' : St)
    (os : List Operator), IsStack s.stack S.kinds → s.collectFrom rf n = .ok (os, s') →
    runOps E os S = (.ok (), S') → s'.reader.eof = true →
    validateFrom E rf n s.reader S = (.ok (), S') ∧ IsStack s'.stack S'.kinds
  | 0, s, s', S, S', os, hs, h1, h2, h3 => by
    unfold OperatorsReader.collectFrom at h1
    cases h1
    cases h2
    unfold validateFrom
    rw [if_pos h3]
    exact ⟨rfl, hs⟩
  | n + 1, s, s', S, S', os, hs, h1, h2, h3 => by
    unfold OperatorsReader.collectFrom at h1
    unfold validateFrom
    split at h1
    · next he =>
      cases h1
      cases h2
      rw [if_pos he]
      exact ⟨rfl, hs⟩
    · next he =>
      rw [if_neg he]
      split at h1
      · cases h1
      · next o s1 hr =>
        split at h1
        · cases h1
        · next os1 s2 hc =>
          cases h1
          unfold OperatorsReader.read at hr
          split at hr
          · cases hr
          · next o' r' hv =>
            cases hr
            rw [runOps_cons] at h2
            obtain ⟨_, S1, h4, h5⟩ := bind_eq_ok h2
            obtain ⟨k, hk, -⟩ := Instr.visitOperator_allowed hv
            obtain ⟨k', ks, hks⟩ : ∃ k ks, S.kinds = k :: ks := by
              rw [isStack_top hs] at hk
              cases hc : S.kinds with
              | nil => rw [hc] at hk; cases hk
              | cons a b => exact ⟨a, b, rfl⟩
            have hk1 := op_kinds hks h4
            obtain ⟨h6, h7⟩ := from_complete rf n _ _ S1 S' _
              (by rw [hk1]; rw [hks] at hs; exact Instr.visit_stack hs o) hc h5 h3
            refine ⟨?_, h7⟩
            rw [bind_def]
            show (match Instr.visitOperator rf (S.control.head?.map Frame.kind) s.reader with
              | .error _ => fail .error
              | .ok (o, r') => do op E o; validateFrom E rf n r') S = _
            rw [show S.control.head?.map Frame.kind = s.stack.top by
              rw [isStack_top hs]; unfold St.kinds; simp, hv]
            show (do op E o; validateFrom E rf n r') S = _
            rw [bind_def, h4]
            exact h6

theorem finish_iff {s : OperatorsReader} : s.finish = .ok () ↔
    s.stack.top = none ∧ s.reader.eof = true := by
  refine ⟨Instr.finish_ok, fun ⟨h1, h2⟩ => ?_⟩
  unfold OperatorsReader.finish
  rw [h1, h2]
  rfl

/-- Validating a body from bytes is reading its operators, finishing, and validating them. -/
theorem validateBody_iff {rf : Instr.Features} {r : Reader} {S S' : St}
    (hs : S.kinds = [.block]) : validateBody E rf r S = (.ok (), S') ↔
    ∃ os s, (OperatorsReader.new r).collect rf = .ok (os, s) ∧ s.finish = .ok () ∧
      runOps E os S = (.ok (), S') := by
  have hst : IsStack (OperatorsReader.new r).stack S.kinds := by
    rw [hs]; exact .cons _ _
  constructor
  · intro h
    obtain ⟨_, S1, h1, h⟩ := bind_eq_ok h
    obtain ⟨_, S2, h2, h⟩ := bind_eq_ok h
    cases h2
    obtain ⟨os, s', h3, h4, h5, h6⟩ := from_sound rf _ _ _ _ _ hst h1
    unfold require at h
    split at h
    · next hc =>
      cases h
      refine ⟨os, s', h3, finish_iff.2 ⟨?_, h5⟩, h4⟩
      rw [isStack_top h6]
      unfold St.kinds
      rw [List.isEmpty_iff.1 hc]
      rfl
    · cases h
  · rintro ⟨os, s', h1, h2, h3⟩
    obtain ⟨h4, h5⟩ := finish_iff.1 h2
    obtain ⟨h6, h7⟩ := from_complete rf _ _ _ _ _ _ hst h1 h3 h5
    unfold validateBody
    rw [bind_def, show validateFrom E rf r.bytesRemaining r S = (.ok (), S') from h6]
    show (do let S ← getS; require S.control.isEmpty) S' = _
    have : S'.control = [] := by
      rw [isStack_top h7] at h4
      unfold St.kinds at h4
      cases hc : S'.control with
      | nil => rfl
      | cons a b => rw [hc] at h4; cases h4
    rw [bind_def]
    show require S'.control.isEmpty S' = _
    rw [this]
    rfl

end Verif.Op
