import Verif.Op.Rollback
/-! Every operator can be rolled back. -/
namespace Verif.Op
open Verif.Types (AbsHeap HeapType RefType ValType)
open Verif.Instr (FrameKind BlockType MemArg Catch Handle BrTable Operator)

theorem pure_bind {α β : Type} (a : α) (k : α → M β) : (pure a >>= k) = k a := rfl

theorem bind_pure {α : Type} (m : M α) : (m >>= pure) = m := by
  funext S
  rw [bind_def]
  rcases h : m S with ⟨r, S'⟩
  cases r <;> rfl

theorem bind_unit (m : M Unit) : (m >>= fun _ => pure ()) = m := bind_pure m

theorem bind_assoc {α β γ : Type} (m : M α) (k : α → M β) (g : β → M γ) :
    ((m >>= k) >>= g) = (m >>= fun a => k a >>= g) := by
  funext S
  rw [bind_def, bind_def, bind_def]
  rcases h : m S with ⟨r, S'⟩
  cases r <;> rfl

variable (E : Env)

/-- The part of `popCtrl` before the frame is taken. -/
def popCtrlCheck : M Unit := do
  let fr ← topFrame
  let rs ← results E fr.blockType
  popAll E rs
  let S ← getS
  require (S.operands.length == fr.height)

instance : OpOnly (popCtrlCheck E) := by
  unfold popCtrlCheck
  refine @OpOnly.bind _ _ _ _ inferInstance fun fr => ?_
  refine @OpOnly.bind _ _ _ _ inferInstance fun rs => ?_
  refine @OpOnly.bind _ _ _ _ inferInstance fun _ => ?_
  exact OpOnly.getS (fun _ => inferInstance) fun _ _ => rfl

theorem popCtrl_eq : popCtrl E = (popCtrlCheck E >>= fun _ => takeFrame) := by
  unfold popCtrl popCtrlCheck
  simp only [bind_assoc]

theorem popCtrl_bind {α : Type} (k : Frame → M α) :
    (popCtrl E >>= k) = (popCtrlCheck E >>= fun _ => takeFrame >>= k) := by
  rw [popCtrl_eq, bind_assoc]

/-- The part of `push_ctrl` after the frame is pushed. -/
def pushParams (bt : BT) : M Unit := do
  let ps ← params E bt
  pushAll ps

instance (bt : BT) : OpOnly (pushParams E bt) := by unfold pushParams; op_only

theorem pushCtrl_eq (k : FrameKind) (bt : BT) :
    pushCtrl E k bt = (pushBareCtrl k bt >>= fun _ => pushParams E bt) := rfl

/-- `visitBlock` before the frame is pushed. -/
def blockCheck (c : BT → M Unit) (ty : BlockType) : M BT := do
  let bt ← checkBlockType E ty
  c bt
  pure bt

instance (c : BT → M Unit) [∀ bt, OpOnly (c bt)] (ty : BlockType) : OpOnly (blockCheck E c ty) := by
  unfold blockCheck; op_only

theorem blockCheck_bind (c : BT → M Unit) (ty : BlockType) (kind : FrameKind) :
    (do
      let bt ← checkBlockType E ty
      c bt
      pushCtrl E kind bt) =
    (do
      let bt ← blockCheck E c ty
      pushBareCtrl kind bt
      pushParams E bt) := by
  unfold blockCheck
  simp only [bind_assoc, pure_bind, pushCtrl_eq]

theorem exec_block (c : BT → M Unit) [∀ bt, OpOnly (c bt)] (ty : BlockType) (kind : FrameKind)
    (S0 : St) (hg : S0.inits.Good) :
    Exec (do
      let bt ← checkBlockType E ty
      c bt
      pushCtrl E kind bt) S0 (log0 S0) (Back S0) := by
  rw [blockCheck_bind]
  exact exec_open inferInstance (fun _ => inferInstance) S0 hg

/-- The pops of a block. -/
def popParams (bt : BT) : M Unit := do
  let ps ← params E bt
  popAll E ps

instance (bt : BT) : OpOnly (popParams E bt) := by unfold popParams; op_only

theorem exec_blk (o : Instr.Blk) (ty : BlockType) (S0 : St) (hg : S0.inits.Good) :
    Exec (visitBlk E o ty) S0 (log0 S0) (Back S0) := by
  have block : ∀ kind, Exec (visitBlock E kind ty) S0 (log0 S0) (Back S0) := by
    intro kind
    have := exec_block E (popParams E) ty kind S0 hg
    unfold popParams at this
    simp only [bind_assoc] at this
    exact this
  cases o
  · exact block _
  · exact block _
  · have := exec_block E (fun bt => do popT E .i32; popParams E bt) ty .if_ S0 hg
    unfold popParams at this
    simp only [bind_assoc] at this
    exact this
  · exact block _

theorem exec_tryTable (ty : BlockType) (cs : List Catch) (S0 : St) (hg : S0.inits.Good) :
    Exec (visitTryTable E ty cs) S0 (log0 S0) (Back S0) := by
  have := exec_block E (fun bt => do popParams E bt; each (checkCatch E) cs) ty .tryTable S0 hg
  unfold popParams at this
  simp only [bind_assoc] at this
  exact this

theorem exec_else (S0 : St) (hg : S0.inits.Good) :
    Exec (visitElse E) S0 (log0 S0) (Back S0) := by
  unfold visitElse
  rw [popCtrl_bind]
  refine exec_close (m' := fun _ fr => pushCtrl E .else_ fr.blockType) inferInstance S0 hg ?_
  intro _ fr rest rm i' S1 L1 hc hp h
  rw [pushCtrl_eq]
  exact exec_switch inferInstance hg hc hp h

theorem exec_catch (tag : BitVec 32) (S0 : St) (hg : S0.inits.Good) :
    Exec (visitCatch E tag) S0 (log0 S0) (Back S0) := by
  unfold visitCatch
  rw [popCtrl_bind]
  refine exec_close (m' := fun _ fr => do
    pushBareCtrl .legacyCatch fr.blockType
    let ty ← exceptionTagAt E tag
    pushAll ty.params) inferInstance S0 hg ?_
  intro _ fr rest rm i' S1 L1 hc hp h
  exact exec_switch inferInstance hg hc hp h

theorem exec_catchAll (S0 : St) (hg : S0.inits.Good) :
    Exec (visitCatchAll E) S0 (log0 S0) (Back S0) := by
  unfold visitCatchAll
  rw [popCtrl_bind]
  refine exec_close (m' := fun _ fr => pushBareCtrl .legacyCatchAll fr.blockType)
    inferInstance S0 hg ?_
  intro _ fr rest rm i' S1 L1 hc hp h
  rw [← bind_pure (pushBareCtrl _ _)]
  exact exec_switch (m := pure ()) inferInstance hg hc hp h

theorem exec_delegate (depth : BitVec 32) (S0 : St) (hg : S0.inits.Good) :
    Exec (visitDelegate E depth) S0 (log0 S0) (Back S0) := by
  unfold visitDelegate
  rw [popCtrl_bind]
  refine exec_close (m' := fun _ fr => do
    let _ ← jump depth
    let rs ← results E fr.blockType
    pushAll rs) inferInstance S0 hg ?_
  intro _ fr rest rm i' S1 L1 hc hp h
  exact Exec.last inferInstance (undo_take hg hc hp) h

theorem exec_end (S0 : St) (hg : S0.inits.Good) :
    Exec (visitEnd E) S0 (log0 S0) (Back S0) := by
  unfold visitEnd
  rw [popCtrl_bind]
  refine exec_close (m' := fun _ fr => do
    let fr ← if fr.kind = .if_ then endIf E fr else pure fr
    let rs ← results E fr.blockType
    pushAll rs) inferInstance S0 hg ?_
  intro _ fr rest rm i' S1 L1 hc hp h
  dsimp only
  split
  · unfold endIf
    rw [pushCtrl_eq, popCtrl_eq]
    simp only [bind_assoc]
    have := exec_switchTake (m := do pushParams E fr.blockType; popCtrlCheck E)
      (m' := fun _ fr => do let rs ← results E fr.blockType; pushAll rs) (kind := .else_)
      (bt := fr.blockType) inferInstance (fun _ _ => inferInstance) hg hc hp h
    simp only [bind_assoc] at this
    exact this
  · rw [pure_bind]
    exact Exec.last inferInstance (undo_take hg hc hp) h

/-- Unreachable code after a computation. -/
theorem exec_stop' {m : M Unit} {α : Type} {m' : M α} {k : α → M Unit} (hm : OpOnly m')
    (hk : ∀ a, OpOnly (k a)) (S0 : St) (hg : S0.inits.Good)
    (h : m = (do let a ← m'; k a; unreachable)) : Exec m S0 (log0 S0) (Back S0) := by
  have : m = (do (do let a ← m'; k a); unreachable) := by
    rw [h]
    simp only [bind_assoc]
  rw [this]
  exact exec_stop inferInstance S0 hg

theorem exec_opOnly {m : M Unit} (hm : OpOnly m) (S0 : St) (hg : S0.inits.Good) :
    Exec m S0 (log0 S0) (Back S0) := Exec.last hm (undo_start hg) (mid_start S0)

theorem exec_plain (b : PlainBody) (S0 : St) (hg : S0.inits.Good) :
    Exec (runPlain E b) S0 (log0 S0) (Back S0) := by
  cases b with
  | unreachable => exact exec_stop (m := pure ()) inferInstance S0 hg
  | ret =>
    exact exec_stop' (m' := functionResults E) inferInstance (fun _ => inferInstance) S0 hg rfl
  | throwRef => exact exec_stop (m := popT E exnref) inferInstance S0 hg
  | _ => exact exec_opOnly (by unfold runPlain; op_only) S0 hg

theorem exec_returnCallTy {m : M FuncTy} (hm : OpOnly m) (S0 : St) (hg : S0.inits.Good) :
    Exec (do let ty ← m; checkReturnCallTy E ty) S0 (log0 S0) (Back S0) := by
  have : (do let ty ← m; checkReturnCallTy E ty) = (do
      (do
        let ty ← m
        checkFuncTypeSameResults E ty
        popAll E ty.params
        pushAll ty.results
        let rs ← functionResults E
        popAll E rs)
      unreachable) := by
    unfold checkReturnCallTy checkReturn
    simp only [bind_assoc]
  rw [this]
  exact exec_stop inferInstance S0 hg

theorem exec_idx (o : Instr.Idx) (i : BitVec 32) (S0 : St) (hg : S0.inits.Good) :
    Exec (visitIdx E o i) S0 (log0 S0) (Back S0) := by
  cases o with
  | br => exact exec_stop' (m' := jumpTypes E i) inferInstance (fun _ => inferInstance) S0 hg rfl
  | throw =>
    exact exec_stop' (m' := exceptionTagAt E i) inferInstance (fun _ => inferInstance) S0 hg rfl
  | rethrow =>
    exact exec_stop' (m' := jump i) (k := fun p =>
      require (p.2 == .legacyCatch || p.2 == .legacyCatchAll))
      inferInstance (fun _ => inferInstance) S0 hg rfl
  | returnCall => exact exec_returnCallTy E inferInstance S0 hg
  | returnCallRef => exact exec_returnCallTy E inferInstance S0 hg
  | localSet =>
    have h := exec_set (m := do let ty ← localTy E i; popT E ty) (m' := pure ()) (i := i)
      inferInstance inferInstance S0 hg
    simp only [bind_assoc, bind_unit] at h
    exact h
  | localTee =>
    show Exec (visitLocalTee E i) _ _ _
    unfold visitLocalTee
    refine Exec.step inferInstance (undo_start hg) (fun ty S1 L1 h1 => ?_) (mid_start S0)
    refine Exec.step inferInstance (undo_start hg) (fun _ S1 L1 h1 => ?_) h1
    refine Exec.bind (Exec.setInit h1) ?_ ?_
    · rintro a S2 L2 (h2 | ⟨l, hl, h2⟩)
      · cases h2
      · exact Exec.last inferInstance (undo_setInit hg hl) h2
    · rintro e S2 L2 (h2 | ⟨l, hl, h2⟩)
      · exact .inl h2
      · exact h2.back _ (undo_setInit hg hl)
  | _ => exact exec_opOnly (by unfold visitIdx; op_only) S0 hg

theorem exec_brTable (t : BrTable) (S0 : St) (hg : S0.inits.Good) :
    Exec (visitBrTable E t) S0 (log0 S0) (Back S0) := by
  have : visitBrTable E t = (do
      (do
        popT E .i32
        let ds ← jumpTypes E t.default
        each (checkBrTarget E ds.length) (brItems t.reader t.cnt)
        popAll E ds)
      unreachable) := by
    unfold visitBrTable
    simp only [bind_assoc]
  rw [this]
  exact exec_stop inferInstance S0 hg

theorem exec_visit (o : Operator) (S0 : St) (hg : S0.inits.Good) :
    Exec (visit E o) S0 (log0 S0) (Back S0) := by
  cases o with
  | plain o => exact exec_plain E _ S0 hg
  | else_ => exact exec_else E S0 hg
  | end_ => exact exec_end E S0 hg
  | catchAll => exact exec_catchAll E S0 hg
  | block o ty => exact exec_blk E o ty S0 hg
  | tryTable ty cs => exact exec_tryTable E ty cs S0 hg
  | idx o i => exact exec_idx E o i S0 hg
  | catch_ tag => exact exec_catch E tag S0 hg
  | delegate d => exact exec_delegate E d S0 hg
  | returnCallIndirect i j => exact exec_returnCallTy E inferInstance S0 hg
  | brTable t => exact exec_brTable E t S0 hg
  | _ => exact exec_opOnly (by unfold visit; op_only) S0 hg

theorem exec_op (o : Operator) (S0 : St) (hg : S0.inits.Good) :
    Exec (op E o) S0 (log0 S0) (Back S0) := by
  unfold op require
  split
  · exact exec_visit E o S0 hg
  · exact exec_opOnly (m := do fail .error; visit E o) ⟨fun S => ⟨.error .error, S.operands, [], rfl,
      fun lg => by rw [map_addOps_nil]; rfl⟩⟩ S0 hg

end Verif.Op
