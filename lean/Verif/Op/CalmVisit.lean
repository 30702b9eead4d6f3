import Verif.Op.CalmCtrl
import Verif.Op.Kinds
/-! The methods of the operators do not panic. -/
namespace Verif.Op.Calm
open Verif.Types (AbsHeap UnpackedIndex HeapType RefType ValType)
open Verif.Instr (FrameKind BlockType MemArg Catch Handle BrTable Operator)
open Verif.TypeList.Spec (Field Storage Comp SubT)

variable {α β : Type} {E : Env} {n : Nat} {A : Answers}

theorem calm_popNone (hs : Same E.R n A) :
    Calm E n (pop E none) (pop (alt E A) none) (MTIn n) := calm_pop hs nofun

macro_rules | `(tactic| calm_step) => `(tactic| with_reducible exact calm_popNone (by assumption))
macro_rules | `(tactic| calm_step) => `(tactic| with_reducible exact calm_unreachable)
macro_rules | `(tactic| calm_step) => `(tactic| with_reducible exact calm_jumpTypes (by assumption))
macro_rules | `(tactic| calm_step) => `(tactic| with_reducible exact calm_checkReturn (by assumption) (by assumption))
macro_rules | `(tactic| calm_step) => `(tactic| with_reducible refine calm_checkCallTy (by assumption) ?_)
macro_rules | `(tactic| calm_step) => `(tactic| with_reducible refine calm_checkReturnCallTy (by assumption) (by assumption) ?_)
macro_rules | `(tactic| calm_step) => `(tactic| with_reducible exact calm_typeOfFunction (by assumption))
macro_rules | `(tactic| calm_step) => `(tactic| with_reducible exact calm_checkCallRefTy (by assumption) (by assumption))
macro_rules | `(tactic| calm_step) => `(tactic| with_reducible exact calm_checkCallIndirectTy (by assumption) (by assumption))

/-! ## Operators without immediates -/

theorem selectTy_in {a b t : MT} (ha : MTIn n a) (hb : MTIn n b) (h : selectTy a b = some t) :
    MTIn n t := by
  unfold selectTy at h
  split at h <;> first
    | (split at h <;> cases h <;> assumption)
    | (cases h <;> assumption)

theorem calm_visitSelect (hs : Same E.R n A) :
    CalmU E n (visitSelect E) (visitSelect (alt E A)) :=
  Calm.bind (calm_popT hs nofun) fun _ _ => Calm.bind (calm_pop hs nofun) fun _ h1 =>
    Calm.bind (calm_pop hs nofun) fun _ h2 =>
      Calm.bind (P := MTIn n) (Calm.orError fun _ h => selectTy_in h1 h2 h) fun _ h => calm_pushMT h

theorem maybeShared_same (hs : Same E.R n A) {r : MR} (hr : MRIn n r) :
    r.isMaybeShared (alt E A).R = r.isMaybeShared E.R := by
  cases r with
  | known r => exact congrArg some (hs.shared r hr)
  | _ => rfl

theorem calm_visitRefEq (hs : Same E.R n A) : CalmU E n (visitRefEq E) (visitRefEq (alt E A)) :=
  Calm.bind (calm_popMaybeSharedRef hs) fun a ha => Calm.bind (calm_popMaybeSharedRef hs)
    fun b hb => Calm.bind (Calm.require (by rw [maybeShared_same hs ha, maybeShared_same hs hb]))
      fun _ _ => calm_push nofun

theorem calm_visitConvert (hs : Same E.R n A) {a b : AbsHeap} :
    CalmU E n (visitConvert E a b) (visitConvert (alt E A) a b) := by
  refine Calm.bind (calm_popMaybeSharedRef hs) fun r hr => ?_
  cases r with
  | known r =>
    rw [show convertTy (alt E A) b (.known r) = convertTy E b (.known r) by
      show MR.known ⟨_, .abs (A.shared r) b⟩ = _
      rw [hs.shared r hr]
      rfl]
    refine calm_pushMT (t := .known (.ref _)) ?_
    nofun
  | bottom => exact calm_pushMT (t := .unknownRef _) trivial
  | unknownRef => exact calm_pushMT (t := .unknownRef _) trivial

theorem nonNull_in {r : MR} (h : MRIn n r) : MTIn n r.asNonNull.toMT := by
  cases r <;> exact h

macro_rules | `(tactic| calm_in) => `(tactic| exact nonNull_in (by assumption))

theorem calm_visitRefIsNull (hs : Same E.R n A) :
    CalmU E n (visitRefIsNull E) (visitRefIsNull (alt E A)) := by
  unfold visitRefIsNull
  calm

theorem calm_visitRefAsNonNull (hs : Same E.R n A) :
    CalmU E n (visitRefAsNonNull E) (visitRefAsNonNull (alt E A)) := by
  unfold visitRefAsNonNull
  calm

theorem calm_visitMaybeSharedToI32 (hs : Same E.R n A) {a : AbsHeap} :
    CalmU E n (visitMaybeSharedToI32 E a) (visitMaybeSharedToI32 (alt E A) a) := by
  unfold visitMaybeSharedToI32
  calm

/-- The types in the body of an operator without immediates. -/
def plainVals : PlainBody → List Val
  | .eqz t | .cmp t | .fcmp t | .unary t | .funary t | .binary t | .fbinary t | .splat t
  | .fsplat t => [t]
  | .conversion t u | .fconversion t u => [t, u]
  | _ => []

theorem plain_vals (o : Instr.Plain) : (plainVals (plainBody o)).all isNumericOrVector = true := by
  cases o <;> rfl

set_option maxHeartbeats 1000000 in
theorem calm_runPlain (hf : Fine E.R n) (hs : Same E.R n A) {b : PlainBody}
    (h : (plainVals b).all isNumericOrVector = true) :
    CalmU E n (runPlain E b) (runPlain (alt E A) b) := by
  have hv : ∀ v ∈ plainVals b, ValIn n v := fun v hv => numeric_in (List.all_eq_true.1 h v hv)
  cases b
  case select => exact calm_visitSelect hs
  case refEq => exact calm_visitRefEq hs
  case refIsNull => exact calm_visitRefIsNull hs
  case refAsNonNull => exact calm_visitRefAsNonNull hs
  case i31Get => exact calm_visitMaybeSharedToI32 hs
  case arrayLen => exact calm_visitMaybeSharedToI32 hs
  case anyConvertExtern => exact calm_visitConvert hs
  case externConvertAny => exact calm_visitConvert hs
  case conversion t u =>
    have h1 := hv t (by simp [plainVals])
    have h2 := hv u (by simp [plainVals])
    dsimp only [runPlain, checkConversionOp]
    calm
  case fconversion t u =>
    have h1 := hv t (by simp [plainVals])
    have h2 := hv u (by simp [plainVals])
    dsimp only [runPlain, checkFconversionOp, checkConversionOp]
    calm
  all_goals try
    have h1 := hv _ (List.mem_singleton.2 rfl)
  all_goals
    dsimp only [runPlain, checkCmpOp, checkFcmpOp, checkUnaryOp, checkFunaryOp, checkBinaryOp,
      checkFbinaryOp, checkBinop128, checkI64MulWide, checkV128Splat, checkV128BinaryOp,
      checkV128FbinaryOp, checkV128UnaryOp, checkV128FunaryOp, checkV128TernaryOp,
      checkV128BitmaskOp, checkV128ShiftOp]
    calm

/-! ## Operators with a memory immediate or a lane -/

/-- The types in the body of an operator with a memory immediate. -/
def memVals : MemBody → List Val
  | .load t | .fload t | .store t | .fstore t | .atomicLoad t | .atomicStore t | .rmw t
  | .cmpxchg t | .wait t => [t]
  | .v128Load => []

theorem mem_vals (o : Instr.Mem) : (memVals (memBody o)).all isNumericOrVector = true := by
  cases o <;> rfl

theorem calm_runMem (hs : Same E.R n A) {m : MemArg} {b : MemBody}
    (h : (memVals b).all isNumericOrVector = true) :
    CalmU E n (runMem E m b) (runMem (alt E A) m b) := by
  have hv : ∀ v ∈ memVals b, ValIn n v := fun v hv => numeric_in (List.all_eq_true.1 h v hv)
  cases b
  all_goals try
    have h1 := hv _ (List.mem_singleton.2 rfl)
  all_goals
    dsimp only [runMem, checkV128LoadOp, checkAtomicLoad, checkAtomicStore,
      checkAtomicBinaryMemoryOp, checkAtomicBinaryMemoryCmpxchg]
    calm

theorem calm_runMemLane (hs : Same E.R n A) {m : MemArg} {l : UInt8} {b : MemLaneBody} :
    CalmU E n (runMemLane E m l b) (runMemLane (alt E A) m l b) := by
  cases b <;> dsimp only [runMemLane, checkSimdLaneIndex] <;> calm

/-- The types in the body of an operator with a lane. -/
def laneVals : LaneBody → List Val
  | .extract _ t | .fextract _ t | .replace _ t | .freplace _ t => [t]

theorem lane_vals (o : Instr.Lane) : (laneVals (laneBody o)).all isNumericOrVector = true := by
  cases o <;> rfl

theorem calm_runLane (hs : Same E.R n A) {l : UInt8} {b : LaneBody}
    (h : (laneVals b).all isNumericOrVector = true) :
    CalmU E n (runLane E l b) (runLane (alt E A) l b) := by
  have hv : ∀ v ∈ laneVals b, ValIn n v := fun v hv => numeric_in (List.all_eq_true.1 h v hv)
  cases b <;> have h1 := hv _ (List.mem_singleton.2 rfl) <;>
    dsimp only [runLane, checkSimdLaneIndex] <;> calm

/-! ## Blocks -/

theorem calm_visitBlk (hf : Fine E.R n) (hs : Same E.R n A) {o : Instr.Blk} {t : BlockType}
    (ht : ModularBlock t) : CalmU E n (visitBlk E o t) (visitBlk (alt E A) o t) := by
  have hb : ∀ k, CalmU E n (visitBlock E k t) (visitBlock (alt E A) k t) := fun k =>
    Calm.bind (calm_checkBlockType hf ht) fun _ hb => Calm.bind (calm_params hf) fun _ hp =>
      Calm.bind (calm_popAll hs hp) fun _ _ => calm_pushCtrl hf hb
  cases o with
  | if_ =>
    exact Calm.bind (calm_checkBlockType hf ht) fun _ hb => Calm.bind (calm_popT hs nofun)
      fun _ _ => Calm.bind (calm_params hf) fun _ hp => Calm.bind (calm_popAll hs hp) fun _ _ =>
        calm_pushCtrl hf hb
  | _ => exact hb _

theorem calm_visitElse (hf : Fine E.R n) (hs : Same E.R n A) :
    CalmU E n (visitElse E) (visitElse (alt E A)) :=
  Trip.bind (trip_popCtrl hf hs) fun _ => Trip.of fun _ h0 =>
    Trip.pre (trip_pushCtrl hf h0.2 (by decide)) (by rintro _ rfl; exact h0.1)

theorem trip_pushMT0 {t : MT} (ht : MTIn n t) :
    Trip (Wf0 E n) (pushMT t) (pushMT t) fun _ S => Wf0 E n S := by
  intro S hS
  refine ⟨rfl, nofun, ?_⟩
  intro a S' h
  cases h
  refine ⟨?_, hS.blocks, ?_, hS.locals, hS.bottom⟩
  · have := hS.nested
    show Nested S.control (S.operands.length + 1) _
    cases hc : S.control with
    | nil => trivial
    | cons fr c =>
      rw [hc] at this
      exact ⟨Nat.le_succ_of_le this.1, this.2⟩
  · intro x hx
    rcases List.mem_cons.1 hx with rfl | hx
    · exact ht
    · exact hS.operands x hx

theorem trip_pushAll0 : ∀ {ts : List Val}, ValsIn n ts →
    Trip (Wf0 E n) (pushAll ts) (pushAll ts) fun _ S => Wf0 E n S
  | [], _ => Trip.pure fun _ h => h
  | t :: ts, h => Trip.bind (trip_pushMT0 (t := .known t) (h t (by simp))) fun _ =>
    trip_pushAll0 fun v hv => h v (by simp [hv])

theorem funcTypeAt_cases (hf : Fine E.R n) {i : BitVec 32} (S : St) :
    funcTypeAt E i S = (.error .error, S) ∨ ∃ t, funcTypeAt E i S = (.ok t, S) ∧ FuncIn n t := by
  unfold funcTypeAt subTypeAt
  rw [bind_def]
  cases hs : E.R.subTypeAt i with
  | none => exact .inl rfl
  | some s =>
    show (match s.comp with
      | .func ps rs => requireAccess s.shared >>= fun _ => pure ⟨ps, rs⟩
      | _ => fail .error : M FuncTy) S = _ ∨ ∃ t, (match s.comp with
      | .func ps rs => requireAccess s.shared >>= fun _ => pure ⟨ps, rs⟩
      | _ => fail .error : M FuncTy) S = _ ∧ _
    cases hc : s.comp with
    | func ps rs =>
      have e : requireAccess s.shared S = require (!(S.shared && !s.shared)) S := rfl
      dsimp only
      rw [bind_def, e]
      cases !(S.shared && !s.shared) with
      | false => exact .inl rfl
      | true => exact .inr ⟨_, rfl, (hf.sub i s hs).params hc⟩
    | _ => exact .inl rfl

theorem trip_results0 (hf : Fine E.R n) {bt : BT} (hb : BTIn n bt) :
    Trip (Wf0 E n) (results E bt) (results (alt E A) bt) fun rs S => Wf0 E n S ∧ ValsIn n rs := by
  cases bt with
  | empty => exact Trip.pure fun S h => ⟨h, nofun⟩
  | type t =>
    exact Trip.pure fun S h => ⟨h, fun v hv => by rw [List.mem_singleton.1 hv]; exact hb⟩
  | func i =>
    intro S hS
    refine ⟨rfl, ?_⟩
    rcases funcTypeAt_cases hf (i := i) S with h | ⟨t, h, ht⟩
    · have e : results E (.func i) S = (.error .error, S) := by
        show (funcTypeAt E i >>= fun t => pure t.results) S = _
        rw [bind_def, h]
      rw [e]
      exact ⟨nofun, nofun⟩
    · have e : results E (.func i) S = (.ok t.results, S) := by
        show (funcTypeAt E i >>= fun t => pure t.results) S = _
        rw [bind_def, h]
        rfl
      rw [e]
      refine ⟨nofun, ?_⟩
      intro a S' h
      cases h
      exact ⟨hS, ht.2⟩

theorem visitEnd_eq (E : Env) : visitEnd E = (popCtrl E >>= fun fr =>
    (if fr.kind = .if_ then endIf E fr else Pure.pure fr) >>= fun fr =>
      results E fr.blockType >>= fun rs => pushAll rs) := by
  unfold visitEnd
  congr 1
  funext fr
  dsimp only
  split <;> rfl

theorem calm_visitEnd (hf : Fine E.R n) (hs : Same E.R n A) :
    Trip (Wf E n) (visitEnd E) (visitEnd (alt E A)) fun _ S => Wf0 E n S := by
  rw [visitEnd_eq, visitEnd_eq]
  refine Trip.bind (trip_popCtrl hf hs) fun fr => Trip.of fun S0 h0 => Trip.pre (I := Wf0 E n) ?_
    (by rintro _ rfl; exact h0.1)
  refine Trip.bind (P := fun (fr : Frame) S => Wf0 E n S ∧ BTIn n fr.blockType) ?_ fun fr =>
    Trip.of fun S1 h1 => Trip.pre (I := Wf0 E n) ?_ (by rintro _ rfl; exact h1.1)
  · by_cases hk : fr.kind = .if_
    · simp only [if_pos hk]
      exact Trip.bind (trip_pushCtrl hf h0.2 (by decide)) fun _ =>
        Trip.pre (trip_popCtrl hf hs) fun _ h => h.1
    · simp only [if_neg hk]
      exact Trip.pure fun S h => ⟨h, h0.2⟩
  · exact Trip.bind (trip_results0 hf h1.2) fun rs => Trip.of fun S2 h2 =>
      Trip.pre (trip_pushAll0 h2.2) (by rintro _ rfl; exact h2.1)

theorem trip_catchFrame (hf : Fine E.R n) (hs : Same E.R n A) {k : FrameKind} (hk : k ≠ .legacyTry) :
    CalmU E n (popCtrl E >>= fun fr : Frame => pushBareCtrl k fr.blockType)
      (popCtrl (alt E A) >>= fun fr : Frame => pushBareCtrl k fr.blockType) :=
  Trip.bind (trip_popCtrl hf hs) fun _ => Trip.of fun _ h0 =>
    Trip.pre (trip_pushBareCtrl h0.2 hk) (by rintro _ rfl; exact h0.1)

theorem calm_visitCatch (hf : Fine E.R n) (hs : Same E.R n A) {i : BitVec 32} :
    CalmU E n (visitCatch E i) (visitCatch (alt E A) i) := by
  refine Trip.bind (trip_popCtrl hf hs) fun _ => Trip.of fun _ h0 => ?_
  refine Trip.bind (Trip.pre (trip_pushBareCtrl h0.2 (by decide)) (by rintro _ rfl; exact h0.1))
    fun _ => Trip.pre (I := Wf E n) ?_ fun _ h => h.1
  exact Calm.bind (calm_exceptionTagAt hf) fun _ h => calm_pushAll h.1

theorem calm_visitDelegate (hf : Fine E.R n) (hs : Same E.R n A) {d : BitVec 32} :
    Trip (fun S => Wf E n S ∧ S.kinds.head? = some .legacyTry) (visitDelegate E d)
      (visitDelegate (alt E A) d) fun _ S => Wf E n S ∧ True := by
  refine Trip.bind (P := fun (fr : Frame) S => Wf E n S ∧ BTIn n fr.blockType) ?_ fun fr => ?_
  · rintro S ⟨hS, hk⟩
    obtain ⟨h1, h2, h3⟩ := trip_popCtrl hf hs (A := A) S hS
    refine ⟨h1, h2, fun fr S' h => ?_⟩
    obtain ⟨h4, h5⟩ := h3 fr S' h
    refine ⟨⟨h4, fun hc => ?_⟩, h5⟩
    have := popCtrl_kinds h
    have hb := hS.bottom
    unfold St.kinds at this hk
    rw [hc] at this
    cases hc' : S.control with
    | nil => exact hS.frame hc'
    | cons fr' c =>
      rw [hc'] at this hk hb
      cases c with
      | nil =>
        exact hb fr' rfl (Option.some.inj hk)
      | cons => cases this
  · refine Trip.of fun S h0 => Trip.pre (I := Wf E n) ?_ (by rintro _ rfl; exact h0.1)
    exact Calm.bind calm_jump fun _ _ => Calm.bind (calm_results hf h0.2) fun _ h => calm_pushAll h

/-! ## Branches -/

theorem exn_in : ValIn n exnTy := nofun

theorem calm_matchAll (hs : Same E.R n A) {a b : List Val} (ha : ValsIn n a) (hb : ValsIn n b) :
    CalmU E n (matchAll E a b) (matchAll (alt E A) a b) :=
  Calm.each fun p hp => calm_matchOperand hs (hb _ (List.of_mem_zip hp).2)
    (ha _ (List.of_mem_zip hp).1)

theorem calm_checkCatch (hf : Fine E.R n) (hs : Same E.R n A) {c : Catch} :
    CalmU E n (checkCatch E c) (checkCatch (alt E A) c) := by
  cases c with
  | one t l =>
    exact Calm.bind (calm_exceptionTagAt hf) fun _ h1 => Calm.bind (calm_jumpTypes hf) fun _ h2 =>
      Calm.bind (Calm.require rfl) fun _ _ => calm_matchAll hs h2 h1.1
  | oneRef t l =>
    refine Calm.bind (calm_exceptionTagAt hf) fun _ h1 => Calm.bind (calm_jumpTypes hf) fun _ h2 =>
      Calm.bind (Calm.require rfl) fun _ _ => calm_matchAll hs h2 fun v hv => ?_
    rcases List.mem_append.1 hv with h | h
    · exact h1.1 v h
    · rw [List.mem_singleton.1 h]
      exact exn_in
  | all l => exact Calm.bind (calm_jumpTypes hf) fun _ h2 => (Calm.require rfl).unit
  | allRef l =>
    refine Calm.bind (calm_jumpTypes hf) fun ts h2 => ?_
    split
    · next ty => exact (Calm.require (hs.sub _ _ exn_in (h2 ty (by simp)))).unit
    · exact Calm.fail

theorem calm_visitTryTable (hf : Fine E.R n) (hs : Same E.R n A) {t : BlockType}
    (ht : ModularBlock t) {cs : List Catch} :
    CalmU E n (visitTryTable E t cs) (visitTryTable (alt E A) t cs) :=
  Calm.bind (calm_checkBlockType hf ht) fun _ hb => Calm.bind (calm_params hf) fun _ hp =>
    Calm.bind (calm_popAll hs hp) fun _ _ => Calm.bind (Calm.each fun _ _ => calm_checkCatch hf hs)
      fun _ _ => calm_pushCtrl hf hb

theorem calm_visitBrTable (hf : Fine E.R n) (hs : Same E.R n A) {t : BrTable} :
    CalmU E n (visitBrTable E t) (visitBrTable (alt E A) t) := by
  refine Calm.bind (calm_popT hs (numeric_in rfl)) fun _ _ => Calm.bind (calm_jumpTypes hf)
    fun _ hd => Calm.bind (Calm.each fun x _ => ?_) fun _ _ => Calm.bind (calm_popAll hs hd)
      fun _ _ => calm_unreachable
  exact Calm.bind (P := fun _ => True) (Calm.orError fun _ _ => trivial) fun _ _ =>
    Calm.bind (calm_jumpTypes hf) fun _ h => Calm.bind (Calm.require rfl) fun _ _ =>
      calm_matchStackOperands hs h

theorem lastRef_in {ts : List Val} (h : ValsIn n ts) {r : Ref} (hr : lastRef ts = some r) :
    RefIn n r := by
  unfold lastRef at hr
  split at hr
  · next x hx =>
    cases hr
    exact h _ (List.mem_of_getLast? hx)
  · cases hr

theorem dropLast_in {ts : List Val} (h : ValsIn n ts) : ValsIn n ts.dropLast :=
  fun v hv => h v (List.dropLast_subset _ hv)

theorem calm_visitBrOnNonNull (hf : Fine E.R n) (hs : Same E.R n A) {d : BitVec 32} :
    CalmU E n (visitBrOnNonNull E d) (visitBrOnNonNull (alt E A) d) :=
  Calm.bind (calm_jumpTypes hf) fun _ h => Calm.bind (P := RefIn n)
    (Calm.orError fun _ hr => lastRef_in h hr) fun r hr =>
      Calm.bind (calm_popRefSome hs (r := asNullable r) hr) fun _ _ =>
        calm_popPushLabelTypes hs (dropLast_in h)

theorem calm_visitRethrow {d : BitVec 32} : CalmU E n (visitRethrow d) (visitRethrow d) :=
  Calm.bind calm_jump fun _ _ => Calm.bind (Calm.require rfl) fun _ _ => calm_unreachable

/-! ## Locals -/

theorem isUninit_some {l : LocalInits} {i : BitVec 32} (h : i.toNat < l.localInits.length) :
    ∃ b, l.isUninit i = some b := by
  unfold LocalInits.isUninit
  split
  · exact ⟨_, rfl⟩
  · rw [List.getElem?_eq_getElem h]
    exact ⟨_, rfl⟩

theorem calm_visitLocalGet {i : BitVec 32} :
    CalmU E n (visitLocalGet E i) (visitLocalGet (alt E A) i) := by
  refine Trip.bind calm_localTy fun t => Trip.getS fun S hS => ?_
  obtain ⟨b, hb⟩ := isUninit_some hS.2.2
  rw [hb]
  exact (Calm.bind (Calm.require rfl) fun _ _ => calm_push hS.2.1 : CalmU E n
    (require (!b) >>= fun _ => push t) (require (!b) >>= fun _ => push t)) S hS.1

theorem setInit_calm {i : BitVec 32} {t : Val} :
    Trip (fun S => Wf E n S ∧ ValIn n t ∧ i.toNat < S.inits.localInits.length) (setInit i)
      (setInit i) fun _ S => Wf E n S ∧ ValIn n t := by
  rintro S ⟨hS, ht, hi⟩
  obtain ⟨b, hb⟩ := isUninit_some hi
  unfold setInit LocalInits.setInit
  rw [hb]
  refine ⟨rfl, nofun, ?_⟩
  intro a S' h
  cases b with
  | false => cases h; exact ⟨hS, ht⟩
  | true =>
    cases h
    refine ⟨⟨⟨?_, hS.blocks, hS.operands, ?_, hS.bottom⟩, hS.frame⟩, ht⟩
    · have hn := hS.nested
      show Nested S.control _ (S.inits.inits.length + 1)
      cases hc : S.control with
      | nil => trivial
      | cons fr c =>
        rw [hc] at hn
        exact ⟨hn.1, Nat.le_succ_of_le hn.2.1, hn.2.2⟩
    · intro j u hu
      have := hS.locals j u hu
      refine ⟨this.1, ?_⟩
      show _ < (S.inits.localInits.set i.toNat true).length
      rw [List.length_set]
      exact this.2

end Verif.Op.Calm
