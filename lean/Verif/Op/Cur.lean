import Verif.Op.View
/-! The computations that only change the operands of the innermost block. -/
namespace Verif.Op.View
open Verif.Types (AbsHeap HeapType RefType ValType)
open Verif.Instr (FrameKind BlockType MemArg Catch Handle BrTable Operator)
open Verif.TypeList.Spec (Field Storage Comp SubT)

variable (E : Env)

instance (x : Option Val) : Cur (pop E x) where
  spec B c y S h := by
    obtain ⟨locals, inits, fr, frs, low, shared, hh⟩ := B
    cases c with
    | nil =>
      have hfast : popFast x (st ⟨locals, inits, fr, frs, low, shared, hh⟩ []) = none := by
        unfold popFast st
        dsimp only [List.nil_append]
        split
        · split
          · rw [if_neg]
            rw [hh]
            simp
          · rfl
        · rfl
      unfold pop at h
      rw [hfast] at h
      unfold popSlow st at h
      dsimp only [List.nil_append] at h
      have hl : low.head?.toList ++ low.tail = low := by cases low <;> rfl
      rw [hl] at h
      split at h
      · cases h; exact ⟨[], rfl⟩
      · next hn =>
          rw [if_pos hh.symm] at h
          cases h
    | cons m c =>
      refine ⟨c, ?_⟩
      unfold pop at h
      cases hfast : popFast x (st ⟨locals, inits, fr, frs, low, shared, hh⟩ (m :: c)) with
      | some p =>
        rw [hfast] at h
        unfold popFast st at hfast
        dsimp only [List.cons_append] at hfast
        split at hfast
        · next heq =>
            cases heq
            split at hfast
            · split at hfast
              · cases hfast
                cases h
                rfl
              · cases hfast
            · cases hfast
        · cases hfast
      | none =>
        rw [hfast] at h
        unfold popSlow st at h
        dsimp only [List.cons_append, List.head?_cons, List.tail_cons, Option.toList] at h
        have hl : ¬ (m :: (c ++ low)).length = fr.height := by
          simp only [List.length_cons, List.length_append]; omega
        simp only [List.nil_append, List.cons_append, hl, false_and, if_false] at h
        exact (congrArg Prod.snd h).symm

instance (t : Val) : Cur (popT E t) := by unfold popT; cur
instance (ts : List Val) : Cur (popAll E ts) := by unfold popAll; cur
instance (ts : List Val) : Cur (pushAll ts) := by unfold pushAll; cur
instance (i : BitVec 32) : Cur (checkConcrete E i) := by unfold checkConcrete; cur
instance (i : BitVec 32) : Cur (checkExact E i) := by unfold checkExact; cur
instance (n : Bool) (i : BitVec 32) : Cur (pushConcreteRef E n i) := by
  unfold pushConcreteRef; cur
instance (n : Bool) (i : BitVec 32) : Cur (pushExactRef E n i) := by
  unfold pushExactRef; cur
instance (n : Bool) (i : BitVec 32) : Cur (pushExactRefIfAvailable E n i) := by
  unfold pushExactRefIfAvailable; cur
instance (n : Bool) (i : BitVec 32) : Cur (popConcreteRef E n i) := by
  unfold popConcreteRef; cur
instance (n : Bool) (i : BitVec 32) : Cur (popConcreteOrExactRef E n i) := by
  unfold popConcreteOrExactRef; cur
instance (ts : List Val) : Cur (popPushLabelTypes E ts) := by unfold popPushLabelTypes; cur
instance (a b : Val) : Cur (matchOperand E a b) := by unfold matchOperand; cur
theorem popTypes_cur : ∀ ts : List Val, Cur (popTypes E ts)
  | [] => by unfold popTypes; cur
  | t :: ts => by have := popTypes_cur ts; unfold popTypes; cur
instance (ts : List Val) : Cur (popTypes E ts) := popTypes_cur E ts
instance (ts : List Val) : Cur (matchStackOperands E ts) := by unfold matchStackOperands; cur
instance (x : Option Ref) : Cur (popRef E x) := by unfold popRef; cur
instance (h : AbsHeap) : Cur (popMaybeSharedRef E h) := by unfold popMaybeSharedRef; cur
instance (i : BitVec 32) : Cur (localTy E i) :=
  @Cur.bind _ _ _ _ inferInstance (fun _ => inferInstance)
instance (i : BitVec 32) : Cur (subTypeAt E i) := by unfold subTypeAt; cur
instance (s : Bool) : Cur (requireAccess s) :=
  @Cur.bind _ _ _ _ inferInstance (fun _ => inferInstance)
instance (i : BitVec 32) : Cur (structTypeAt E i) := by unfold structTypeAt; cur
instance (i j : BitVec 32) : Cur (structFieldAt E i j) := by unfold structFieldAt; cur
instance (i j : BitVec 32) : Cur (mutableStructFieldAt E i j) := by
  unfold mutableStructFieldAt; cur
instance (i : BitVec 32) : Cur (arrayTypeAt E i) := by unfold arrayTypeAt; cur
instance (i : BitVec 32) : Cur (mutableArrayTypeAt E i) := by unfold mutableArrayTypeAt; cur
instance (i : BitVec 32) : Cur (funcTypeAt E i) := by unfold funcTypeAt; cur
instance (i : BitVec 32) : Cur (contTypeAt E i) := by unfold contTypeAt; cur
instance (c : Nat) : Cur (funcTypeOfContType E c) := by unfold funcTypeOfContType; cur
instance (i : BitVec 32) : Cur (tagAt E i) := by unfold tagAt; cur
instance (i : BitVec 32) : Cur (exceptionTagAt E i) := by unfold exceptionTagAt; cur
instance (i : BitVec 32) : Cur (globalTypeAt E i) := by unfold globalTypeAt; cur
instance (i : BitVec 32) : Cur (tableTypeAt E i) := by unfold tableTypeAt; cur
instance (i : BitVec 32) : Cur (elementTypeAt E i) := by unfold elementTypeAt; cur
instance (t : BT) : Cur (params E t) := by unfold params; cur
instance (t : BT) : Cur (results E t) := by unfold results; cur
instance (t : BT) (k : FrameKind) : Cur (labelTypes E t k) := by unfold labelTypes; cur
instance : Cur topFrame := @Cur.bind _ _ _ _ inferInstance (fun _ => inferInstance)
instance (d : BitVec 32) : Cur (jump d) :=
  @Cur.bind _ _ _ _ inferInstance (fun _ => by cur)
instance (d : BitVec 32) : Cur (jumpTypes E d) := by unfold jumpTypes; cur
instance (i : BitVec 32) : Cur (checkMemoryIndex E i) := by unfold checkMemoryIndex; cur
instance (m : MemArg) : Cur (checkMemarg E m) := by unfold checkMemarg; cur
instance : Cur (checkFloatsEnabled E) := by unfold checkFloatsEnabled; cur
instance (m : MemArg) : Cur (checkSharedMemarg E m) := by unfold checkSharedMemarg; cur
instance {α : Type} (c : TypeList.M α) : Cur (featuresCheck c) := by unfold featuresCheck; cur
instance (r : RefType) : Cur (checkRefType E r) := by unfold checkRefType; cur
instance (t : ValType) : Cur (checkValueType E t) := by unfold checkValueType; cur
instance (t : BlockType) : Cur (checkBlockType E t) := by unfold checkBlockType; cur
instance (i : BitVec 32) : Cur (typeOfFunction E i) := by unfold typeOfFunction; cur
instance (t : FuncTy) : Cur (checkCallTy E t) := by unfold checkCallTy; cur
instance : Cur (functionResults E) := @Cur.bind _ _ _ _ inferInstance (fun _ => inferInstance)
instance (t : FuncTy) : Cur (checkFuncTypeSameResults E t) := by
  unfold checkFuncTypeSameResults; cur
instance (i : BitVec 32) : Cur (checkCallRefTy E i) := by unfold checkCallRefTy; cur
instance (i j : BitVec 32) : Cur (checkCallIndirectTy E i j) := by
  unfold checkCallIndirectTy; cur
instance (t : Val) : Cur (checkCmpOp E t) := by unfold checkCmpOp; cur
instance (t : Val) : Cur (checkFcmpOp E t) := by unfold checkFcmpOp; cur
instance (t : Val) : Cur (checkUnaryOp E t) := by unfold checkUnaryOp; cur
instance (t : Val) : Cur (checkFunaryOp E t) := by unfold checkFunaryOp; cur
instance (a b : Val) : Cur (checkConversionOp E a b) := by unfold checkConversionOp; cur
instance (a b : Val) : Cur (checkFconversionOp E a b) := by unfold checkFconversionOp; cur
instance (t : Val) : Cur (checkBinaryOp E t) := by unfold checkBinaryOp; cur
instance (t : Val) : Cur (checkFbinaryOp E t) := by unfold checkFbinaryOp; cur
instance (m : MemArg) (t : Val) : Cur (checkAtomicLoad E m t) := by unfold checkAtomicLoad; cur
instance (m : MemArg) (t : Val) : Cur (checkAtomicStore E m t) := by
  unfold checkAtomicStore; cur
instance (m : MemArg) (t : Val) : Cur (checkAtomicBinaryMemoryOp E m t) := by
  unfold checkAtomicBinaryMemoryOp; cur
instance (m : MemArg) (t : Val) : Cur (checkAtomicBinaryMemoryCmpxchg E m t) := by
  unfold checkAtomicBinaryMemoryCmpxchg; cur
instance (h : Heap) : Cur (checkCastToAllowed E h) := by unfold checkCastToAllowed; cur
instance (n : Bool) (h : HeapType) : Cur (checkDowncast E n h) := by unfold checkDowncast; cur
instance (n : Bool) (h : HeapType) : Cur (checkRefTest E n h) := by unfold checkRefTest; cur
instance (n : Bool) (h : HeapType) : Cur (checkRefCast E n h) := by unfold checkRefCast; cur
instance (a b : Ref) : Cur (checkBrOnCastTypeHierarchy E a b) := by
  unfold checkBrOnCastTypeHierarchy; cur
instance (h : HeapType) : Cur (checkDescriptor E h) := by unfold checkDescriptor; cur
instance (h : HeapType) : Cur (checkMaybeExactDescriptorRef E h) := by
  unfold checkMaybeExactDescriptorRef; cur
instance (n : Bool) (h : HeapType) : Cur (checkRefCastDescEq E n h) := by
  unfold checkRefCastDescEq; cur
instance (i : BitVec 32) : Cur (checkAtomicGlobalRmwTy E i) := by
  unfold checkAtomicGlobalRmwTy; cur
instance (i j : BitVec 32) : Cur (checkStructAtomicRmw E i j) := by
  unfold checkStructAtomicRmw; cur
instance (i : BitVec 32) : Cur (checkArrayAtomicRmw E i) := by unfold checkArrayAtomicRmw; cur
instance (i : BitVec 32) : Cur (checkDataSegment E i) := by unfold checkDataSegment; cur
instance (i : Nat) : Cur (contAtId E i) := by unfold contAtId; cur
instance (t : FuncTy) (h : Handle) : Cur (checkHandle E t h) := by unfold checkHandle; cur
instance (t : List Handle) (i : BitVec 32) : Cur (checkResumeTable E t i) := by
  unfold checkResumeTable; cur
instance : Cur (checkBinop128 E) := by unfold checkBinop128; cur
instance : Cur (checkI64MulWide E) := by unfold checkI64MulWide; cur
instance (i n : UInt8) : Cur (checkSimdLaneIndex i n) := by unfold checkSimdLaneIndex; cur
instance (t : Val) : Cur (checkV128Splat E t) := by unfold checkV128Splat; cur
instance : Cur (checkV128BinaryOp E) := by unfold checkV128BinaryOp; cur
instance : Cur (checkV128FbinaryOp E) := by unfold checkV128FbinaryOp; cur
instance : Cur (checkV128UnaryOp E) := by unfold checkV128UnaryOp; cur
instance : Cur (checkV128FunaryOp E) := by unfold checkV128FunaryOp; cur
instance : Cur (checkV128TernaryOp E) := by unfold checkV128TernaryOp; cur
instance : Cur (checkV128BitmaskOp E) := by unfold checkV128BitmaskOp; cur
instance : Cur (checkV128ShiftOp E) := by unfold checkV128ShiftOp; cur
instance (m : MemArg) : Cur (checkV128LoadOp E m) := by unfold checkV128LoadOp; cur

instance : Cur (visitSelect E) := by unfold visitSelect; cur
instance : Cur (visitRefEq E) := by unfold visitRefEq; cur
instance (a b : AbsHeap) : Cur (visitConvert E a b) := by unfold visitConvert; cur
instance : Cur (visitRefIsNull E) := by unfold visitRefIsNull; cur
instance : Cur (visitRefAsNonNull E) := by unfold visitRefAsNonNull; cur
instance (h : AbsHeap) : Cur (visitMaybeSharedToI32 E h) := by
  unfold visitMaybeSharedToI32; cur
instance (m : MemArg) (b : MemBody) : Cur (runMem E m b) := by unfold runMem; cur
instance (m : MemArg) (l : UInt8) (b : MemLaneBody) : Cur (runMemLane E m l b) := by
  unfold runMemLane; cur
instance (l : UInt8) (b : LaneBody) : Cur (runLane E l b) := by unfold runLane; cur
instance (a b : List Val) : Cur (matchAll E a b) := by unfold matchAll; cur
instance (c : Catch) : Cur (checkCatch E c) := by unfold checkCatch; cur
instance (d : BitVec 32) : Cur (visitBrIf E d) := by unfold visitBrIf; cur
instance (n : Nat) (x : Option (BitVec 32)) : Cur (checkBrTarget E n x) := by
  unfold checkBrTarget; cur
instance (d : BitVec 32) : Cur (visitBrOnNull E d) := by unfold visitBrOnNull; cur
instance (d : BitVec 32) : Cur (visitBrOnNonNull E d) := by unfold visitBrOnNonNull; cur
instance (i : BitVec 32) : Cur (visitCall E i) := by unfold visitCall; cur
instance (i : BitVec 32) : Cur (visitCallRef E i) := by unfold visitCallRef; cur
instance (i j : BitVec 32) : Cur (visitCallIndirect E i j) := by unfold visitCallIndirect; cur
theorem visitLocalGet_cur (i : BitVec 32) (ty : Val) : Cur (do
    let S ← getS
    let u ← orPanic (S.inits.isUninit i)
    require (!u)
    push ty) := @Cur.bind _ _ _ _ inferInstance (fun _ => inferInstance)
instance (i : BitVec 32) : Cur (visitLocalGet E i) := by
  unfold visitLocalGet
  exact @Cur.bind _ _ _ _ inferInstance (visitLocalGet_cur i)

instance (i : BitVec 32) : Cur (visitGlobalGet E i) := by unfold visitGlobalGet; cur
instance (i : BitVec 32) : Cur (visitGlobalSet E i) := by unfold visitGlobalSet; cur
instance (i : BitVec 32) : Cur (visitMemorySize E i) := by unfold visitMemorySize; cur
instance (i : BitVec 32) : Cur (visitMemoryGrow E i) := by unfold visitMemoryGrow; cur
instance (i : BitVec 32) : Cur (visitMemoryFill E i) := by unfold visitMemoryFill; cur
instance (i : BitVec 32) : Cur (visitMemoryDiscard E i) := by unfold visitMemoryDiscard; cur
instance (dst src : BitVec 32) : Cur (visitMemoryCopy E dst src) := by unfold visitMemoryCopy; cur
instance (segment mem : BitVec 32) : Cur (visitMemoryInit E segment mem) := by unfold visitMemoryInit; cur
instance (segment table : BitVec 32) : Cur (visitTableInit E segment table) := by unfold visitTableInit; cur
instance (dst src : BitVec 32) : Cur (visitTableCopy E dst src) := by unfold visitTableCopy; cur
instance (i : BitVec 32) : Cur (visitTableGet E i) := by unfold visitTableGet; cur
instance (i : BitVec 32) : Cur (visitTableSet E i) := by unfold visitTableSet; cur
instance (i : BitVec 32) : Cur (visitTableGrow E i) := by unfold visitTableGrow; cur
instance (i : BitVec 32) : Cur (visitTableSize E i) := by unfold visitTableSize; cur
instance (i : BitVec 32) : Cur (visitTableFill E i) := by unfold visitTableFill; cur
instance (i : BitVec 32) : Cur (visitRefFunc E i) := by unfold visitRefFunc; cur
instance (h : HeapType) : Cur (visitRefNull E h) := by unfold visitRefNull; cur
instance (i : BitVec 32) : Cur (visitStructNew E i) := by unfold visitStructNew; cur
instance (i : BitVec 32) : Cur (visitStructNewDefault E i) := by unfold visitStructNewDefault; cur
instance (i : BitVec 32) : Cur (visitStructNewDesc E i) := by unfold visitStructNewDesc; cur
instance (i : BitVec 32) : Cur (visitStructNewDefaultDesc E i) := by
  unfold visitStructNewDefaultDesc; cur
instance (packed : Bool) (i j : BitVec 32) : Cur (visitStructGet E packed i j) := by
  unfold visitStructGet; cur
instance (i j : BitVec 32) : Cur (visitStructSet E i j) := by unfold visitStructSet; cur
instance (i : BitVec 32) : Cur (visitArrayNew E i) := by unfold visitArrayNew; cur
instance (i : BitVec 32) : Cur (visitArrayNewDefault E i) := by unfold visitArrayNewDefault; cur
instance (i n : BitVec 32) : Cur (visitArrayNewFixed E i n) := by unfold visitArrayNewFixed; cur
instance (i d : BitVec 32) : Cur (visitArrayNewData E i d) := by unfold visitArrayNewData; cur
instance (i e : BitVec 32) : Cur (visitArrayNewElem E i e) := by unfold visitArrayNewElem; cur
instance (packed : Bool) (i : BitVec 32) : Cur (visitArrayGet E packed i) := by unfold visitArrayGet; cur
instance (i : BitVec 32) : Cur (visitArraySet E i) := by unfold visitArraySet; cur
instance (i : BitVec 32) : Cur (visitArrayFill E i) := by unfold visitArrayFill; cur
instance (dst src : BitVec 32) : Cur (visitArrayCopy E dst src) := by unfold visitArrayCopy; cur
instance (i d : BitVec 32) : Cur (visitArrayInitData E i d) := by unfold visitArrayInitData; cur
instance (i e : BitVec 32) : Cur (visitArrayInitElem E i e) := by unfold visitArrayInitElem; cur
instance (i : BitVec 32) : Cur (visitRefGetDesc E i) := by unfold visitRefGetDesc; cur
instance (i : BitVec 32) : Cur (visitContNew E i) := by unfold visitContNew; cur
instance (i j : BitVec 32) : Cur (visitContBind E i j) := by unfold visitContBind; cur
instance (i : BitVec 32) : Cur (visitSuspend E i) := by unfold visitSuspend; cur
instance (i : BitVec 32) (table : List Handle) : Cur (visitResume E i table) := by unfold visitResume; cur
instance (i tag : BitVec 32) (table : List Handle) : Cur (visitResumeThrow E i tag table) := by
  unfold visitResumeThrow; cur
instance (i : BitVec 32) (table : List Handle) : Cur (visitResumeThrowRef E i table) := by
  unfold visitResumeThrowRef; cur
instance (i tag : BitVec 32) : Cur (visitSwitch E i tag) := by unfold visitSwitch; cur
instance (x0 : Instr.Idx2) (x1 : BitVec 32) (x2 : BitVec 32) : Cur (visitIdx2 E x0 x1 x2) := by
  unfold visitIdx2; cur
instance (x0 : Instr.Heap) (x1 : HeapType) : Cur (visitHeap E x0 x1) := by unfold visitHeap; cur
instance (frm target : RefType) : Cur (castTypes E frm target) := by unfold castTypes; cur
instance (depth : BitVec 32) (frm sent kept : Ref) : Cur (castBranch E depth frm sent kept) := by
  unfold castBranch; cur
instance (depth : BitVec 32) (frm target : RefType) : Cur (visitBrOnCast E depth frm target) := by
  unfold visitBrOnCast; cur
instance (depth : BitVec 32) (frm target : RefType) : Cur (visitBrOnCastFail E depth frm target) := by
  unfold visitBrOnCastFail; cur
instance (depth : BitVec 32) (frm target : RefType) : Cur (visitBrOnCastDescEq E depth frm target) := by
  unfold visitBrOnCastDescEq; cur
instance (depth : BitVec 32) (frm target : RefType) : Cur (visitBrOnCastDescEqFail E depth frm target) := by
  unfold visitBrOnCastDescEqFail; cur
instance (x0 : Instr.Cast) (x1 : BitVec 32) (x2 : RefType) (x3 : RefType) : Cur (visitCast E x0 x1 x2 x3) := by
  unfold visitCast; cur
instance (i : BitVec 32) : Cur (visitGlobalAtomicGet E i) := by unfold visitGlobalAtomicGet; cur
instance (i : BitVec 32) : Cur (visitGlobalAtomicSet E i) := by unfold visitGlobalAtomicSet; cur
instance (i : BitVec 32) : Cur (visitGlobalAtomicRmw E i) := by unfold visitGlobalAtomicRmw; cur
instance (i : BitVec 32) : Cur (visitGlobalAtomicXchg E i) := by unfold visitGlobalAtomicXchg; cur
instance (i : BitVec 32) : Cur (visitGlobalAtomicCmpxchg E i) := by
  unfold visitGlobalAtomicCmpxchg; cur
instance (i : BitVec 32) : Cur (visitTableAtomicGet E i) := by unfold visitTableAtomicGet; cur
instance (i : BitVec 32) : Cur (visitTableAtomicSet E i) := by unfold visitTableAtomicSet; cur
instance (i : BitVec 32) : Cur (visitTableAtomicXchg E i) := by unfold visitTableAtomicXchg; cur
instance (i : BitVec 32) : Cur (visitTableAtomicCmpxchg E i) := by
  unfold visitTableAtomicCmpxchg; cur
instance (i : BitVec 32) : Cur (visitArrayAtomicGet E i) := by unfold visitArrayAtomicGet; cur
instance (i : BitVec 32) : Cur (visitArrayAtomicSet E i) := by unfold visitArrayAtomicSet; cur
instance (i : BitVec 32) : Cur (visitArrayAtomicXchg E i) := by unfold visitArrayAtomicXchg; cur
instance (i : BitVec 32) : Cur (visitArrayAtomicCmpxchg E i) := by
  unfold visitArrayAtomicCmpxchg; cur
instance (i j : BitVec 32) : Cur (visitStructAtomicGet E i j) := by unfold visitStructAtomicGet; cur
instance (i j : BitVec 32) : Cur (visitStructAtomicSet E i j) := by unfold visitStructAtomicSet; cur
instance (i j : BitVec 32) : Cur (visitStructAtomicXchg E i j) := by unfold visitStructAtomicXchg; cur
instance (i j : BitVec 32) : Cur (visitStructAtomicCmpxchg E i j) := by
  unfold visitStructAtomicCmpxchg; cur
instance (x0 : Instr.Atomic) (x1 : BitVec 32) : Cur (visitAtomic E x0 x1) := by unfold visitAtomic; cur
instance (x0 : Instr.Atomic2) (x1 : BitVec 32) (x2 : BitVec 32) : Cur (visitAtomic2 E x0 x1 x2) := by
  unfold visitAtomic2; cur
instance (lanes : List UInt8) : Cur (visitShuffle E lanes) := by unfold visitShuffle; cur
instance (ty : ValType) : Cur (visitTypedSelect E ty) := by unfold visitTypedSelect; cur


end Verif.Op.View
