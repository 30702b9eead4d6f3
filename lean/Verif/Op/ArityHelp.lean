import Verif.Op.ArityLemmas
/-! The counts of the validator's methods whose arity is fixed. -/
namespace Verif.Op.AritySpec
open Verif.Op
open Verif.Types (AbsHeap HeapType RefType ValType)
open Verif.Instr (FrameKind BlockType MemArg Catch Handle BrTable Operator)
open Verif.TypeList.Spec (Field Storage Comp SubT)

variable (E : Env)

instance (i : BitVec 32) : Reads (checkConcrete E i) := by
  unfold checkConcrete; reads
instance (i : BitVec 32) : Reads (checkExact E i) := by
  unfold checkExact; reads
instance (n : Bool) (i : BitVec 32) : Eff (pushConcreteRef E n i) 0 1 := by
  unfold pushConcreteRef; eff
instance (n : Bool) (i : BitVec 32) : Eff (pushExactRef E n i) 0 1 := by
  unfold pushExactRef; eff
instance (n : Bool) (i : BitVec 32) : Eff (pushExactRefIfAvailable E n i) 0 1 := by
  unfold pushExactRefIfAvailable; eff
instance (n : Bool) (i : BitVec 32) : Eff (popConcreteRef E n i) 1 0 := by
  unfold popConcreteRef; eff
instance (n : Bool) (i : BitVec 32) : Eff (popConcreteOrExactRef E n i) 1 0 := by
  unfold popConcreteOrExactRef; eff
instance (a b : Val) : Eff (matchOperand E a b) 0 0 := by
  unfold matchOperand; eff
instance (x : Option Ref) : Eff (popRef E x) 1 0 := by
  unfold popRef; eff
instance (h : AbsHeap) : Eff (popMaybeSharedRef E h) 1 0 := by
  unfold popMaybeSharedRef; eff
instance (i : BitVec 32) : Reads (localTy E i) :=
  Reads.bind inferInstance fun _ => inferInstance
instance (i : BitVec 32) : Reads (subTypeAt E i) := by
  unfold subTypeAt; reads
instance (s : Bool) : Reads (requireAccess s) :=
  Reads.bind inferInstance fun _ => inferInstance
instance (i : BitVec 32) : Reads (structTypeAt E i) := by
  unfold structTypeAt; reads
instance (i j : BitVec 32) : Reads (structFieldAt E i j) := by
  unfold structFieldAt; reads
instance (i j : BitVec 32) : Reads (mutableStructFieldAt E i j) := by
  unfold mutableStructFieldAt; reads
instance (i : BitVec 32) : Reads (arrayTypeAt E i) := by
  unfold arrayTypeAt; reads
instance (i : BitVec 32) : Reads (mutableArrayTypeAt E i) := by
  unfold mutableArrayTypeAt; reads
instance (i : BitVec 32) : Reads (funcTypeAt E i) := by
  unfold funcTypeAt; reads
instance (i : BitVec 32) : Reads (contTypeAt E i) := by
  unfold contTypeAt; reads
instance (c : Nat) : Reads (funcTypeOfContType E c) := by
  unfold funcTypeOfContType; reads
instance (i : BitVec 32) : Reads (tagAt E i) := by
  unfold tagAt; reads
instance (i : BitVec 32) : Reads (exceptionTagAt E i) := by
  unfold exceptionTagAt; reads
instance (i : BitVec 32) : Reads (globalTypeAt E i) := by
  unfold globalTypeAt; reads
instance (i : BitVec 32) : Reads (tableTypeAt E i) := by
  unfold tableTypeAt; reads
instance (i : BitVec 32) : Reads (elementTypeAt E i) := by
  unfold elementTypeAt; reads
instance (t : BT) : Reads (params E t) := by
  unfold params; reads
instance (t : BT) : Reads (results E t) := by
  unfold results; reads
instance (t : BT) (k : FrameKind) : Reads (labelTypes E t k) := by
  unfold labelTypes; reads
instance : Reads topFrame := Reads.bind inferInstance fun _ => inferInstance
instance (d : BitVec 32) : Reads (jump d) := Reads.bind inferInstance fun _ => by reads
instance (d : BitVec 32) : Reads (jumpTypes E d) := by
  unfold jumpTypes; reads
instance (i : BitVec 32) : Reads (checkMemoryIndex E i) := by
  unfold checkMemoryIndex; reads
instance (m : MemArg) : Reads (checkMemarg E m) := by
  unfold checkMemarg; reads
instance : Reads (checkFloatsEnabled E) := by
  unfold checkFloatsEnabled; reads
instance (m : MemArg) : Reads (checkSharedMemarg E m) := by
  unfold checkSharedMemarg; reads
instance {α : Type} (c : TypeList.M α) : Reads (featuresCheck c) := by
  unfold featuresCheck; reads
instance (r : RefType) : Reads (checkRefType E r) := by
  unfold checkRefType; reads
instance (t : ValType) : Reads (checkValueType E t) := by
  unfold checkValueType; reads
instance (t : BlockType) : Reads (checkBlockType E t) := by
  unfold checkBlockType; reads
instance (i : BitVec 32) : Reads (typeOfFunction E i) := by
  unfold typeOfFunction; reads
instance : Reads (functionResults E) := Reads.bind inferInstance fun _ => by reads
instance (t : FuncTy) : Reads (checkFuncTypeSameResults E t) := by
  unfold checkFuncTypeSameResults; reads
instance (t : Val) : Eff (checkCmpOp E t) 2 1 := by
  unfold checkCmpOp; eff
instance (t : Val) : Eff (checkFcmpOp E t) 2 1 := by
  unfold checkFcmpOp; eff
instance (t : Val) : Eff (checkUnaryOp E t) 1 1 := by
  unfold checkUnaryOp; eff
instance (t : Val) : Eff (checkFunaryOp E t) 1 1 := by
  unfold checkFunaryOp; eff
instance (a b : Val) : Eff (checkConversionOp E a b) 1 1 := by
  unfold checkConversionOp; eff
instance (a b : Val) : Eff (checkFconversionOp E a b) 1 1 := by
  unfold checkFconversionOp; eff
instance (t : Val) : Eff (checkBinaryOp E t) 2 1 := by
  unfold checkBinaryOp; eff
instance (t : Val) : Eff (checkFbinaryOp E t) 2 1 := by
  unfold checkFbinaryOp; eff
instance (m : MemArg) (t : Val) : Eff (checkAtomicLoad E m t) 1 1 := by
  unfold checkAtomicLoad; eff
instance (m : MemArg) (t : Val) : Eff (checkAtomicStore E m t) 2 0 := by
  unfold checkAtomicStore; eff
instance (m : MemArg) (t : Val) : Eff (checkAtomicBinaryMemoryOp E m t) 2 1 := by
  unfold checkAtomicBinaryMemoryOp; eff
instance (m : MemArg) (t : Val) : Eff (checkAtomicBinaryMemoryCmpxchg E m t) 3 1 := by
  unfold checkAtomicBinaryMemoryCmpxchg; eff
instance (h : Heap) : Reads (checkCastToAllowed E h) := by
  unfold checkCastToAllowed; reads
instance (n : Bool) (h : HeapType) : Eff (checkDowncast E n h) 1 0 := by
  unfold checkDowncast; eff
instance (n : Bool) (h : HeapType) : Eff (checkRefTest E n h) 1 1 := by
  unfold checkRefTest; eff
instance (n : Bool) (h : HeapType) : Eff (checkRefCast E n h) 1 1 := by
  unfold checkRefCast; eff
instance (a b : Ref) : Reads (checkBrOnCastTypeHierarchy E a b) := by
  unfold checkBrOnCastTypeHierarchy; reads
instance (h : HeapType) : Reads (checkDescriptor E h) := by
  unfold checkDescriptor; reads
instance (h : HeapType) : Eff (checkMaybeExactDescriptorRef E h) 1 0 := by
  unfold checkMaybeExactDescriptorRef; eff
instance (n : Bool) (h : HeapType) : Eff (checkRefCastDescEq E n h) 2 1 := by
  unfold checkRefCastDescEq; eff
instance (i : BitVec 32) : Reads (checkAtomicGlobalRmwTy E i) := by
  unfold checkAtomicGlobalRmwTy; reads
instance (i j : BitVec 32) : Eff (checkStructAtomicRmw E i j) 2 1 := by
  unfold checkStructAtomicRmw; eff
instance (i : BitVec 32) : Eff (checkArrayAtomicRmw E i) 3 1 := by
  unfold checkArrayAtomicRmw; eff
instance (i : BitVec 32) : Reads (checkDataSegment E i) := by
  unfold checkDataSegment; reads
instance (i : Nat) : Reads (contAtId E i) := by
  unfold contAtId; reads
instance (t : FuncTy) (h : Handle) : Reads (checkHandle E t h) := by
  unfold checkHandle; reads
instance (t : List Handle) (i : BitVec 32) : Reads (checkResumeTable E t i) := by
  unfold checkResumeTable; reads
instance : Eff (checkBinop128 E) 4 2 := by
  unfold checkBinop128; eff
instance : Eff (checkI64MulWide E) 2 2 := by
  unfold checkI64MulWide; eff
instance (i n : UInt8) : Reads (checkSimdLaneIndex i n) := by
  unfold checkSimdLaneIndex; reads
instance (t : Val) : Eff (checkV128Splat E t) 1 1 := by
  unfold checkV128Splat; eff
instance : Eff (checkV128BinaryOp E) 2 1 := by
  unfold checkV128BinaryOp; eff
instance : Eff (checkV128FbinaryOp E) 2 1 := by
  unfold checkV128FbinaryOp; eff
instance : Eff (checkV128UnaryOp E) 1 1 := by
  unfold checkV128UnaryOp; eff
instance : Eff (checkV128FunaryOp E) 1 1 := by
  unfold checkV128FunaryOp; eff
instance : Eff (checkV128TernaryOp E) 3 1 := by
  unfold checkV128TernaryOp; eff
instance : Eff (checkV128BitmaskOp E) 1 1 := by
  unfold checkV128BitmaskOp; eff
instance : Eff (checkV128ShiftOp E) 2 1 := by
  unfold checkV128ShiftOp; eff
instance (m : MemArg) : Eff (checkV128LoadOp E m) 1 1 := by
  unfold checkV128LoadOp; eff
instance : Eff (visitSelect E) 3 1 := by
  unfold visitSelect; eff
instance : Eff (visitRefEq E) 2 1 := by
  unfold visitRefEq; eff
instance (a b : AbsHeap) : Eff (visitConvert E a b) 1 1 := by
  unfold visitConvert; eff
instance : Eff (visitRefIsNull E) 1 1 := by
  unfold visitRefIsNull; eff
instance : Eff (visitRefAsNonNull E) 1 1 := by
  unfold visitRefAsNonNull; eff
instance (h : AbsHeap) : Eff (visitMaybeSharedToI32 E h) 1 1 := by
  unfold visitMaybeSharedToI32; eff
instance (i : BitVec 32) : Eff (visitLocalGet E i) 0 1 := by
  unfold visitLocalGet; eff
instance (i : BitVec 32) : Eff (visitGlobalGet E i) 0 1 := by
  unfold visitGlobalGet; eff
instance (i : BitVec 32) : Eff (visitGlobalSet E i) 1 0 := by
  unfold visitGlobalSet; eff
instance (i : BitVec 32) : Eff (visitMemorySize E i) 0 1 := by
  unfold visitMemorySize; eff
instance (i : BitVec 32) : Eff (visitMemoryGrow E i) 1 1 := by
  unfold visitMemoryGrow; eff
instance (i : BitVec 32) : Eff (visitMemoryFill E i) 3 0 := by
  unfold visitMemoryFill; eff
instance (i : BitVec 32) : Eff (visitMemoryDiscard E i) 2 0 := by
  unfold visitMemoryDiscard; eff
instance (dst src : BitVec 32) : Eff (visitMemoryCopy E dst src) 3 0 := by
  unfold visitMemoryCopy; eff
instance (segment mem : BitVec 32) : Eff (visitMemoryInit E segment mem) 3 0 := by
  unfold visitMemoryInit; eff
instance (segment table : BitVec 32) : Eff (visitTableInit E segment table) 3 0 := by
  unfold visitTableInit; eff
instance (dst src : BitVec 32) : Eff (visitTableCopy E dst src) 3 0 := by
  unfold visitTableCopy; eff
instance (i : BitVec 32) : Eff (visitTableGet E i) 1 1 := by
  unfold visitTableGet; eff
instance (i : BitVec 32) : Eff (visitTableSet E i) 2 0 := by
  unfold visitTableSet; eff
instance (i : BitVec 32) : Eff (visitTableGrow E i) 2 1 := by
  unfold visitTableGrow; eff
instance (i : BitVec 32) : Eff (visitTableSize E i) 0 1 := by
  unfold visitTableSize; eff
instance (i : BitVec 32) : Eff (visitTableFill E i) 3 0 := by
  unfold visitTableFill; eff
instance (i : BitVec 32) : Eff (visitRefFunc E i) 0 1 := by
  unfold visitRefFunc; eff
instance (h : HeapType) : Eff (visitRefNull E h) 0 1 := by
  unfold visitRefNull; eff
instance (i : BitVec 32) : Eff (visitStructNewDefault E i) 0 1 := by
  unfold visitStructNewDefault; eff
instance (i : BitVec 32) : Eff (visitStructNewDefaultDesc E i) 1 1 := by
  unfold visitStructNewDefaultDesc; eff
instance (packed : Bool) (i j : BitVec 32) : Eff (visitStructGet E packed i j) 1 1 := by
  unfold visitStructGet; eff
instance (i j : BitVec 32) : Eff (visitStructSet E i j) 2 0 := by
  unfold visitStructSet; eff
instance (i : BitVec 32) : Eff (visitArrayNew E i) 2 1 := by
  unfold visitArrayNew; eff
instance (i : BitVec 32) : Eff (visitArrayNewDefault E i) 1 1 := by
  unfold visitArrayNewDefault; eff
instance (i d : BitVec 32) : Eff (visitArrayNewData E i d) 2 1 := by
  unfold visitArrayNewData; eff
instance (i e : BitVec 32) : Eff (visitArrayNewElem E i e) 2 1 := by
  unfold visitArrayNewElem; eff
instance (packed : Bool) (i : BitVec 32) : Eff (visitArrayGet E packed i) 2 1 := by
  unfold visitArrayGet; eff
instance (i : BitVec 32) : Eff (visitArraySet E i) 3 0 := by
  unfold visitArraySet; eff
instance (i : BitVec 32) : Eff (visitArrayFill E i) 4 0 := by
  unfold visitArrayFill; eff
instance (dst src : BitVec 32) : Eff (visitArrayCopy E dst src) 5 0 := by
  unfold visitArrayCopy; eff
instance (i d : BitVec 32) : Eff (visitArrayInitData E i d) 4 0 := by
  unfold visitArrayInitData; eff
instance (i e : BitVec 32) : Eff (visitArrayInitElem E i e) 4 0 := by
  unfold visitArrayInitElem; eff
instance (i : BitVec 32) : Eff (visitRefGetDesc E i) 1 1 := by
  unfold visitRefGetDesc; eff
instance (i : BitVec 32) : Eff (visitContNew E i) 1 1 := by
  unfold visitContNew; eff
instance (frm target : RefType) : Reads (castTypes E frm target) := by
  unfold castTypes; reads
instance (i : BitVec 32) : Eff (visitGlobalAtomicGet E i) 0 1 := by
  unfold visitGlobalAtomicGet; eff
instance (i : BitVec 32) : Eff (visitGlobalAtomicSet E i) 1 0 := by
  unfold visitGlobalAtomicSet; eff
instance (i : BitVec 32) : Eff (visitGlobalAtomicRmw E i) 1 1 := by
  unfold visitGlobalAtomicRmw; eff
instance (i : BitVec 32) : Eff (visitGlobalAtomicXchg E i) 1 1 := by
  unfold visitGlobalAtomicXchg; eff
instance (i : BitVec 32) : Eff (visitGlobalAtomicCmpxchg E i) 2 1 := by
  unfold visitGlobalAtomicCmpxchg; eff
instance (i : BitVec 32) : Eff (visitTableAtomicGet E i) 1 1 := by
  unfold visitTableAtomicGet; eff
instance (i : BitVec 32) : Eff (visitTableAtomicSet E i) 2 0 := by
  unfold visitTableAtomicSet; eff
instance (i : BitVec 32) : Eff (visitTableAtomicXchg E i) 2 1 := by
  unfold visitTableAtomicXchg; eff
instance (i : BitVec 32) : Eff (visitTableAtomicCmpxchg E i) 3 1 := by
  unfold visitTableAtomicCmpxchg; eff
instance (i : BitVec 32) : Eff (visitArrayAtomicGet E i) 2 1 := by
  unfold visitArrayAtomicGet; eff
instance (i : BitVec 32) : Eff (visitArrayAtomicSet E i) 3 0 := by
  unfold visitArrayAtomicSet; eff
instance (i : BitVec 32) : Eff (visitArrayAtomicXchg E i) 3 1 := by
  unfold visitArrayAtomicXchg; eff
instance (i : BitVec 32) : Eff (visitArrayAtomicCmpxchg E i) 4 1 := by
  unfold visitArrayAtomicCmpxchg; eff
instance (i j : BitVec 32) : Eff (visitStructAtomicGet E i j) 1 1 := by
  unfold visitStructAtomicGet; eff
instance (i j : BitVec 32) : Eff (visitStructAtomicSet E i j) 2 0 := by
  unfold visitStructAtomicSet; eff
instance (i j : BitVec 32) : Eff (visitStructAtomicXchg E i j) 2 1 := by
  unfold visitStructAtomicXchg; eff
instance (i j : BitVec 32) : Eff (visitStructAtomicCmpxchg E i j) 3 1 := by
  unfold visitStructAtomicCmpxchg; eff
instance (lanes : List UInt8) : Eff (visitShuffle E lanes) 2 1 := by
  unfold visitShuffle; eff
instance (ty : ValType) : Eff (visitTypedSelect E ty) 3 1 := by
  unfold visitTypedSelect; eff
end Verif.Op.AritySpec
