import Verif.Op.Gate
/-! Computations that only change the operand stack, and log how to undo it. -/
namespace Verif.Op
open Verif.Types (AbsHeap HeapType RefType ValType)
open Verif.Instr (FrameKind BlockType MemArg Catch Handle BrTable Operator)
open Verif.TypeList.Spec (Field Storage Comp SubT)

/-- Adding entries for operands to a log. -/
def Log.addOps (d : List (Option MT)) (L : Log) : Log := { L with operands := d ++ L.operands }

/-- The computation changes nothing but the operands, does not look at the log, and what it logs
undoes its changes. -/
class OpOnly {α : Type} (m : M α) : Prop where
  spec : ∀ S : St, ∃ r ops d, undoOperands d ops = S.operands ∧
    ∀ lg, m { S with log := lg } = (r, { S with operands := ops, log := lg.map (Log.addOps d) })

theorem undoOperands_append : ∀ (d1 d2 : List (Option MT)) (ops : List MT),
    undoOperands (d1 ++ d2) ops = undoOperands d2 (undoOperands d1 ops)
  | [], _, _ => rfl
  | none :: d1, d2, ops => undoOperands_append d1 d2 _
  | some _ :: d1, d2, ops => undoOperands_append d1 d2 _

theorem Log.addOps_nil (L : Log) : L.addOps [] = L := rfl

theorem map_addOps_nil (lg : Option Log) : lg.map (Log.addOps []) = lg := by
  cases lg <;> rfl

theorem map_addOps (lg : Option Log) (d1 d2 : List (Option MT)) :
    (lg.map (Log.addOps d1)).map (Log.addOps d2) = lg.map (Log.addOps (d2 ++ d1)) := by
  cases lg <;> simp [Log.addOps]

/-- A computation that changes nothing and does not look at the log. -/
theorem OpOnly.const {α : Type} {m : M α} (h : ∀ S : St, ∃ r, ∀ lg,
    m { S with log := lg } = (r, { S with log := lg })) : OpOnly m where
  spec S := by
    obtain ⟨r, hr⟩ := h S
    refine ⟨r, S.operands, [], rfl, fun lg => ?_⟩
    rw [hr, map_addOps_nil]

instance OpOnly.pure {α : Type} (a : α) : OpOnly (pure a : M α) :=
  .const fun _ => ⟨.ok a, fun _ => rfl⟩

instance OpOnly.fail {α : Type} (e : Fail) : OpOnly (fail e : M α) :=
  .const fun _ => ⟨.error e, fun _ => rfl⟩

theorem bind_def {α β : Type} (m : M α) (k : α → M β) (S : St) :
    (m >>= k) S = match m S with
      | (.ok a, S') => k a S'
      | (.error e, S') => (.error e, S') := rfl

theorem bind_ok {α β : Type} {m : M α} (k : α → M β) {S S' : St} {a : α}
    (h : m S = (.ok a, S')) : (m >>= k) S = k a S' := by rw [bind_def, h]

theorem bind_error {α β : Type} {m : M α} (k : α → M β) {S S' : St} {e : Fail}
    (h : m S = (.error e, S')) : (m >>= k) S = (.error e, S') := by rw [bind_def, h]

instance OpOnly.bind {α β : Type} (m : M α) (k : α → M β) [hm : OpOnly m]
    [hk : ∀ a, OpOnly (k a)] : OpOnly (m >>= k) where
  spec S := by
    obtain ⟨r, ops, d, hu, h⟩ := hm.spec S
    cases r with
    | error e => exact ⟨.error e, ops, d, hu, fun lg => bind_error k (h lg)⟩
    | ok a =>
      obtain ⟨r', ops', d', hu', h'⟩ := (hk a).spec { S with operands := ops }
      refine ⟨r', ops', d' ++ d, ?_, fun lg => ?_⟩
      · rw [undoOperands_append, hu', hu]
      · rw [bind_ok k (h lg), h', map_addOps]

instance OpOnly.map {α β : Type} (f : α → β) (m : M α) [OpOnly m] : OpOnly (f <$> m) :=
  inferInstanceAs (OpOnly (m >>= fun a => Pure.pure (f a)))

instance OpOnly.ite {α : Type} (c : Prop) [Decidable c] (a b : M α) [OpOnly a] [OpOnly b] :
    OpOnly (if c then a else b) := by split <;> infer_instance

/-- A proof by the structure of the computation. -/
macro "op_only" : tactic =>
  `(tactic| repeat' (first | infer_instance | refine @OpOnly.bind _ _ _ _ ?_ ?_ | intro _ | split))

instance (b : Bool) : OpOnly (require b) := by unfold require; op_only
instance {α : Type} (o : Option α) : OpOnly (orError o) := by cases o <;> (unfold orError; op_only)
instance {α : Type} (o : Option α) : OpOnly (orPanic o) := by cases o <;> (unfold orPanic; op_only)
instance {α : Type} (o : Except Fail α) : OpOnly (lift o) := by cases o <;> (unfold lift; op_only)

/-- Looking at the state and not at the log. -/
theorem OpOnly.getS {α : Type} {k : St → M α} (h : ∀ S, OpOnly (k S))
    (hl : ∀ (S : St) lg, k { S with log := lg } = k S) : OpOnly (getS >>= k) where
  spec S := by
    obtain ⟨r, ops, d, hu, h⟩ := (h S).spec S
    refine ⟨r, ops, d, hu, fun lg => ?_⟩
    rw [bind_ok k (show Op.getS { S with log := lg } = (.ok _, _) from rfl), hl, h]

theorem OpOnly.each {α : Type} {g : α → M Unit} (h : ∀ a, OpOnly (g a)) :
    ∀ xs, OpOnly (each g xs)
  | [] => inferInstanceAs (OpOnly (Pure.pure ()))
  | x :: xs => by
    have := OpOnly.each h xs
    exact inferInstanceAs (OpOnly (do g x; Op.each g xs))

instance {α : Type} (g : α → M Unit) [h : ∀ a, OpOnly (g a)] (xs : List α) :
    OpOnly (each g xs) := OpOnly.each h xs

instance (t : MT) : OpOnly (pushMT t) where
  spec S := ⟨.ok (), t :: S.operands, [none], rfl, fun lg => rfl⟩

instance (t : Val) : OpOnly (push t) := by unfold push; op_only
instance (t : Ref) : OpOnly (pushRef t) := by unfold pushRef; op_only

variable (E : Env)

theorem popSlow_opOnly (x : Option Val) (S : St) : ∃ r ops d, undoOperands d ops = S.operands ∧
    ∀ lg, popSlow E x S.operands.head? { S with operands := S.operands.tail, log := lg } =
      (r, { S with operands := ops, log := lg.map (Log.addOps d) }) := by
  obtain ⟨locals, inits, control, operands, shared, log⟩ := S
  have hops : operands.head?.toList ++ operands.tail = operands := by
    cases operands <;> rfl
  unfold popSlow
  dsimp only
  rw [hops]
  cases control with
  | nil => exact ⟨.error .panic, operands, [], rfl, fun lg => by rw [map_addOps_nil]⟩
  | cons fr rest =>
    dsimp only
    by_cases h1 : operands.length = fr.height ∧ fr.unreachable = true
    · simp only [if_pos h1]
      exact ⟨.ok .bottom, operands, [], rfl, fun lg => by rw [map_addOps_nil]⟩
    · simp only [if_neg h1]
      by_cases h2 : operands.length = fr.height
      · simp only [if_pos h2]
        exact ⟨.error .error, operands, [], rfl, fun lg => by rw [map_addOps_nil]⟩
      · simp only [if_neg h2]
        cases operands with
        | nil => exact ⟨.error .panic, [], [], rfl, fun lg => by rw [map_addOps_nil]⟩
        | cons t ops =>
          exact ⟨if checkPopped E x t then .ok t else .error .error, ops, [some t], rfl,
            fun lg => rfl⟩

instance (x : Option Val) : OpOnly (pop E x) where
  spec S := by
    unfold pop
    cases h : popFast x S with
    | none =>
      obtain ⟨r, ops, d, hu, hs⟩ := popSlow_opOnly E x S
      refine ⟨r, ops, d, hu, fun lg => ?_⟩
      rw [show popFast x { S with log := lg } = popFast x S from rfl, h]
      exact hs lg
    | some p =>
      obtain ⟨t, ops⟩ := p
      refine ⟨.ok (.known t), ops, [some (.known t)], ?_, fun lg => ?_⟩
      · unfold popFast at h
        split at h
        · split at h
          · split at h
            · split at h
              · cases h; next h' _ _ _ _ => simp [undoOperands, *]
              · cases h
            · cases h
          · cases h
        · cases h
      · rw [show popFast x { S with log := lg } = popFast x S from rfl, h]
        rfl

instance (t : Val) : OpOnly (popT E t) := by unfold popT; op_only
instance (ts : List Val) : OpOnly (popAll E ts) := by unfold popAll; op_only
instance (ts : List Val) : OpOnly (pushAll ts) := by unfold pushAll; op_only
instance (i : BitVec 32) : OpOnly (checkConcrete E i) := by unfold checkConcrete; op_only
instance (i : BitVec 32) : OpOnly (checkExact E i) := by unfold checkExact; op_only
instance (n : Bool) (i : BitVec 32) : OpOnly (pushConcreteRef E n i) := by
  unfold pushConcreteRef; op_only
instance (n : Bool) (i : BitVec 32) : OpOnly (pushExactRef E n i) := by
  unfold pushExactRef; op_only
instance (n : Bool) (i : BitVec 32) : OpOnly (pushExactRefIfAvailable E n i) := by
  unfold pushExactRefIfAvailable; op_only
instance (n : Bool) (i : BitVec 32) : OpOnly (popConcreteRef E n i) := by
  unfold popConcreteRef; op_only
instance (n : Bool) (i : BitVec 32) : OpOnly (popConcreteOrExactRef E n i) := by
  unfold popConcreteOrExactRef; op_only
instance (ts : List Val) : OpOnly (popPushLabelTypes E ts) := by unfold popPushLabelTypes; op_only
instance (a b : Val) : OpOnly (matchOperand E a b) := by unfold matchOperand; op_only
theorem popTypes_opOnly : ∀ ts : List Val, OpOnly (popTypes E ts)
  | [] => by unfold popTypes; op_only
  | t :: ts => by have := popTypes_opOnly ts; unfold popTypes; op_only
instance (ts : List Val) : OpOnly (popTypes E ts) := popTypes_opOnly E ts
instance (ts : List Val) : OpOnly (matchStackOperands E ts) := by unfold matchStackOperands; op_only
instance (x : Option Ref) : OpOnly (popRef E x) := by unfold popRef; op_only
instance (h : AbsHeap) : OpOnly (popMaybeSharedRef E h) := by unfold popMaybeSharedRef; op_only
instance (i : BitVec 32) : OpOnly (localTy E i) :=
  OpOnly.getS (fun _ => inferInstance) fun _ _ => rfl
instance (i : BitVec 32) : OpOnly (subTypeAt E i) := by unfold subTypeAt; op_only
instance (s : Bool) : OpOnly (requireAccess s) :=
  OpOnly.getS (fun _ => inferInstance) fun _ _ => rfl
instance (i : BitVec 32) : OpOnly (structTypeAt E i) := by unfold structTypeAt; op_only
instance (i j : BitVec 32) : OpOnly (structFieldAt E i j) := by unfold structFieldAt; op_only
instance (i j : BitVec 32) : OpOnly (mutableStructFieldAt E i j) := by
  unfold mutableStructFieldAt; op_only
instance (i : BitVec 32) : OpOnly (arrayTypeAt E i) := by unfold arrayTypeAt; op_only
instance (i : BitVec 32) : OpOnly (mutableArrayTypeAt E i) := by unfold mutableArrayTypeAt; op_only
instance (i : BitVec 32) : OpOnly (funcTypeAt E i) := by unfold funcTypeAt; op_only
instance (i : BitVec 32) : OpOnly (contTypeAt E i) := by unfold contTypeAt; op_only
instance (c : Nat) : OpOnly (funcTypeOfContType E c) := by unfold funcTypeOfContType; op_only
instance (i : BitVec 32) : OpOnly (tagAt E i) := by unfold tagAt; op_only
instance (i : BitVec 32) : OpOnly (exceptionTagAt E i) := by unfold exceptionTagAt; op_only
instance (i : BitVec 32) : OpOnly (globalTypeAt E i) := by unfold globalTypeAt; op_only
instance (i : BitVec 32) : OpOnly (tableTypeAt E i) := by unfold tableTypeAt; op_only
instance (i : BitVec 32) : OpOnly (elementTypeAt E i) := by unfold elementTypeAt; op_only
instance (t : BT) : OpOnly (params E t) := by unfold params; op_only
instance (t : BT) : OpOnly (results E t) := by unfold results; op_only
instance (t : BT) (k : FrameKind) : OpOnly (labelTypes E t k) := by unfold labelTypes; op_only
instance : OpOnly topFrame := OpOnly.getS (fun _ => inferInstance) fun _ _ => rfl
instance (d : BitVec 32) : OpOnly (jump d) :=
  OpOnly.getS (fun _ => by op_only) fun _ _ => rfl
instance (d : BitVec 32) : OpOnly (jumpTypes E d) := by unfold jumpTypes; op_only
instance (i : BitVec 32) : OpOnly (checkMemoryIndex E i) := by unfold checkMemoryIndex; op_only
instance (m : MemArg) : OpOnly (checkMemarg E m) := by unfold checkMemarg; op_only
instance : OpOnly (checkFloatsEnabled E) := by unfold checkFloatsEnabled; op_only
instance (m : MemArg) : OpOnly (checkSharedMemarg E m) := by unfold checkSharedMemarg; op_only
instance {α : Type} (c : TypeList.M α) : OpOnly (featuresCheck c) := by unfold featuresCheck; op_only
instance (r : RefType) : OpOnly (checkRefType E r) := by unfold checkRefType; op_only
instance (t : ValType) : OpOnly (checkValueType E t) := by unfold checkValueType; op_only
instance (t : BlockType) : OpOnly (checkBlockType E t) := by unfold checkBlockType; op_only
instance (i : BitVec 32) : OpOnly (typeOfFunction E i) := by unfold typeOfFunction; op_only
instance (t : FuncTy) : OpOnly (checkCallTy E t) := by unfold checkCallTy; op_only
instance : OpOnly (functionResults E) := OpOnly.getS (fun _ => inferInstance) fun _ _ => rfl
instance (t : FuncTy) : OpOnly (checkFuncTypeSameResults E t) := by
  unfold checkFuncTypeSameResults; op_only
instance (i : BitVec 32) : OpOnly (checkCallRefTy E i) := by unfold checkCallRefTy; op_only
instance (i j : BitVec 32) : OpOnly (checkCallIndirectTy E i j) := by
  unfold checkCallIndirectTy; op_only
instance (t : Val) : OpOnly (checkCmpOp E t) := by unfold checkCmpOp; op_only
instance (t : Val) : OpOnly (checkFcmpOp E t) := by unfold checkFcmpOp; op_only
instance (t : Val) : OpOnly (checkUnaryOp E t) := by unfold checkUnaryOp; op_only
instance (t : Val) : OpOnly (checkFunaryOp E t) := by unfold checkFunaryOp; op_only
instance (a b : Val) : OpOnly (checkConversionOp E a b) := by unfold checkConversionOp; op_only
instance (a b : Val) : OpOnly (checkFconversionOp E a b) := by unfold checkFconversionOp; op_only
instance (t : Val) : OpOnly (checkBinaryOp E t) := by unfold checkBinaryOp; op_only
instance (t : Val) : OpOnly (checkFbinaryOp E t) := by unfold checkFbinaryOp; op_only
instance (m : MemArg) (t : Val) : OpOnly (checkAtomicLoad E m t) := by unfold checkAtomicLoad; op_only
instance (m : MemArg) (t : Val) : OpOnly (checkAtomicStore E m t) := by
  unfold checkAtomicStore; op_only
instance (m : MemArg) (t : Val) : OpOnly (checkAtomicBinaryMemoryOp E m t) := by
  unfold checkAtomicBinaryMemoryOp; op_only
instance (m : MemArg) (t : Val) : OpOnly (checkAtomicBinaryMemoryCmpxchg E m t) := by
  unfold checkAtomicBinaryMemoryCmpxchg; op_only
instance (h : Heap) : OpOnly (checkCastToAllowed E h) := by unfold checkCastToAllowed; op_only
instance (n : Bool) (h : HeapType) : OpOnly (checkDowncast E n h) := by unfold checkDowncast; op_only
instance (n : Bool) (h : HeapType) : OpOnly (checkRefTest E n h) := by unfold checkRefTest; op_only
instance (n : Bool) (h : HeapType) : OpOnly (checkRefCast E n h) := by unfold checkRefCast; op_only
instance (a b : Ref) : OpOnly (checkBrOnCastTypeHierarchy E a b) := by
  unfold checkBrOnCastTypeHierarchy; op_only
instance (h : HeapType) : OpOnly (checkDescriptor E h) := by unfold checkDescriptor; op_only
instance (h : HeapType) : OpOnly (checkMaybeExactDescriptorRef E h) := by
  unfold checkMaybeExactDescriptorRef; op_only
instance (n : Bool) (h : HeapType) : OpOnly (checkRefCastDescEq E n h) := by
  unfold checkRefCastDescEq; op_only
instance (i : BitVec 32) : OpOnly (checkAtomicGlobalRmwTy E i) := by
  unfold checkAtomicGlobalRmwTy; op_only
instance (i j : BitVec 32) : OpOnly (checkStructAtomicRmw E i j) := by
  unfold checkStructAtomicRmw; op_only
instance (i : BitVec 32) : OpOnly (checkArrayAtomicRmw E i) := by unfold checkArrayAtomicRmw; op_only
instance (i : BitVec 32) : OpOnly (checkDataSegment E i) := by unfold checkDataSegment; op_only
instance (i : Nat) : OpOnly (contAtId E i) := by unfold contAtId; op_only
instance (t : FuncTy) (h : Handle) : OpOnly (checkHandle E t h) := by unfold checkHandle; op_only
instance (t : List Handle) (i : BitVec 32) : OpOnly (checkResumeTable E t i) := by
  unfold checkResumeTable; op_only
instance : OpOnly (checkBinop128 E) := by unfold checkBinop128; op_only
instance : OpOnly (checkI64MulWide E) := by unfold checkI64MulWide; op_only
instance (i n : UInt8) : OpOnly (checkSimdLaneIndex i n) := by unfold checkSimdLaneIndex; op_only
instance (t : Val) : OpOnly (checkV128Splat E t) := by unfold checkV128Splat; op_only
instance : OpOnly (checkV128BinaryOp E) := by unfold checkV128BinaryOp; op_only
instance : OpOnly (checkV128FbinaryOp E) := by unfold checkV128FbinaryOp; op_only
instance : OpOnly (checkV128UnaryOp E) := by unfold checkV128UnaryOp; op_only
instance : OpOnly (checkV128FunaryOp E) := by unfold checkV128FunaryOp; op_only
instance : OpOnly (checkV128TernaryOp E) := by unfold checkV128TernaryOp; op_only
instance : OpOnly (checkV128BitmaskOp E) := by unfold checkV128BitmaskOp; op_only
instance : OpOnly (checkV128ShiftOp E) := by unfold checkV128ShiftOp; op_only
instance (m : MemArg) : OpOnly (checkV128LoadOp E m) := by unfold checkV128LoadOp; op_only

instance : OpOnly (visitSelect E) := by unfold visitSelect; op_only
instance : OpOnly (visitRefEq E) := by unfold visitRefEq; op_only
instance (a b : AbsHeap) : OpOnly (visitConvert E a b) := by unfold visitConvert; op_only
instance : OpOnly (visitRefIsNull E) := by unfold visitRefIsNull; op_only
instance : OpOnly (visitRefAsNonNull E) := by unfold visitRefAsNonNull; op_only
instance (h : AbsHeap) : OpOnly (visitMaybeSharedToI32 E h) := by
  unfold visitMaybeSharedToI32; op_only
instance (m : MemArg) (b : MemBody) : OpOnly (runMem E m b) := by unfold runMem; op_only
instance (m : MemArg) (l : UInt8) (b : MemLaneBody) : OpOnly (runMemLane E m l b) := by
  unfold runMemLane; op_only
instance (l : UInt8) (b : LaneBody) : OpOnly (runLane E l b) := by unfold runLane; op_only
instance (a b : List Val) : OpOnly (matchAll E a b) := by unfold matchAll; op_only
instance (c : Catch) : OpOnly (checkCatch E c) := by unfold checkCatch; op_only
instance (d : BitVec 32) : OpOnly (visitBrIf E d) := by unfold visitBrIf; op_only
instance (n : Nat) (x : Option (BitVec 32)) : OpOnly (checkBrTarget E n x) := by
  unfold checkBrTarget; op_only
instance (d : BitVec 32) : OpOnly (visitBrOnNull E d) := by unfold visitBrOnNull; op_only
instance (d : BitVec 32) : OpOnly (visitBrOnNonNull E d) := by unfold visitBrOnNonNull; op_only
instance (i : BitVec 32) : OpOnly (visitCall E i) := by unfold visitCall; op_only
instance (i : BitVec 32) : OpOnly (visitCallRef E i) := by unfold visitCallRef; op_only
instance (i j : BitVec 32) : OpOnly (visitCallIndirect E i j) := by unfold visitCallIndirect; op_only
theorem visitLocalGet_opOnly (i : BitVec 32) (ty : Val) : OpOnly (do
    let S ← getS
    let u ← orPanic (S.inits.isUninit i)
    require (!u)
    push ty) := OpOnly.getS (fun _ => inferInstance) fun _ _ => rfl
instance (i : BitVec 32) : OpOnly (visitLocalGet E i) := by
  unfold visitLocalGet
  exact @OpOnly.bind _ _ _ _ inferInstance (visitLocalGet_opOnly i)

instance (i : BitVec 32) : OpOnly (visitGlobalGet E i) := by unfold visitGlobalGet; op_only
instance (i : BitVec 32) : OpOnly (visitGlobalSet E i) := by unfold visitGlobalSet; op_only
instance (i : BitVec 32) : OpOnly (visitMemorySize E i) := by unfold visitMemorySize; op_only
instance (i : BitVec 32) : OpOnly (visitMemoryGrow E i) := by unfold visitMemoryGrow; op_only
instance (i : BitVec 32) : OpOnly (visitMemoryFill E i) := by unfold visitMemoryFill; op_only
instance (i : BitVec 32) : OpOnly (visitMemoryDiscard E i) := by unfold visitMemoryDiscard; op_only
instance (dst src : BitVec 32) : OpOnly (visitMemoryCopy E dst src) := by unfold visitMemoryCopy; op_only
instance (segment mem : BitVec 32) : OpOnly (visitMemoryInit E segment mem) := by unfold visitMemoryInit; op_only
instance (segment table : BitVec 32) : OpOnly (visitTableInit E segment table) := by unfold visitTableInit; op_only
instance (dst src : BitVec 32) : OpOnly (visitTableCopy E dst src) := by unfold visitTableCopy; op_only
instance (i : BitVec 32) : OpOnly (visitTableGet E i) := by unfold visitTableGet; op_only
instance (i : BitVec 32) : OpOnly (visitTableSet E i) := by unfold visitTableSet; op_only
instance (i : BitVec 32) : OpOnly (visitTableGrow E i) := by unfold visitTableGrow; op_only
instance (i : BitVec 32) : OpOnly (visitTableSize E i) := by unfold visitTableSize; op_only
instance (i : BitVec 32) : OpOnly (visitTableFill E i) := by unfold visitTableFill; op_only
instance (i : BitVec 32) : OpOnly (visitRefFunc E i) := by unfold visitRefFunc; op_only
instance (h : HeapType) : OpOnly (visitRefNull E h) := by unfold visitRefNull; op_only
instance (i : BitVec 32) : OpOnly (visitStructNew E i) := by unfold visitStructNew; op_only
instance (i : BitVec 32) : OpOnly (visitStructNewDefault E i) := by unfold visitStructNewDefault; op_only
instance (i : BitVec 32) : OpOnly (visitStructNewDesc E i) := by unfold visitStructNewDesc; op_only
instance (i : BitVec 32) : OpOnly (visitStructNewDefaultDesc E i) := by
  unfold visitStructNewDefaultDesc; op_only
instance (packed : Bool) (i j : BitVec 32) : OpOnly (visitStructGet E packed i j) := by
  unfold visitStructGet; op_only
instance (i j : BitVec 32) : OpOnly (visitStructSet E i j) := by unfold visitStructSet; op_only
instance (i : BitVec 32) : OpOnly (visitArrayNew E i) := by unfold visitArrayNew; op_only
instance (i : BitVec 32) : OpOnly (visitArrayNewDefault E i) := by unfold visitArrayNewDefault; op_only
instance (i n : BitVec 32) : OpOnly (visitArrayNewFixed E i n) := by unfold visitArrayNewFixed; op_only
instance (i d : BitVec 32) : OpOnly (visitArrayNewData E i d) := by unfold visitArrayNewData; op_only
instance (i e : BitVec 32) : OpOnly (visitArrayNewElem E i e) := by unfold visitArrayNewElem; op_only
instance (packed : Bool) (i : BitVec 32) : OpOnly (visitArrayGet E packed i) := by unfold visitArrayGet; op_only
instance (i : BitVec 32) : OpOnly (visitArraySet E i) := by unfold visitArraySet; op_only
instance (i : BitVec 32) : OpOnly (visitArrayFill E i) := by unfold visitArrayFill; op_only
instance (dst src : BitVec 32) : OpOnly (visitArrayCopy E dst src) := by unfold visitArrayCopy; op_only
instance (i d : BitVec 32) : OpOnly (visitArrayInitData E i d) := by unfold visitArrayInitData; op_only
instance (i e : BitVec 32) : OpOnly (visitArrayInitElem E i e) := by unfold visitArrayInitElem; op_only
instance (i : BitVec 32) : OpOnly (visitRefGetDesc E i) := by unfold visitRefGetDesc; op_only
instance (i : BitVec 32) : OpOnly (visitContNew E i) := by unfold visitContNew; op_only
instance (i j : BitVec 32) : OpOnly (visitContBind E i j) := by unfold visitContBind; op_only
instance (i : BitVec 32) : OpOnly (visitSuspend E i) := by unfold visitSuspend; op_only
instance (i : BitVec 32) (table : List Handle) : OpOnly (visitResume E i table) := by unfold visitResume; op_only
instance (i tag : BitVec 32) (table : List Handle) : OpOnly (visitResumeThrow E i tag table) := by
  unfold visitResumeThrow; op_only
instance (i : BitVec 32) (table : List Handle) : OpOnly (visitResumeThrowRef E i table) := by
  unfold visitResumeThrowRef; op_only
instance (i tag : BitVec 32) : OpOnly (visitSwitch E i tag) := by unfold visitSwitch; op_only
instance (x0 : Instr.Idx2) (x1 : BitVec 32) (x2 : BitVec 32) : OpOnly (visitIdx2 E x0 x1 x2) := by
  unfold visitIdx2; op_only
instance (x0 : Instr.Heap) (x1 : HeapType) : OpOnly (visitHeap E x0 x1) := by unfold visitHeap; op_only
instance (frm target : RefType) : OpOnly (castTypes E frm target) := by unfold castTypes; op_only
instance (depth : BitVec 32) (frm sent kept : Ref) : OpOnly (castBranch E depth frm sent kept) := by
  unfold castBranch; op_only
instance (depth : BitVec 32) (frm target : RefType) : OpOnly (visitBrOnCast E depth frm target) := by
  unfold visitBrOnCast; op_only
instance (depth : BitVec 32) (frm target : RefType) : OpOnly (visitBrOnCastFail E depth frm target) := by
  unfold visitBrOnCastFail; op_only
instance (depth : BitVec 32) (frm target : RefType) : OpOnly (visitBrOnCastDescEq E depth frm target) := by
  unfold visitBrOnCastDescEq; op_only
instance (depth : BitVec 32) (frm target : RefType) : OpOnly (visitBrOnCastDescEqFail E depth frm target) := by
  unfold visitBrOnCastDescEqFail; op_only
instance (x0 : Instr.Cast) (x1 : BitVec 32) (x2 : RefType) (x3 : RefType) : OpOnly (visitCast E x0 x1 x2 x3) := by
  unfold visitCast; op_only
instance (i : BitVec 32) : OpOnly (visitGlobalAtomicGet E i) := by unfold visitGlobalAtomicGet; op_only
instance (i : BitVec 32) : OpOnly (visitGlobalAtomicSet E i) := by unfold visitGlobalAtomicSet; op_only
instance (i : BitVec 32) : OpOnly (visitGlobalAtomicRmw E i) := by unfold visitGlobalAtomicRmw; op_only
instance (i : BitVec 32) : OpOnly (visitGlobalAtomicXchg E i) := by unfold visitGlobalAtomicXchg; op_only
instance (i : BitVec 32) : OpOnly (visitGlobalAtomicCmpxchg E i) := by
  unfold visitGlobalAtomicCmpxchg; op_only
instance (i : BitVec 32) : OpOnly (visitTableAtomicGet E i) := by unfold visitTableAtomicGet; op_only
instance (i : BitVec 32) : OpOnly (visitTableAtomicSet E i) := by unfold visitTableAtomicSet; op_only
instance (i : BitVec 32) : OpOnly (visitTableAtomicXchg E i) := by unfold visitTableAtomicXchg; op_only
instance (i : BitVec 32) : OpOnly (visitTableAtomicCmpxchg E i) := by
  unfold visitTableAtomicCmpxchg; op_only
instance (i : BitVec 32) : OpOnly (visitArrayAtomicGet E i) := by unfold visitArrayAtomicGet; op_only
instance (i : BitVec 32) : OpOnly (visitArrayAtomicSet E i) := by unfold visitArrayAtomicSet; op_only
instance (i : BitVec 32) : OpOnly (visitArrayAtomicXchg E i) := by unfold visitArrayAtomicXchg; op_only
instance (i : BitVec 32) : OpOnly (visitArrayAtomicCmpxchg E i) := by
  unfold visitArrayAtomicCmpxchg; op_only
instance (i j : BitVec 32) : OpOnly (visitStructAtomicGet E i j) := by unfold visitStructAtomicGet; op_only
instance (i j : BitVec 32) : OpOnly (visitStructAtomicSet E i j) := by unfold visitStructAtomicSet; op_only
instance (i j : BitVec 32) : OpOnly (visitStructAtomicXchg E i j) := by unfold visitStructAtomicXchg; op_only
instance (i j : BitVec 32) : OpOnly (visitStructAtomicCmpxchg E i j) := by
  unfold visitStructAtomicCmpxchg; op_only
instance (x0 : Instr.Atomic) (x1 : BitVec 32) : OpOnly (visitAtomic E x0 x1) := by unfold visitAtomic; op_only
instance (x0 : Instr.Atomic2) (x1 : BitVec 32) (x2 : BitVec 32) : OpOnly (visitAtomic2 E x0 x1 x2) := by
  unfold visitAtomic2; op_only
instance (lanes : List UInt8) : OpOnly (visitShuffle E lanes) := by unfold visitShuffle; op_only
instance (ty : ValType) : OpOnly (visitTypedSelect E ty) := by unfold visitTypedSelect; op_only

end Verif.Op
