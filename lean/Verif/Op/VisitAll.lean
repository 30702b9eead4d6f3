import Verif.Op.VisitOk3
/-! What the method for an operator does, for the operators that have types in terms of value
types and do not set locals. -/
namespace Verif.Op.View
open Verif.Op.Typing
open Verif.Types (AbsHeap HeapType UnpackedIndex RefType ValType)
open Verif.Instr (FrameKind BlockType MemArg Catch Handle BrTable Operator)
open Verif.Instr.Spec (accessBits laneBits)
open Verif.TypeList.Spec (Field Storage Comp SubT Decls HeapSub RefSub ValSub StorageSub)

variable {α β : Type} {E : Env} {F : Fn} {B : Base} {C : Ctx} {u : Bool}

theorem ok_dataDrop (h : Sit E F B) {i : BitVec 32} {I : List (BitVec 32)} {c c' : List MT} :
    Ok B (checkDataSegment E i) c () c' ↔
      HasTy F.C B.fr.unreachable (IdxTy F I .dataDrop i) c c' := by
  unfold IdxTy
  vok h
theorem ok_elemDrop (h : Sit E F B) {i : BitVec 32} {I : List (BitVec 32)} {c c' : List MT} :
    Ok B (elementTypeAt E i >>= fun _ => Pure.pure ()) c () c' ↔
      HasTy F.C B.fr.unreachable (IdxTy F I .elemDrop i) c c' := by
  unfold IdxTy
  vok h
  simp [List.getElem?_eq_some_iff]

/-- The operators that the theorems of this file are about. -/
def basicPlain : Instr.Plain → Bool
  | .unreachable | .return_ | .throwRef | .select | .refAsNonNull | .anyConvertExtern
  | .externConvertAny => false
  | _ => true
def basicIdx : Instr.Idx → Bool
  | .br | .throw | .rethrow | .returnCall | .returnCallRef | .brOnNull | .localGet | .localSet
  | .localTee | .structNewDesc | .structNewDefaultDesc | .refGetDesc => false
  | _ => true
def basicHeap : Instr.Heap → Bool
  | .refCastDescEqNonNull | .refCastDescEqNullable => false
  | _ => true
def basicCast : Instr.Cast → Bool
  | .brOnCastDescEq | .brOnCastDescEqFail => false
  | _ => true
def basic : Operator → Bool
  | .plain o => basicPlain o
  | .idx o _ => basicIdx o
  | .heap o _ => basicHeap o
  | .cast o _ _ _ => basicCast o
  | .returnCallIndirect .. | .brTable _ | .block .. | .else_ | .end_ | .catchAll | .catch_ _
  | .delegate _ | .tryTable .. => false
  | _ => true

/-- No exact reference types where features are checked. -/
def NoExact : Operator → Prop
  | .typedSelect t => NoExactVal t
  | .heap .refNull h => NoExactHeap h
  | .block _ (.type t) | .tryTable (.type t) _ => NoExactVal t
  | _ => True

/-- The alignment that the reader gives as the largest one is that of the access. -/
def Natural : Operator → Prop
  | .mem o m => 8 * 2 ^ m.maxAlign.toNat = accessBits o
  | .memLane o m _ => 8 * 2 ^ m.maxAlign.toNat = laneBits o
  | _ => True

theorem plainTy_sig (o : Instr.Plain) (h : o ≠ .drop ∧ o ≠ .refIsNull ∧ o ≠ .refEq ∧ o ≠ .i31GetS ∧
    o ≠ .i31GetU ∧ o ≠ .arrayLen) (ins outs : List V) :
    PlainTy o ins outs ↔ plainSig o = some (ins, outs) := by
  obtain ⟨h1, h2, h3, h4, h5, h6⟩ := h
  unfold PlainTy
  split <;> first | contradiction | rfl

theorem ok_plainSig (h : Sit E F B) {o : Instr.Plain} (hs : (plainSig o).isSome) {c c' : List MT} :
    Ok B (runPlain E (plainBody o)) c () c' ↔ HasTy F.C B.fr.unreachable
      (fun ins outs => plainSig o = some (ins, outs)) c c' := by
  obtain ⟨⟨ins, outs⟩, hp⟩ := Option.isSome_iff_exists.1 hs
  rw [ok_body h ((bodySig_plainBody o).trans hp)]
  constructor
  · intro he; exact ⟨ins, outs, hp, he⟩
  · rintro ⟨_, _, hp', he⟩
    rw [hp] at hp'
    cases hp'
    exact he

theorem ok_plain (h : Sit E F B) {o : Instr.Plain} (hb : basicPlain o = true) {c c' : List MT} :
    Ok B (runPlain E (plainBody o)) c () c' ↔ HasTy F.C B.fr.unreachable (PlainTy o) c c' := by
  by_cases h1 : o = .drop
  · subst h1; exact ok_drop h
  by_cases h2 : o = .refIsNull
  · subst h2; exact ok_refIsNull h
  by_cases h3 : o = .refEq
  · subst h3; exact ok_refEq h
  by_cases h4 : o = .i31GetS
  · subst h4; exact ok_maybeSharedToI32 h
  by_cases h5 : o = .i31GetU
  · subst h5; exact ok_maybeSharedToI32 h
  by_cases h6 : o = .arrayLen
  · subst h6; exact ok_maybeSharedToI32 h
  have hs : (plainSig o).isSome := by
    cases o <;> first | rfl | contradiction
  rw [ok_plainSig h hs]
  unfold HasTy
  simp only [plainTy_sig o ⟨h1, h2, h3, h4, h5, h6⟩]

theorem ok_idx (h : Sit E F B) {o : Instr.Idx} (hb : basicIdx o = true) {i : BitVec 32}
    {I : List (BitVec 32)} {c c' : List MT} :
    Ok B (visitIdx E o i) c () c' ↔ HasTy F.C B.fr.unreachable (IdxTy F I o i) c c' := by
  cases o with
  | br | throw | rethrow | returnCall | returnCallRef | brOnNull | localGet | localSet
  | localTee | structNewDesc | structNewDefaultDesc | refGetDesc => cases hb
  | brIf => exact ok_brIf h
  | brOnNonNull => exact ok_brOnNonNull h
  | call => exact ok_call h
  | callRef => exact ok_callRef h
  | globalGet => exact ok_globalGet h
  | globalSet => exact ok_globalSet h
  | dataDrop => exact ok_dataDrop h
  | memoryFill => exact ok_memoryFill h
  | memoryDiscard => exact ok_memoryDiscard h
  | refFunc => exact ok_refFunc h
  | structNew => exact ok_structNew h
  | structNewDefault => exact ok_structNewDefault h
  | arrayNew => exact ok_arrayNew h
  | arrayNewDefault => exact ok_arrayNewDefault h
  | arrayGet => exact ok_arrayGet h
  | arrayGetS => exact ok_arrayGetS h
  | arrayGetU => exact ok_arrayGetU h
  | arraySet => exact ok_arraySet h
  | arrayFill => exact ok_arrayFill h
  | elemDrop => exact ok_elemDrop h
  | tableFill => exact ok_tableFill h
  | tableSet => exact ok_tableSet h
  | tableGet => exact ok_tableGet h
  | tableGrow => exact ok_tableGrow h
  | tableSize => exact ok_tableSize h
  | contNew => exact ok_contNew h
  | suspend => exact ok_suspend h

theorem ok_idx2 (h : Sit E F B) {o : Instr.Idx2} {i j : BitVec 32} {c c' : List MT} :
    Ok B (visitIdx2 E o i j) c () c' ↔ HasTy F.C B.fr.unreachable (Idx2Ty F o i j) c c' := by
  cases o with
  | memoryCopy => exact ok_memoryCopy h
  | structGet => exact ok_structGet h
  | structGetS => exact ok_structGetS h
  | structGetU => exact ok_structGetU h
  | structSet => exact ok_structSet h
  | arrayNewFixed => exact ok_arrayNewFixed h
  | arrayNewData => exact ok_arrayNewData h
  | arrayNewElem => exact ok_arrayNewElem h
  | arrayCopy => exact ok_arrayCopy h
  | arrayInitData => exact ok_arrayInitData h
  | arrayInitElem => exact ok_arrayInitElem h
  | tableCopy => exact ok_tableCopy h
  | contBind => exact ok_contBind h
  | switch => exact ok_switch h

theorem ok_consts (h : Sit E F B) {t : V} {c c' : List MT} :
    Ok B (push t) c () c' ↔
      HasTy F.C B.fr.unreachable (fun ins outs => ins = [] ∧ outs = [t]) c c' := by
  vok h

theorem ok_visit (h : Sit E F B) {o : Operator} (hb : basic o = true) (hn : Natural o)
    {I : List (BitVec 32)} {c c' : List MT} (hr : Ok B (visit E o) c () c') :
    HasTy F.C B.fr.unreachable (Simple F I o) c c' := by
  cases o with
  | plain o => exact (ok_plain h hb).1 hr
  | idx o i => exact (ok_idx h hb).1 hr
  | heap o x =>
    cases o with
    | refNull => exact ok_refNull h hr
    | refTestNonNull | refTestNullable => exact (ok_refTest h).1 hr
    | refCastNonNull | refCastNullable => exact (ok_refCast h).1 hr
    | refCastDescEqNonNull | refCastDescEqNullable => cases hb
  | cast o d a b =>
    cases o with
    | brOnCast => exact (ok_brOnCast h).1 hr
    | brOnCastFail => exact (ok_brOnCastFail h).1 hr
    | brOnCastDescEq | brOnCastDescEqFail => cases hb
  | returnCallIndirect | brTable | block | else_ | end_ | catchAll | catch_ | delegate
  | tryTable => cases hb
  | atomicFence =>
    obtain ⟨_, rfl⟩ := ok_pure.1 hr
    exact ⟨[], [], ⟨rfl, rfl⟩, rfl⟩
  | memorySize => exact (ok_memorySize h).1 hr
  | memoryGrow => exact (ok_memoryGrow h).1 hr
  | idx2 => exact (ok_idx2 h).1 hr
  | callIndirect => exact (ok_callIndirect h).1 hr
  | memoryInit => exact (ok_memoryInit h).1 hr
  | tableInit => exact (ok_tableInit h).1 hr
  | mem => exact (ok_mem h hn).1 hr
  | memLane => exact (ok_memLane h hn).1 hr
  | lane => exact (ok_lane h).1 hr
  | i8x16Shuffle => exact (ok_shuffle h).1 hr
  | atomic => exact (ok_atomic h).1 hr
  | atomic2 => exact (ok_atomic2 h).1 hr
  | i32Const | i64Const | v128Const => exact (ok_consts h).1 hr
  | f32Const | f64Const => exact (ok_consts h).1 (okb_require.1 hr).2
  | typedSelect => exact ok_typedSelect h hr
  | typedSelectMulti => exact (ok_fail.1 hr).elim
  | resume => exact (ok_resume h).1 hr
  | resumeThrow => exact (ok_resumeThrow h).1 hr
  | resumeThrowRef => exact (ok_resumeThrowRef h).1 hr

theorem ok_visit' (h : Sit E F B) {o : Operator} (hb : basic o = true) (hn : Natural o)
    (hx : NoExact o) {I : List (BitVec 32)} {c c' : List MT}
    (hr : HasTy F.C B.fr.unreachable (Simple F I o) c c') : Ok B (visit E o) c () c' := by
  cases o with
  | plain o => exact (ok_plain h hb).2 hr
  | idx o i => exact (ok_idx h hb).2 hr
  | heap o x =>
    cases o with
    | refNull => exact ok_refNull' h hx hr
    | refTestNonNull | refTestNullable => exact (ok_refTest h).2 hr
    | refCastNonNull | refCastNullable => exact (ok_refCast h).2 hr
    | refCastDescEqNonNull | refCastDescEqNullable => cases hb
  | cast o d a b =>
    cases o with
    | brOnCast => exact (ok_brOnCast h).2 hr
    | brOnCastFail => exact (ok_brOnCastFail h).2 hr
    | brOnCastDescEq | brOnCastDescEqFail => cases hb
  | returnCallIndirect | brTable | block | else_ | end_ | catchAll | catch_ | delegate
  | tryTable => cases hb
  | atomicFence =>
    obtain ⟨_, _, ⟨rfl, rfl⟩, he⟩ := hr
    exact ok_pure.2 ⟨rfl, he⟩
  | memorySize => exact (ok_memorySize h).2 hr
  | memoryGrow => exact (ok_memoryGrow h).2 hr
  | idx2 => exact (ok_idx2 h).2 hr
  | callIndirect => exact (ok_callIndirect h).2 hr
  | memoryInit => exact (ok_memoryInit h).2 hr
  | tableInit => exact (ok_tableInit h).2 hr
  | mem => exact (ok_mem h hn).2 hr
  | memLane => exact (ok_memLane h hn).2 hr
  | lane => exact (ok_lane h).2 hr
  | i8x16Shuffle => exact (ok_shuffle h).2 hr
  | atomic => exact (ok_atomic h).2 hr
  | atomic2 => exact (ok_atomic2 h).2 hr
  | i32Const | i64Const | v128Const => exact (ok_consts h).2 hr
  | f32Const | f64Const => exact okb_require.2 ⟨full_floats h, (ok_consts h).2 hr⟩
  | typedSelect => exact ok_typedSelect' h hx hr
  | typedSelectMulti => obtain ⟨_, _, hf, _⟩ := hr; cases hf
  | resume => exact (ok_resume h).2 hr
  | resumeThrow => exact (ok_resumeThrow h).2 hr
  | resumeThrowRef => exact (ok_resumeThrowRef h).2 hr

end Verif.Op.View
