import Verif.Op.VisitOk
/-! What the methods for single operators do, continued: atomic accesses, memory, vectors. -/
namespace Verif.Op.View
open Verif.Op.Typing
open Verif.Types (AbsHeap HeapType UnpackedIndex RefType ValType)
open Verif.Instr (FrameKind BlockType MemArg Catch Handle BrTable Operator)
open Verif.Instr.Spec (accessBits laneBits)
open Verif.TypeList.Spec (Field Storage Comp SubT Decls HeapSub RefSub ValSub StorageSub)
open Verif.TypeList (DeclsOk HeapIn)

variable {α β : Type} {E : Env} {F : Fn} {B : Base} {C : Ctx} {u : Bool}

theorem atomicTy_iff (h : Sit E F B) (sup t : Val) :
    atomicTy E sup t = true ↔ AtomicOk F.C sup t := by
  simp only [atomicTy, AtomicOk, Bool.or_eq_true, beq_iff_eq, sub_iff h, or_assoc]
theorem atomicStorage_iff (h : Sit E F B) (sup : Val) (s : Storage Nat) :
    atomicStorage E sup s = true ↔ ∃ v, s = .val v ∧ AtomicOk F.C sup v := by
  cases s <;> simp [atomicStorage, atomicTy_iff h]
theorem atomicStorageSet_iff (h : Sit E F B) (sup : Val) (s : Storage Nat) :
    atomicStorageSet E sup s = true ↔ Packed s ∨ AtomicOk F.C sup (unpacked s) := by
  cases s <;> simp [atomicStorageSet, atomicTy_iff h, Packed, unpacked]
theorem rmwFieldTy_iff (s : Storage Nat) (t : Val) :
    rmwFieldTy s = some t ↔ s = .val t ∧ (t = .i32 ∨ t = .i64) := by
  constructor
  · intro h
    unfold rmwFieldTy at h
    split at h
    · cases h; exact ⟨rfl, .inl rfl⟩
    · cases h; exact ⟨rfl, .inr rfl⟩
    · cases h
  · rintro ⟨rfl, rfl | rfl⟩ <;> rfl
theorem anyref_eq (b : Bool) : anyref b = anyr b := rfl
theorem eqref_eq (b : Bool) : eqref b = eqr b := rfl

theorem Global.unique {i : BitVec 32} {g g' : GlobalT} (h : F.Global i g) (h' : F.Global i g') :
    g = g' := by
  have := h.1.symm.trans h'.1; cases this; rfl
theorem Table.unique {i : BitVec 32} {g g' : TableT} (h : F.Table i g) (h' : F.Table i g') :
    g = g' := by
  have := h.1.symm.trans h'.1; cases this; rfl
theorem Comp.unique {i : BitVec 32} {g g' : Comp Nat} (h : F.Comp i g) (h' : F.Comp i g') :
    g = g' := by
  obtain ⟨x, hx, rfl, _⟩ := h
  obtain ⟨x', hx', rfl, _⟩ := h'
  rw [hx] at hx'
  cases hx'
  rfl
theorem Array.unique {i : BitVec 32} {f f' : Field Nat} (h : F.Comp i (.array f))
    (h' : F.Comp i (.array f')) : f = f' := by
  have := Comp.unique h h'; cases this; rfl
theorem Field.unique {i j : BitVec 32} {f f' : Field Nat} (h : F.Field i j f)
    (h' : F.Field i j f') : f = f' := by
  obtain ⟨fs, hx, h1⟩ := h
  obtain ⟨fs', hx', h2⟩ := h'
  have := Comp.unique hx hx'
  cases this
  rw [h1] at h2
  cases h2
  rfl
theorem exists_field {p : Field Nat → Prop} : (∃ f, p f) ↔ ∃ m s, p ⟨m, s⟩ :=
  ⟨fun ⟨⟨m, s⟩, h⟩ => ⟨m, s, h⟩, fun ⟨m, s, h⟩ => ⟨⟨m, s⟩, h⟩⟩
theorem packed_val (v : V) : Packed (.val v) ↔ False := Iff.rfl
theorem unpacked_val (v : V) : unpacked (.val v) = v := rfl

macro "vat " h:term : tactic => `(tactic| (
  simp only [atomicTy_iff $h, atomicStorage_iff $h, atomicStorageSet_iff $h, rmwFieldTy_iff,
    anyref_eq, eqref_eq, exists_field] <;> grind [Global.unique, Table.unique, Array.unique,
      Field.unique, packed_val, unpacked_val]))

theorem ok_globalAtomicGet (h : Sit E F B) {i : BitVec 32} {c c' : List MT} :
    Ok B (visitGlobalAtomicGet E i) c () c' ↔
      HasTy F.C B.fr.unreachable (AtomicTy F .globalAtomicGet i) c c' := by
  unfold visitGlobalAtomicGet AtomicTy visitGlobalGet
  vok h
  vat h
theorem ok_globalAtomicSet (h : Sit E F B) {i : BitVec 32} {c c' : List MT} :
    Ok B (visitGlobalAtomicSet E i) c () c' ↔
      HasTy F.C B.fr.unreachable (AtomicTy F .globalAtomicSet i) c c' := by
  unfold visitGlobalAtomicSet AtomicTy visitGlobalSet
  vok h
  vat h
theorem ok_globalAtomicRmwAdd (h : Sit E F B) {i : BitVec 32} {c c' : List MT} :
    Ok B (visitGlobalAtomicRmw E i) c () c' ↔
      HasTy F.C B.fr.unreachable (AtomicTy F .globalAtomicRmwAdd i) c c' := by
  unfold visitGlobalAtomicRmw AtomicTy checkAtomicGlobalRmwTy checkUnaryOp
  vok h
  simp only [Bool.or_eq_true, beq_iff_eq]
theorem ok_globalAtomicRmwXchg (h : Sit E F B) {i : BitVec 32} {c c' : List MT} :
    Ok B (visitGlobalAtomicXchg E i) c () c' ↔
      HasTy F.C B.fr.unreachable (AtomicTy F .globalAtomicRmwXchg i) c c' := by
  unfold visitGlobalAtomicXchg AtomicTy checkUnaryOp
  vok h
  vat h
theorem ok_globalAtomicRmwCmpxchg (h : Sit E F B) {i : BitVec 32} {c c' : List MT} :
    Ok B (visitGlobalAtomicCmpxchg E i) c () c' ↔
      HasTy F.C B.fr.unreachable (AtomicTy F .globalAtomicRmwCmpxchg i) c c' := by
  unfold visitGlobalAtomicCmpxchg AtomicTy checkBinaryOp
  vok h
  vat h
theorem ok_tableAtomicGet (h : Sit E F B) {i : BitVec 32} {c c' : List MT} :
    Ok B (visitTableAtomicGet E i) c () c' ↔
      HasTy F.C B.fr.unreachable (AtomicTy F .tableAtomicGet i) c c' := by
  unfold visitTableAtomicGet AtomicTy visitTableGet pushRef
  vok h
  vat h
theorem ok_tableAtomicSet (h : Sit E F B) {i : BitVec 32} {c c' : List MT} :
    Ok B (visitTableAtomicSet E i) c () c' ↔
      HasTy F.C B.fr.unreachable (AtomicTy F .tableAtomicSet i) c c' := by
  unfold visitTableAtomicSet AtomicTy visitTableSet
  vok h
  vat h
theorem ok_tableAtomicRmwXchg (h : Sit E F B) {i : BitVec 32} {c c' : List MT} :
    Ok B (visitTableAtomicXchg E i) c () c' ↔
      HasTy F.C B.fr.unreachable (AtomicTy F .tableAtomicRmwXchg i) c c' := by
  unfold visitTableAtomicXchg AtomicTy
  vok h
  vat h
theorem ok_tableAtomicRmwCmpxchg (h : Sit E F B) {i : BitVec 32} {c c' : List MT} :
    Ok B (visitTableAtomicCmpxchg E i) c () c' ↔
      HasTy F.C B.fr.unreachable (AtomicTy F .tableAtomicRmwCmpxchg i) c c' := by
  unfold visitTableAtomicCmpxchg AtomicTy
  vok h
  vat h
theorem ok_arrayAtomicGet (h : Sit E F B) {i : BitVec 32} {c c' : List MT} :
    Ok B (visitArrayAtomicGet E i) c () c' ↔
      HasTy F.C B.fr.unreachable (AtomicTy F .arrayAtomicGet i) c c' := by
  unfold visitArrayAtomicGet AtomicTy visitArrayGet
  vok h
  vat h
theorem ok_arrayAtomicGetS (h : Sit E F B) {i : BitVec 32} {c c' : List MT} :
    Ok B (visitArrayGet E true i) c () c' ↔
      HasTy F.C B.fr.unreachable (AtomicTy F .arrayAtomicGetS i) c c' := by
  unfold visitArrayGet AtomicTy
  vok h
  vat h
theorem ok_arrayAtomicSet (h : Sit E F B) {i : BitVec 32} {c c' : List MT} :
    Ok B (visitArrayAtomicSet E i) c () c' ↔
      HasTy F.C B.fr.unreachable (AtomicTy F .arrayAtomicSet i) c c' := by
  unfold visitArrayAtomicSet AtomicTy visitArraySet
  vok h
  vat h
theorem ok_arrayAtomicRmwAdd (h : Sit E F B) {i : BitVec 32} {c c' : List MT} :
    Ok B (checkArrayAtomicRmw E i) c () c' ↔
      HasTy F.C B.fr.unreachable (AtomicTy F .arrayAtomicRmwAdd i) c c' := by
  unfold checkArrayAtomicRmw AtomicTy
  vok h
  vat h
theorem ok_arrayAtomicRmwXchg (h : Sit E F B) {i : BitVec 32} {c c' : List MT} :
    Ok B (visitArrayAtomicXchg E i) c () c' ↔
      HasTy F.C B.fr.unreachable (AtomicTy F .arrayAtomicRmwXchg i) c c' := by
  unfold visitArrayAtomicXchg AtomicTy
  vok h
  vat h
theorem ok_arrayAtomicRmwCmpxchg (h : Sit E F B) {i : BitVec 32} {c c' : List MT} :
    Ok B (visitArrayAtomicCmpxchg E i) c () c' ↔
      HasTy F.C B.fr.unreachable (AtomicTy F .arrayAtomicRmwCmpxchg i) c c' := by
  unfold visitArrayAtomicCmpxchg AtomicTy
  vok h
  vat h
theorem ok_structAtomicGet (h : Sit E F B) {i j : BitVec 32} {c c' : List MT} :
    Ok B (visitStructAtomicGet E i j) c () c' ↔
      HasTy F.C B.fr.unreachable (Atomic2Ty F .structAtomicGet i j) c c' := by
  unfold visitStructAtomicGet Atomic2Ty visitStructGet
  vok h
  vat h
theorem ok_structAtomicGetS (h : Sit E F B) {i j : BitVec 32} {c c' : List MT} :
    Ok B (visitStructGet E true i j) c () c' ↔
      HasTy F.C B.fr.unreachable (Atomic2Ty F .structAtomicGetS i j) c c' := by
  unfold visitStructGet Atomic2Ty
  vok h
  vat h
theorem ok_structAtomicSet (h : Sit E F B) {i j : BitVec 32} {c c' : List MT} :
    Ok B (visitStructAtomicSet E i j) c () c' ↔
      HasTy F.C B.fr.unreachable (Atomic2Ty F .structAtomicSet i j) c c' := by
  unfold visitStructAtomicSet Atomic2Ty visitStructSet
  vok h
  vat h
theorem ok_structAtomicRmwAdd (h : Sit E F B) {i j : BitVec 32} {c c' : List MT} :
    Ok B (checkStructAtomicRmw E i j) c () c' ↔
      HasTy F.C B.fr.unreachable (Atomic2Ty F .structAtomicRmwAdd i j) c c' := by
  unfold checkStructAtomicRmw Atomic2Ty
  vok h
  vat h
theorem ok_structAtomicRmwXchg (h : Sit E F B) {i j : BitVec 32} {c c' : List MT} :
    Ok B (visitStructAtomicXchg E i j) c () c' ↔
      HasTy F.C B.fr.unreachable (Atomic2Ty F .structAtomicRmwXchg i j) c c' := by
  unfold visitStructAtomicXchg Atomic2Ty
  vok h
  vat h
theorem ok_structAtomicRmwCmpxchg (h : Sit E F B) {i j : BitVec 32} {c c' : List MT} :
    Ok B (visitStructAtomicCmpxchg E i j) c () c' ↔
      HasTy F.C B.fr.unreachable (Atomic2Ty F .structAtomicRmwCmpxchg i j) c c' := by
  unfold visitStructAtomicCmpxchg Atomic2Ty
  vok h
  vat h

theorem ok_atomic (h : Sit E F B) {o : Instr.Atomic} {i : BitVec 32} {c c' : List MT} :
    Ok B (visitAtomic E o i) c () c' ↔ HasTy F.C B.fr.unreachable (AtomicTy F o i) c c' := by
  cases o with
  | globalAtomicGet => exact ok_globalAtomicGet h
  | globalAtomicSet => exact ok_globalAtomicSet h
  | globalAtomicRmwAdd | globalAtomicRmwSub | globalAtomicRmwAnd | globalAtomicRmwOr
  | globalAtomicRmwXor => exact ok_globalAtomicRmwAdd h
  | globalAtomicRmwXchg => exact ok_globalAtomicRmwXchg h
  | globalAtomicRmwCmpxchg => exact ok_globalAtomicRmwCmpxchg h
  | tableAtomicGet => exact ok_tableAtomicGet h
  | tableAtomicSet => exact ok_tableAtomicSet h
  | tableAtomicRmwXchg => exact ok_tableAtomicRmwXchg h
  | tableAtomicRmwCmpxchg => exact ok_tableAtomicRmwCmpxchg h
  | arrayAtomicGet => exact ok_arrayAtomicGet h
  | arrayAtomicGetS | arrayAtomicGetU => exact ok_arrayAtomicGetS h
  | arrayAtomicSet => exact ok_arrayAtomicSet h
  | arrayAtomicRmwAdd | arrayAtomicRmwSub | arrayAtomicRmwAnd | arrayAtomicRmwOr
  | arrayAtomicRmwXor => exact ok_arrayAtomicRmwAdd h
  | arrayAtomicRmwXchg => exact ok_arrayAtomicRmwXchg h
  | arrayAtomicRmwCmpxchg => exact ok_arrayAtomicRmwCmpxchg h

theorem ok_atomic2 (h : Sit E F B) {o : Instr.Atomic2} {i j : BitVec 32} {c c' : List MT} :
    Ok B (visitAtomic2 E o i j) c () c' ↔ HasTy F.C B.fr.unreachable (Atomic2Ty F o i j) c c' := by
  cases o with
  | structAtomicGet => exact ok_structAtomicGet h
  | structAtomicGetS | structAtomicGetU => exact ok_structAtomicGetS h
  | structAtomicSet => exact ok_structAtomicSet h
  | structAtomicRmwAdd | structAtomicRmwSub | structAtomicRmwAnd | structAtomicRmwOr
  | structAtomicRmwXor => exact ok_structAtomicRmwAdd h
  | structAtomicRmwXchg => exact ok_structAtomicRmwXchg h
  | structAtomicRmwCmpxchg => exact ok_structAtomicRmwCmpxchg h

/-! ### Memory -/

theorem addr_eq_i32 (b : Bool) : addr b = .i32 ↔ b = false := by cases b <;> simp [addr]

theorem okb_checkMemarg (h : Sit E F B) {m : MemArg} {k : Val → M β} {y : β} {c : List MT} {S : St}
    {bits : Nat} (hb : 8 * 2 ^ m.maxAlign.toNat = bits) :
    Run B (checkMemarg E m >>= k) c y S ↔
      ∃ is64, MemArgOk F.C bits false m is64 ∧ Run B (k (addr is64)) c y S := by
  unfold checkMemarg
  vok h
  have h1 : (m.align ≤ m.maxAlign) ↔ 8 * 2 ^ m.align.toNat ≤ bits := by
    rw [← hb, UInt8.le_iff_toNat_le, Nat.mul_le_mul_left_iff (by omega),
      Nat.pow_le_pow_iff_right (by omega)]
  have h2 : ∀ b : Bool, ((!(addr b == .i32 && decide (2 ^ 32 - 1 < m.offset.toNat))) = true) ↔
      (b = false → m.offset.toNat < 2 ^ 32) := by
    intro b
    cases b with
    | true =>
      have : (addr true == .i32) = false := rfl
      rw [this]; simp
    | false =>
      have : (addr false == .i32) = true := rfl
      rw [this]
      simp only [Bool.true_and, Bool.not_eq_true', decide_eq_false_iff_not, true_implies]
      omega
  simp only [h1, h2, MemArgOk]
  simp [and_assoc]

theorem okb_checkSharedMemarg (h : Sit E F B) {m : MemArg} {k : Val → M β} {y : β} {c : List MT}
    {S : St} {bits : Nat} (hb : 8 * 2 ^ m.maxAlign.toNat = bits) :
    Run B (checkSharedMemarg E m >>= k) c y S ↔
      ∃ is64, MemArgOk F.C bits true m is64 ∧ Run B (k (addr is64)) c y S := by
  unfold checkSharedMemarg
  rw [bind_assoc, okb_require, okb_checkMemarg h hb]
  have h1 : (m.align == m.maxAlign) = true ↔ 8 * 2 ^ m.align.toNat = bits := by
    rw [← hb, beq_iff_eq]
    constructor
    · intro h; rw [h]
    · intro h
      apply UInt8.toNat.inj
      exact (Nat.pow_right_inj (a := 2) (by omega)).1 (by omega)
  rw [h1]
  simp only [MemArgOk]
  grind

/-- What the body of an operator that accesses memory does. -/
def bodyOp : MemBody → MemOp
  | .load t | .fload t => ⟨.load, t, false⟩
  | .store t | .fstore t => ⟨.store, t, false⟩
  | .v128Load => ⟨.load, .v128, false⟩
  | .atomicLoad t => ⟨.load, t, true⟩
  | .atomicStore t => ⟨.store, t, true⟩
  | .rmw t => ⟨.rmw, t, true⟩
  | .cmpxchg t => ⟨.cmpxchg, t, true⟩
  | .wait t => ⟨.wait, t, true⟩

theorem bodyOp_memBody (o : Instr.Mem) : bodyOp (memBody o) = memOp o := by cases o <;> rfl

theorem ok_runMem (h : Sit E F B) {b : MemBody} {m : MemArg} {bits : Nat}
    (hb : 8 * 2 ^ m.maxAlign.toNat = bits) {c c' : List MT} :
    Ok B (runMem E m b) c () c' ↔ HasTy F.C B.fr.unreachable (fun ins outs =>
      ∃ is64, MemArgOk F.C bits (bodyOp b).atomic m is64 ∧
        (ins, outs) = (bodyOp b).kind.sig (addr is64) (bodyOp b).ty) c c' := by
  cases b <;>
    simp only [runMem, bodyOp, Kind.sig, Prod.mk.injEq, checkFloatsEnabled, checkV128LoadOp,
      checkAtomicLoad, checkAtomicStore, checkAtomicBinaryMemoryOp,
      checkAtomicBinaryMemoryCmpxchg, okb_checkMemarg h hb, okb_checkSharedMemarg h hb] <;>
    vok h
  all_goals simp only [okb_checkMemarg h hb]
  all_goals vok h

theorem ok_mem (h : Sit E F B) {o : Instr.Mem} {m : MemArg}
    (hb : 8 * 2 ^ m.maxAlign.toNat = accessBits o) {c c' : List MT} {I : List (BitVec 32)} :
    Ok B (runMem E m (memBody o)) c () c' ↔
      HasTy F.C B.fr.unreachable (Simple F I (.mem o m)) c c' := by
  rw [ok_runMem h hb]
  simp only [bodyOp_memBody]
  rfl

theorem lane_lt {l n : UInt8} : decide (l < n) = true ↔ l.toNat < n.toNat := by
  rw [decide_eq_true_eq, UInt8.lt_iff_toNat_lt]

theorem ok_memLane (h : Sit E F B) {o : Instr.MemLane} {m : MemArg} {l : UInt8}
    (hb : 8 * 2 ^ m.maxAlign.toNat = laneBits o) {c c' : List MT} {I : List (BitVec 32)} :
    Ok B (runMemLane E m l (memLaneBody o)) c () c' ↔
      HasTy F.C B.fr.unreachable (Simple F I (.memLane o m l)) c c' := by
  unfold Simple
  cases o <;>
    simp only [runMemLane, memLaneBody, checkSimdLaneIndex, okb_checkMemarg h hb,
      isLaneStore, laneBits, if_true, if_false, Bool.false_eq_true] <;>
    vok h <;>
    simp only [UInt8.lt_iff_toNat_lt, UInt8.reduceToNat, Nat.reduceMul]
  all_goals
    refine exists_congr fun is64 => and_congr_right fun _ => and_congr_left fun _ => ?_
    omega

theorem ok_lane (h : Sit E F B) {o : Instr.Lane} {l : UInt8} {c c' : List MT}
    {I : List (BitVec 32)} :
    Ok B (runLane E l (laneBody o)) c () c' ↔
      HasTy F.C B.fr.unreachable (Simple F I (.lane o l)) c c' := by
  unfold Simple
  cases o <;>
    simp only [runLane, laneBody, checkSimdLaneIndex, checkFloatsEnabled,
      isReplace, laneShape, if_true, if_false, Bool.false_eq_true] <;>
    vok h <;>
    simp only [UInt8.lt_iff_toNat_lt, UInt8.reduceToNat]

theorem ok_eachRequire {γ : Type} {p : γ → Bool} {v : Unit} : ∀ {xs : List γ} {c c' : List MT},
    Ok B (each (fun x => require (p x)) xs) c v c' ↔ (∀ x ∈ xs, p x = true) ∧ c' = c
  | [], c, c' => by
    show Ok B (Pure.pure ()) c v c' ↔ _
    rw [ok_pure]; simp
  | x :: xs, c, c' => by
    show Ok B (require (p x) >>= fun _ => each (fun x => require (p x)) xs) c v c' ↔ _
    rw [okb_require, ok_eachRequire]
    simp [and_assoc]

theorem ok_shuffle (h : Sit E F B) {ls : List UInt8} {c c' : List MT} {I : List (BitVec 32)} :
    Ok B (visitShuffle E ls) c () c' ↔
      HasTy F.C B.fr.unreachable (Simple F I (.i8x16Shuffle ls)) c c' := by
  unfold visitShuffle Simple checkSimdLaneIndex
  vok h
  simp only [ok_bindU (m := each _ ls), ok_eachRequire, ok_push, lane_lt, UInt8.reduceToNat]
  grind

theorem ok_memorySize (h : Sit E F B) {i : BitVec 32} {c c' : List MT} {I : List (BitVec 32)} :
    Ok B (visitMemorySize E i) c () c' ↔
      HasTy F.C B.fr.unreachable (Simple F I (.memorySize i)) c c' := by
  unfold visitMemorySize Simple
  vok h
theorem ok_memoryGrow (h : Sit E F B) {i : BitVec 32} {c c' : List MT} {I : List (BitVec 32)} :
    Ok B (visitMemoryGrow E i) c () c' ↔
      HasTy F.C B.fr.unreachable (Simple F I (.memoryGrow i)) c c' := by
  unfold visitMemoryGrow Simple
  vok h
theorem ok_memoryInit (h : Sit E F B) {i j : BitVec 32} {c c' : List MT} {I : List (BitVec 32)} :
    Ok B (visitMemoryInit E i j) c () c' ↔
      HasTy F.C B.fr.unreachable (Simple F I (.memoryInit i j)) c c' := by
  unfold visitMemoryInit Simple
  vok h
theorem ok_tableInit (h : Sit E F B) {i j : BitVec 32} {c c' : List MT} {I : List (BitVec 32)} :
    Ok B (visitTableInit E i j) c () c' ↔
      HasTy F.C B.fr.unreachable (Simple F I (.tableInit i j)) c c' := by
  unfold visitTableInit Simple
  vok h
  grind
theorem ok_callIndirect (h : Sit E F B) {i j : BitVec 32} {c c' : List MT} {I : List (BitVec 32)} :
    Ok B (visitCallIndirect E i j) c () c' ↔
      HasTy F.C B.fr.unreachable (Simple F I (.callIndirect i j)) c c' := by
  unfold visitCallIndirect Simple checkCallIndirectTy checkCallTy funcref
  vok h
  simp only [HasTy]
  constructor
  · rintro ⟨t, h1, h2, c1, h3, ps, rs, h4, c2, h5, rfl⟩
    refine ⟨t, ps, h1, h2, _, rs, ⟨h4, rfl⟩, ?_⟩
    vok h
    exact ⟨c1, h3, c2, h5, rfl⟩
  · rintro ⟨t, ps, h1, h2, _, rs, ⟨h4, rfl⟩, he⟩
    simp only [List.reverse_append, List.reverse_cons, List.reverse_nil, List.nil_append,
      List.cons_append, Exec, exec_rev] at he
    obtain ⟨c1, h3, c2, h5, rfl⟩ := he
    exact ⟨t, h1, h2, c1, h3, ps, rs, h4, c2, h5, rfl⟩

/-! ### Continuations -/

theorem forall₂_nil_left {γ δ : Type} {P : γ → δ → Prop} {ys : List δ} :
    List.Forall₂ P [] ys ↔ ys = [] :=
  ⟨fun h => by cases h; rfl, fun h => h ▸ .nil⟩
theorem forall₂_nil_right {γ δ : Type} {P : γ → δ → Prop} {xs : List γ} :
    List.Forall₂ P xs [] ↔ xs = [] :=
  ⟨fun h => by cases h; rfl, fun h => h ▸ .nil⟩

theorem ok_checkHandle (h : Sit E F B) {ps rs : List Val} {x : Handle} {v : Unit}
    {c c' : List MT} :
    Ok B (checkHandle E ⟨ps, rs⟩ x) c v c' ↔ HandleOk F rs x ∧ c' = c := by
  cases x with
  | onLabel tag l =>
    simp only [checkHandle, HandleOk]
    vok h
    simp only [Bool.and_eq_true, beq_iff_eq, all_zip_iff (R := ValSub F.C.decls)
      (g := fun (a, b) => E.R.isSubtype a b) (fun a b => sub_iff h)]
    constructor
    · rintro ⟨ps1, rs1, h1, lab, h2, n, ⟨ts, last, h3, h4⟩, h5, n', h6, ps2, rs2, h7, h8, rfl⟩
      rw [h3, List.dropLast_concat] at h5
      exact ⟨⟨ps1, rs1, lab, ts, last, n, n', ps2, rs2, h1, h2, h3, h4, h5, h6, h7, h8⟩, rfl⟩
    · rintro ⟨⟨ps1, rs1, lab, ts, last, n, n', ps2, rs2, h1, h2, h3, h4, h5, h6, h7, h8⟩, rfl⟩
      refine ⟨ps1, rs1, h1, lab, h2, n, ⟨ts, last, h3, h4⟩, ?_, n', h6, ps2, rs2, h7, h8, rfl⟩
      rw [h3, List.dropLast_concat]
      exact h5
  | onSwitch tag =>
    simp only [checkHandle, HandleOk]
    vok h
    simp only [Bool.and_eq_true, isFuncSubtype_iff h, Ctx.FuncSub, forall₂_nil_left,
      forall₂_nil_right]
    constructor
    · rintro ⟨ps1, rs1, h1, ⟨⟨rfl, h2⟩, -, h3⟩, rfl⟩
      exact ⟨⟨rs1, h1, h2, h3⟩, rfl⟩
    · rintro ⟨⟨rs1, h1, h2, h3⟩, rfl⟩
      exact ⟨[], rs1, h1, ⟨⟨rfl, h2⟩, rfl, h3⟩, rfl⟩

theorem ok_eachHandle (h : Sit E F B) {ps rs : List Val} {v : Unit} :
    ∀ {xs : List Handle} {c c' : List MT},
    Ok B (each (checkHandle E ⟨ps, rs⟩) xs) c v c' ↔ (∀ x ∈ xs, HandleOk F rs x) ∧ c' = c
  | [], c, c' => by
    show Ok B (Pure.pure ()) c v c' ↔ _
    rw [ok_pure]; simp
  | x :: xs, c, c' => by
    show Ok B (checkHandle E ⟨ps, rs⟩ x >>= fun _ => each (checkHandle E ⟨ps, rs⟩) xs) c v c' ↔ _
    rw [ok_read fun _ _ => ok_checkHandle h]
    simp only [ok_eachHandle h, List.mem_cons, forall_eq_or_imp]
    constructor
    · rintro ⟨_, h1, h2, h3⟩; exact ⟨⟨h1, h2⟩, h3⟩
    · rintro ⟨⟨h1, h2⟩, h3⟩; exact ⟨(), h1, h2, h3⟩

theorem okb_checkResumeTable (h : Sit E F B) {i : BitVec 32} {hs : List Handle}
    {k : FuncTy → M β} {y : β} {c : List MT} {S : St} :
    Run B (checkResumeTable E hs i >>= k) c y S ↔
      ∃ ps rs, F.Cont i ps rs ∧ (∀ x ∈ hs, HandleOk F rs x) ∧ Run B (k ⟨ps, rs⟩) c y S := by
  unfold checkResumeTable Fn.Cont
  vok h
  simp only [ok_bindU (m := each _ hs), ok_eachHandle h]
  constructor
  · rintro ⟨n, h1, ps, rs, h2, c1, ⟨h3, rfl⟩, h4⟩
    exact ⟨ps, rs, ⟨n, h1, h2⟩, h3, h4⟩
  · rintro ⟨ps, rs, ⟨n, h1, h2⟩, h3, h4⟩
    exact ⟨n, h1, ps, rs, h2, c, ⟨h3, rfl⟩, h4⟩

theorem ok_resume (h : Sit E F B) {i : BitVec 32} {hs : List Handle} {c c' : List MT}
    {I : List (BitVec 32)} : Ok B (visitResume E i hs) c () c' ↔
      HasTy F.C B.fr.unreachable (Simple F I (.resume i hs)) c c' := by
  unfold visitResume Simple
  simp only [okb_checkResumeTable h]
  vok h
  simp only [HasTy]
  constructor
  · rintro ⟨ps, rs, h1, h2, t, h3, c1, h4, c2, h5, rfl⟩
    refine ⟨ps, t, _, rs, ⟨h1, h2, h3, rfl⟩, ?_⟩
    vok h
    exact ⟨c1, h4, c2, h5, rfl⟩
  · rintro ⟨ps, t, _, rs, ⟨h1, h2, h3, rfl⟩, he⟩
    simp only [List.reverse_append, List.reverse_cons, List.reverse_nil, List.nil_append,
      List.cons_append, Exec, exec_rev] at he
    obtain ⟨c1, h4, c2, h5, rfl⟩ := he
    exact ⟨ps, rs, h1, h2, t, h3, c1, h4, c2, h5, rfl⟩

theorem ok_resumeThrow (h : Sit E F B) {i tag : BitVec 32} {hs : List Handle} {c c' : List MT}
    {I : List (BitVec 32)} : Ok B (visitResumeThrow E i tag hs) c () c' ↔
      HasTy F.C B.fr.unreachable (Simple F I (.resumeThrow i tag hs)) c c' := by
  unfold visitResumeThrow Simple
  simp only [okb_checkResumeTable h]
  vok h
  simp only [HasTy]
  constructor
  · rintro ⟨ps, rs, h1, h2, es, h6, t, h3, c1, h4, c2, h5, rfl⟩
    refine ⟨ps, es, t, _, rs, ⟨h1, h2, h6, h3, rfl⟩, ?_⟩
    vok h
    exact ⟨c1, h4, c2, h5, rfl⟩
  · rintro ⟨ps, es, t, _, rs, ⟨h1, h2, h6, h3, rfl⟩, he⟩
    simp only [List.reverse_append, List.reverse_cons, List.reverse_nil, List.nil_append,
      List.cons_append, Exec, exec_rev] at he
    obtain ⟨c1, h4, c2, h5, rfl⟩ := he
    exact ⟨ps, rs, h1, h2, es, h6, t, h3, c1, h4, c2, h5, rfl⟩

theorem ok_resumeThrowRef (h : Sit E F B) {i : BitVec 32} {hs : List Handle} {c c' : List MT}
    {I : List (BitVec 32)} : Ok B (visitResumeThrowRef E i hs) c () c' ↔
      HasTy F.C B.fr.unreachable (Simple F I (.resumeThrowRef i hs)) c c' := by
  unfold visitResumeThrowRef Simple
  simp only [okb_checkResumeTable h]
  vok h
  simp only [HasTy]
  constructor
  · rintro ⟨ps, rs, h1, h2, t, h3, c1, h4, c2, h5, rfl⟩
    refine ⟨ps, t, _, rs, ⟨h1, h2, h3, rfl⟩, ?_⟩
    vok h
    exact ⟨c1, h4, c2, h5, rfl⟩
  · rintro ⟨ps, t, _, rs, ⟨h1, h2, h3, rfl⟩, he⟩
    simp only [List.reverse_append, List.reverse_cons, List.reverse_nil, List.nil_append,
      List.cons_append, Exec, exec_rev] at he
    obtain ⟨c1, h4, c2, h5, rfl⟩ := he
    exact ⟨ps, rs, h1, h2, t, h3, c1, h4, c2, h5, rfl⟩

end Verif.Op.View
