import Verif.Reenc.Twin
import Verif.Instr.Frames
/-! Operators that the reader returns correspond to instructions of the encoder that fit, and
reading their bytes again returns operators that correspond to the same instruction. -/
namespace Verif.Types
open Verif.Reader Verif.Leb

theorem yields_heapType' :
    Yields readHeapType (fun h => ∃ e : Enc.HeapType, h = e.denote ∧ e.ConcreteFits) := by
  intro r a r' h
  unfold readHeapType at h
  split at h
  · cases h
  · rename_i s33 clone _
    split at h
    · rename_i h0
      revert h
      rw [fromModuleIndex_eq]
      split
      · rename_i hi
        dsimp only
        rw [show (PackedIndex.mk (PackedIndex.moduleKind ||| s33.setWidth 32)).unpack = _ from
          packed_unpack hi]
        intro h
        cases h
        exact ⟨.concrete _, rfl, hi⟩
      · intro h; cases h
    · refine Yields.bind' (Q := fun h => ∃ e : Enc.HeapType, h = e.denote ∧ e.ConcreteFits) ?_ r a r' h
      intro b
      refine .ite (fun _ => ?_) fun _ => .ite (fun _ => ?_) fun _ => ?_
      · exact .bind' fun _ => .bind' fun ty => .pure ⟨.abstract true ty, rfl, trivial⟩
      · exact .bind' fun _ => .bind' fun i => .pure ⟨.exact i, rfl, trivial⟩
      · exact .bind' fun ty => .pure ⟨.abstract false ty, rfl, trivial⟩

theorem twin_refType : Twin1 readRefType readRefType Eq := by
  refine .pos fun p p' => .peek fun b => .ite (fun _ => ?_) fun _ => .ite (fun _ => .fail) fun _ => ?_
  · refine Twin1.readU8.bindE fun c => twin_heapType.toTwin.bindE fun h => ?_
    cases RefType.new (c == 0x63) h with
    | none => exact .fail
    | some t => exact .pure rfl
  · have : ∀ s ty, Twin (match RefType.new true (.abstract s ty) with
        | some t => pure t
        | none => R.fail "panic: unwrap" 0 : R RefType) (match RefType.new true (.abstract s ty) with
        | some t => pure t
        | none => R.fail "panic: unwrap" 0 : R RefType) Eq := by
      intro s ty
      cases RefType.new true (.abstract s ty) with
      | none => exact .fail
      | some t => exact .pure rfl
    refine .peek fun c => .ite (fun _ => ?_) fun _ => ?_
    · exact Twin1.readU8.bindE fun _ => twin_absHeap.mapErr.toTwin.bindE fun ty => this _ ty
    · exact twin_absHeap.mapErr.bindE fun ty => this _ ty

theorem twin_valType : Twin1 readValType readValType Eq := by
  refine .peek fun b => ?_
  refine .ite (fun _ => Twin1.readU8.bindE fun _ => .pure rfl) fun _ => ?_
  refine .ite (fun _ => Twin1.readU8.bindE fun _ => .pure rfl) fun _ => ?_
  refine .ite (fun _ => Twin1.readU8.bindE fun _ => .pure rfl) fun _ => ?_
  refine .ite (fun _ => Twin1.readU8.bindE fun _ => .pure rfl) fun _ => ?_
  refine .ite (fun _ => Twin1.readU8.bindE fun _ => .pure rfl) fun _ => ?_
  exact twin_refType.mapErr.bindE fun t => .pure rfl

end Verif.Types

namespace Verif.Instr
open Verif.Reader Verif.Leb Verif.Types Spec

/-- Both operators correspond to one instruction that fits. -/
def Same (f : Features) (op op' : Operator) : Prop := ∃ i, Corr i op ∧ Corr i op' ∧ Fits f i

/-! ### Immediates -/

theorem twin_blockType : Twin readBlockType readBlockType Eq := by
  refine Twin1.toTwin ?_
  refine .peek fun b => .ite (fun _ => .ite (fun _ => ?_) fun _ => ?_) fun _ => ?_
  · exact Twin1.readU8.bindE fun _ => .pure rfl
  · exact twin_valType.bindE fun _ => .pure rfl
  · exact Twin1.s33.bindE fun i => .ite (fun _ => .pure rfl) fun _ => .pos fun _ _ => .fail

theorem yields_blockType : Yields readBlockType (fun t => ∃ e, BlockCorr e t ∧ BlockFits e) := by
  refine .bind' fun b => .ite (fun _ => .ite (fun _ => ?_) fun _ => ?_) fun _ => ?_
  · exact .bind' fun _ => .pure ⟨.empty, trivial, trivial⟩
  · exact yields_valType.bind fun v ⟨e, h1, h2⟩ => .pure ⟨.result e, h1, h2⟩
  · exact .bind' fun i => .ite (fun _ => .pure ⟨.functionType _, rfl, trivial⟩) fun _ =>
      .bind' fun _ => .fail

/-- The end of `readMemarg`. -/
def memTail (f : Features) (a : UInt8) (pos : Nat) (flags memory : BitVec 32) : R MemArg :=
  if flags ≥ 1#32 <<< (if f.multiMemory = true then 6 else 5) then
    R.fail "malformed memop alignment: alignment too large" pos
  else if f.memory64 = true then do
    let offset ← readVarU64
    pure ⟨UInt8.ofBitVec (flags.setWidth 8), a, offset, memory⟩
  else do
    let offset ← (·.setWidth 64) <$> readVarU32
    pure ⟨UInt8.ofBitVec (flags.setWidth 8), a, offset, memory⟩

theorem readMemarg_eq (f : Features) (a : UInt8) : readMemarg f a = (do
    let pos ← readPos
    let flags ← readVarU32
    if (f.multiMemory && flags &&& (1#32 <<< 6) != 0) = true then do
      let m ← readVarU32
      memTail f a pos (if (f.multiMemory && flags &&& (1#32 <<< 6) != 0) = true then
        flags ^^^ (1#32 <<< 6) else flags) m
    else do
      let m ← pure 0#32
      memTail f a pos (if (f.multiMemory && flags &&& (1#32 <<< 6) != 0) = true then
        flags ^^^ (1#32 <<< 6) else flags) m) := rfl

theorem twin_memarg (f : Features) (a : UInt8) : Twin (readMemarg f a) (readMemarg f a) Eq := by
  have ht : ∀ p p' x m, Twin (memTail f a p x m) (memTail f a p' x m) Eq := by
    intro p p' x m
    unfold memTail
    refine .ite (fun _ => .fail) fun _ => .ite (fun _ => ?_) fun _ => ?_
    · exact Twin1.u64.toTwin.bindE fun _ => .pure rfl
    · exact (Twin1.u32.toTwin.fmapE (T := Eq) fun _ => rfl).bindE fun _ => .pure rfl
  rw [readMemarg_eq]
  refine .pos fun p p' => Twin1.u32.toTwin.bindE fun flags => .ite (fun _ => ?_) fun _ => ?_
  · exact Twin1.u32.toTwin.bindE fun m => ht _ _ _ _
  · exact (Twin.pure (S := Eq) rfl).bindE fun m => ht _ _ _ _

theorem flags_align {x : BitVec 32} {n : Nat} (hn : n = 6 ∨ n = 5) (h : ¬ x ≥ 1#32 <<< n) :
    (UInt8.ofBitVec (x.setWidth 8)).toNat = x.toNat ∧ x.toNat < 2 ^ n := by
  have h1 : x.toNat < (1#32 <<< n).toNat := by
    simpa [BitVec.lt_def] using h
  have h2 : (1#32 <<< n).toNat = 2 ^ n := by rcases hn with rfl | rfl <;> decide
  rw [h2] at h1
  refine ⟨?_, h1⟩
  have : x.toNat < 256 := by rcases hn with rfl | rfl <;> omega
  simp [UInt8.toNat, BitVec.toNat_setWidth]
  omega

theorem yields_memarg (f : Features) (a : UInt8) : Yields (readMemarg f a) (fun m =>
    ∃ e, (∀ bits, 8 * 2 ^ a.toNat = bits → MemCorr bits e m) ∧ MemFits f e) := by
  have ht : ∀ p x m, (f.multiMemory = true ∨ m = 0) → Yields (memTail f a p x m) (fun m =>
      ∃ e, (∀ bits, 8 * 2 ^ a.toNat = bits → MemCorr bits e m) ∧ MemFits f e) := by
    intro p x m hm
    unfold memTail
    refine .ite (fun _ => .fail) fun hfl => ?_
    obtain ⟨h1, h2⟩ := flags_align (by split <;> simp) hfl
    have h3 : x.toNat < (if f.multiMemory then 64 else 32) := by
      split at h2 <;> simp_all
    refine .ite (fun h => ?_) fun _ => ?_
    · exact .bind' fun o => .pure ⟨⟨o, x, m⟩, fun bits hb => ⟨h1, rfl, rfl, hb⟩, h3, hm, .inl h⟩
    · have ho : Yields ((·.setWidth 64) <$> readVarU32) (fun o : BitVec 64 => o.toNat < 2 ^ 32) :=
        .bind' fun v => .pure (by
          have := v.isLt
          simp only [BitVec.toNat_setWidth]; omega)
      exact ho.bind fun v hv => .pure ⟨⟨v, x, m⟩, fun bits hb => ⟨h1, rfl, rfl, hb⟩, h3, hm, .inr hv⟩
  rw [readMemarg_eq]
  refine .bind' fun p => .bind' fun flags => .ite (fun h => ?_) fun _ => ?_
  · exact .bind' fun m => ht _ _ _ (.inl (by simp at h; exact h.1))
  · exact (Yields.pure (P := fun m => m = 0#32) rfl).bind fun m hm => ht _ _ _ (.inr hm)

theorem twin_ordering : Twin readOrdering readOrdering Eq :=
  Twin1.u32.toTwin.bindE fun _ => .ite (fun _ => .pure rfl) fun _ => .ite (fun _ => .pure rfl)
    fun _ => .pos fun _ _ => .fail

theorem order_corr (o : Ordering) : ∃ e, OrderCorr e o := by
  cases o
  · exact ⟨.acqRel, trivial⟩
  · exact ⟨.seqCst, trivial⟩

theorem targetsFrom_many : ∀ {n : Nat} {q q' : Reader} {ls : List (BitVec 32)},
    readMany readVarU32 n q = .ok (ls, q') → q'.rest = [] → targetsFrom q n = .ok ls
  | 0, q, q', ls, h, hr => by
    cases h
    have : q.eof = true := by
      have := congrArg List.length hr
      simp [Reader.rest] at this
      simp [Reader.eof, Reader.maxPosition]; omega
    simp [targetsFrom, this]
  | n + 1, q, q', ls, h, hr => by
    obtain ⟨t, q1, e1, h⟩ := bind_ok.mp h
    obtain ⟨ts, q2, e2, h⟩ := bind_ok.mp h
    cases h
    simp [targetsFrom, e1, targetsFrom_many e2 hr]

theorem decP_many_targets {n : Nat} {b : List UInt8}
    (h : DecP (do let _ ← readMany readVarU32 n) b (fun _ => True)) :
    ∃ ls : List (BitVec 32), ls.length = n ∧ ∀ q : Reader, q.rest = b → targetsFrom q n = .ok ls := by
  obtain ⟨u, e, -⟩ := h (Reader.new b 0) [] (by simp [Reader.new, Reader.rest])
  obtain ⟨ls, r1, e1, e2⟩ := bind_ok.mp e
  cases e2
  obtain ⟨bytes, p, q, d⟩ := (Twin1.u32.toTwin.manyE n) _ _ _ e1
  have hb : b = bytes := by
    have : (Reader.new b 0).rest = b := rfl
    rw [this] at p
    simpa [this] using p
  subst hb
  refine ⟨ls, ((Yields.triv readVarU32).many n _ _ _ e1).1, fun q hq => ?_⟩
  obtain ⟨ls', e3, rfl⟩ := d q [] (by simp [hq])
  exact targetsFrom_many e3 (by simp [hq])

theorem twin_brTable : Twin readBrTable readBrTable (fun t t' => ∃ ls l, ls.length ≤ 7654321 ∧
    Corr (.brTable ls l) (.brTable t) ∧ Corr (.brTable ls l) (.brTable t')) := by
  have hs : Yields (readSize maxWasmBrTableSize "br_table") (· ≤ maxWasmBrTableSize) :=
    .bind' fun pos => .bind' fun size => .ite (fun _ => .fail) fun hc => .pure (by omega)
  refine ((Twin.readSize _ _).yields hs).bind ?_
  rintro n _ ⟨rfl, hn⟩
  refine (Twin.skip (((Twin1.u32.toTwin.manyE n)).bindE fun _ => .pure trivial)).bind ?_
  rintro s s' ⟨h1, -, h3⟩
  refine Twin1.u32.toTwin.bindE fun l => .pure ?_
  obtain ⟨ls, h4, h5⟩ := decP_many_targets h3
  exact ⟨ls, l, by rw [h4]; exact hn, ⟨h5 _ rfl, rfl, h4.symm⟩, ⟨h5 _ h1.symm, rfl, h4.symm⟩⟩

theorem twin_catch : Twin readCatch readCatch Eq := by
  refine Twin1.readU8.toTwin.bindE fun b => .ite (fun _ => ?_) fun _ => .ite (fun _ => ?_) fun _ =>
    .ite (fun _ => ?_) fun _ => .ite (fun _ => ?_) fun _ => .pos fun _ _ => .fail
  · exact Twin1.u32.toTwin.bindE fun _ => Twin1.u32.toTwin.bindE fun _ => .pure rfl
  · exact Twin1.u32.toTwin.bindE fun _ => Twin1.u32.toTwin.bindE fun _ => .pure rfl
  · exact Twin1.u32.toTwin.fmapE fun _ => rfl
  · exact Twin1.u32.toTwin.fmapE fun _ => rfl

theorem catch_corr (c : Catch) : ∃ e, CatchCorr e c := by
  cases c
  · exact ⟨.one _ _, rfl, rfl⟩
  · exact ⟨.oneRef _ _, rfl, rfl⟩
  · exact ⟨.all _, rfl⟩
  · exact ⟨.allRef _, rfl⟩

theorem twin_handle : Twin readHandle readHandle Eq := by
  refine Twin1.readU8.toTwin.bindE fun b => .ite (fun _ => ?_) fun _ => .ite (fun _ => ?_) fun _ =>
    .pos fun _ _ => .fail
  · exact Twin1.u32.toTwin.bindE fun _ => Twin1.u32.toTwin.bindE fun _ => .pure rfl
  · exact Twin1.u32.toTwin.fmapE fun _ => rfl

theorem handle_corr (c : Handle) : ∃ e, HandleCorr e c := by
  cases c
  · exact ⟨.onLabel _ _, rfl, rfl⟩
  · exact ⟨.onSwitch _, rfl⟩

theorem list_corr {α β : Type} {P : α → β → Prop} (h : ∀ b, ∃ a, P a b) (l : List β) :
    ∃ m, List.Forall₂ P m l := by
  induction l with
  | nil => exact ⟨[], .nil⟩
  | cons b l ih =>
    obtain ⟨a, ha⟩ := h b
    obtain ⟨m, hm⟩ := ih
    exact ⟨a :: m, .cons ha hm⟩

/-! ### Rows of the tables -/
section
variable (f : Features)

/-- One step: equal immediates and an instruction for them. -/
theorem row {α : Type} {m : R α} {g : α → Operator} {P : α → Prop} (h : Twin m m Eq)
    (hy : Yields m P) (hc : ∀ a, P a → ∃ i, Corr i (g a) ∧ Fits f i) :
    Twin (g <$> m) (g <$> m) (Same f) :=
  (h.yields hy).fmap fun a b ⟨e, hp⟩ => by
    subst e
    obtain ⟨i, h1, h2⟩ := hc a hp
    exact ⟨i, h1, h1, h2⟩

theorem row_pure {op : Operator} (i : Enc.Instr) (h1 : Corr i op) (h2 : Fits f i) :
    Twin (pure op) (pure op) (Same f) := .pure ⟨i, h1, h1, h2⟩

theorem row_plain (o : Plain) : Twin (pure (.plain o)) (pure (.plain o)) (Same f) :=
  row_pure f (.plain o) rfl True.intro

theorem row_idx (o : Idx) : Twin (Operator.idx o <$> readVarU32) (.idx o <$> readVarU32) (Same f) :=
  row f Twin1.u32.toTwin (Yields.triv _) fun i _ => ⟨.idx o i, ⟨rfl, rfl⟩, True.intro⟩

theorem row_read2 {g : BitVec 32 → BitVec 32 → Operator}
    (h : ∀ i j, ∃ e, Corr e (g i j) ∧ Fits f e) : Twin (read2 g) (read2 g) (Same f) :=
  Twin1.u32.toTwin.bindE fun i => Twin1.u32.toTwin.bindE fun j =>
    let ⟨e, h1, h2⟩ := h i j
    .pure ⟨e, h1, h1, h2⟩

theorem row_idx2 (o : Idx2) : Twin (read2 (.idx2 o)) (read2 (.idx2 o)) (Same f) :=
  row_read2 f fun i j => ⟨.idx2 o i j, ⟨rfl, rfl, rfl⟩, True.intro⟩

theorem row_heap (o : Heap) : Twin (Operator.heap o <$> readHeapType) (.heap o <$> readHeapType) (Same f) :=
  row f twin_heapType.toTwin yields_heapType' fun h ⟨e, h1, h2⟩ =>
    ⟨.heap o e, ⟨rfl, h1.symm⟩, by cases e <;> exact h2⟩

theorem row_cast (o : Cast) : Twin (readCast (.cast o)) (readCast (.cast o)) (Same f) := by
  refine .pos fun p p' => Twin1.readU8.toTwin.bindE fun fl => Twin1.u32.toTwin.bindE fun d => ?_
  cases castFlags fl with
  | none => exact .fail
  | some x =>
    obtain ⟨n1, n2⟩ := x
    refine (twin_heapType.toTwin.yields yields_heapType).bind ?_
    rintro _ _ ⟨rfl, e1, rfl⟩
    cases h1 : RefType.new n1 e1.denote with
    | none => exact .fail
    | some t1 =>
      refine (twin_heapType.toTwin.yields yields_heapType).bind ?_
      rintro _ _ ⟨rfl, e2, rfl⟩
      cases h2 : RefType.new n2 e2.denote with
      | none => exact .fail
      | some t2 =>
        exact .pure ⟨.cast o d ⟨n1, e1⟩ ⟨n2, e2⟩, ⟨rfl, rfl, h1, h2⟩, ⟨rfl, rfl, h1, h2⟩,
          new_denote h1, new_denote h2⟩

theorem row_mem (o : Mem) (a : UInt8) (h : 8 * 2 ^ a.toNat = accessBits o) :
    Twin (Operator.mem o <$> readMemarg f a) (.mem o <$> readMemarg f a) (Same f) :=
  row f (twin_memarg f a) (yields_memarg f a) fun m ⟨e, h1, h2⟩ =>
    ⟨.mem o e, ⟨rfl, h1 _ h⟩, h2⟩

theorem row_memLane (o : MemLane) (a : UInt8) (h : 8 * 2 ^ a.toNat = laneBits o) :
    Twin (readMemLane f a (.memLane o)) (readMemLane f a (.memLane o)) (Same f) := by
  refine ((twin_memarg f a).yields (yields_memarg f a)).bind ?_
  rintro m _ ⟨rfl, e, h1, h2⟩
  exact Twin1.readU8.toTwin.bindE fun l => .pure ⟨.memLane o e l, ⟨rfl, h1 _ h, rfl⟩, ⟨rfl, h1 _ h, rfl⟩, h2⟩

theorem row_lane (o : Lane) : Twin (Operator.lane o <$> readU8) (.lane o <$> readU8) (Same f) :=
  row f Twin1.readU8.toTwin (Yields.triv _) fun l _ => ⟨.lane o l, ⟨rfl, rfl⟩, True.intro⟩

theorem row_atomic (o : Atomic) : Twin (readAtomic (.atomic o)) (readAtomic (.atomic o)) (Same f) :=
  twin_ordering.bindE fun x => Twin1.u32.toTwin.bindE fun i =>
    let ⟨e, he⟩ := order_corr x
    .pure ⟨.atomic o e i, ⟨rfl, he, rfl⟩, ⟨rfl, he, rfl⟩, True.intro⟩

theorem row_atomic2 (o : Atomic2) : Twin (readAtomic2 (.atomic2 o)) (readAtomic2 (.atomic2 o)) (Same f) :=
  twin_ordering.bindE fun x => Twin1.u32.toTwin.bindE fun i => Twin1.u32.toTwin.bindE fun j =>
    let ⟨e, he⟩ := order_corr x
    .pure ⟨.atomic2 o e i j, ⟨rfl, he, rfl, rfl⟩, ⟨rfl, he, rfl, rfl⟩, True.intro⟩

theorem row_block (o : Blk) (ho : o = .try_ → f.legacyExceptions = true) :
    Twin (Operator.block o <$> readBlockType) (.block o <$> readBlockType) (Same f) :=
  row f twin_blockType yields_blockType fun t ⟨e, h1, h2⟩ => ⟨.block o e, ⟨rfl, h1⟩, h2, ho⟩

theorem row_tryTable : Twin readTryTable readTryTable (Same f) := by
  refine (twin_blockType.yields yields_blockType).bind ?_
  rintro t _ ⟨rfl, e, h1, h2⟩
  refine ((twin_catch.iterE _ _).yields ((Yields.triv readCatch).iter _ _)).bind ?_
  rintro cs _ ⟨rfl, hl, -⟩
  obtain ⟨es, he⟩ := list_corr catch_corr cs
  exact .pure ⟨.tryTable e es, ⟨h1, he⟩, ⟨h1, he⟩, h2, by rw [he.length_eq]; exact hl⟩

theorem row_select : Twin readTypedSelect readTypedSelect (Same f) := by
  have hs : Yields (readSize maxWasmSelectResultSize "select types") (· ≤ maxWasmSelectResultSize) :=
    .bind' fun pos => .bind' fun size => .ite (fun _ => .fail) fun hc => .pure (by omega)
  refine ((Twin.readSize _ _).yields hs).bind ?_
  rintro n _ ⟨rfl, hn⟩
  refine .ite (fun _ => ?_) fun h1 => ?_
  · exact row f twin_valType.toTwin yields_valType fun v ⟨e, h1, h2⟩ => ⟨.typedSelect e, h1, h2⟩
  · refine row f (twin_valType.toTwin.manyE n) (yields_valType.many n) fun vs hvs => ?_
    obtain ⟨es, h3, h4⟩ := exists_forall₂ hvs.2
    have hl := h3.length_eq
    refine ⟨.typedSelectMulti es, h3, ?_, ?_, h4⟩
    · have := hvs.1; simp only [maxWasmSelectResultSize] at hn; omega
    · have := hvs.1; omega

theorem row_brTable : Twin (Operator.brTable <$> readBrTable) (.brTable <$> readBrTable) (Same f) :=
  twin_brTable.fmap fun _ _ ⟨ls, l, h1, h2, h3⟩ => ⟨.brTable ls l, h2, h3, h1⟩

theorem row_memoryIndex {g : BitVec 32 → Operator}
    (h : ∀ i, (f.multiMemory = true ∨ i = 0) → ∃ e, Corr e (g i) ∧ Fits f e) :
    Twin (g <$> readMemoryIndexOrZero f) (g <$> readMemoryIndexOrZero f) (Same f) := by
  refine row f (P := fun i => f.multiMemory = true ∨ i = 0) ?_ ?_ h
  · exact .ite (fun _ => Twin1.u32.toTwin) fun _ => Twin1.readU8.toTwin.bindE fun b =>
      .ite (fun _ => .pure rfl) fun _ => .pos fun _ _ => .fail
  · exact .ite (fun h => (Yields.triv _).mono fun _ _ => .inl h) fun _ => .bind' fun b =>
      .ite (fun _ => .pure (.inr rfl)) fun _ => .bind' fun _ => .fail

theorem row_memorySize :
    Twin (Operator.memorySize <$> readMemoryIndexOrZero f) (.memorySize <$> readMemoryIndexOrZero f) (Same f) :=
  row_memoryIndex f fun i h => ⟨.memorySize i, rfl, h⟩

theorem row_memoryGrow :
    Twin (Operator.memoryGrow <$> readMemoryIndexOrZero f) (.memoryGrow <$> readMemoryIndexOrZero f) (Same f) :=
  row_memoryIndex f fun i h => ⟨.memoryGrow i, rfl, h⟩

theorem row_callIndirect : Twin (do
      let index ← readVarU32
      let table ← readCallIndirectTable f
      pure (.callIndirect index table)) (do
      let index ← readVarU32
      let table ← readCallIndirectTable f
      pure (.callIndirect index table)) (Same f) := by
  refine Twin1.u32.toTwin.bindE fun i => ?_
  have ht : Twin (readCallIndirectTable f) (readCallIndirectTable f) Eq :=
    .ite (fun _ => Twin1.u32.toTwin) fun _ => Twin1.readU8.toTwin.bindE fun b =>
      .ite (fun _ => .pure rfl) fun _ => .pos fun _ _ => .fail
  have hy : Yields (readCallIndirectTable f) (fun i => f.callIndirectOverlong = true ∨ i = 0) :=
    .ite (fun h => (Yields.triv _).mono fun _ _ => .inl h) fun _ => .bind' fun b =>
      .ite (fun _ => .pure (.inr rfl)) fun _ => .bind' fun _ => .fail
  refine (ht.yields hy).bind ?_
  rintro t _ ⟨rfl, h⟩
  exact .pure ⟨.callIndirect t i, ⟨rfl, rfl⟩, ⟨rfl, rfl⟩, h⟩

theorem twin_resumeTable : Twin readResumeTable readResumeTable (fun hs hs' => hs = hs' ∧
    ∃ es, List.Forall₂ HandleCorr es hs ∧ es.length ≤ 10000) := by
  refine ((twin_handle.iterE _ _).yields ((Yields.triv readHandle).iter _ _)).mono ?_
  rintro hs _ ⟨rfl, hl, -⟩
  obtain ⟨es, he⟩ := list_corr handle_corr hs
  exact ⟨rfl, es, he, by rw [he.length_eq]; exact hl⟩

theorem row_resume : Twin (do let t ← readVarU32; Operator.resume t <$> readResumeTable)
    (do let t ← readVarU32; Operator.resume t <$> readResumeTable) (Same f) := by
  refine Twin1.u32.toTwin.bindE fun t => twin_resumeTable.fmap ?_
  rintro hs _ ⟨rfl, es, h1, h2⟩
  exact ⟨.resume t es, ⟨rfl, h1⟩, ⟨rfl, h1⟩, h2⟩

theorem row_resumeThrow : Twin (do
      let t ← readVarU32
      let e ← readVarU32
      Operator.resumeThrow t e <$> readResumeTable) (do
      let t ← readVarU32
      let e ← readVarU32
      Operator.resumeThrow t e <$> readResumeTable) (Same f) := by
  refine Twin1.u32.toTwin.bindE fun t => Twin1.u32.toTwin.bindE fun e => twin_resumeTable.fmap ?_
  rintro hs _ ⟨rfl, es, h1, h2⟩
  exact ⟨.resumeThrow t e es, ⟨rfl, rfl, h1⟩, ⟨rfl, rfl, h1⟩, h2⟩

theorem row_resumeThrowRef : Twin (do let t ← readVarU32; Operator.resumeThrowRef t <$> readResumeTable)
    (do let t ← readVarU32; Operator.resumeThrowRef t <$> readResumeTable) (Same f) := by
  refine Twin1.u32.toTwin.bindE fun t => twin_resumeTable.fmap ?_
  rintro hs _ ⟨rfl, es, h1, h2⟩
  exact ⟨.resumeThrowRef t es, ⟨rfl, h1⟩, ⟨rfl, h1⟩, h2⟩

theorem leValue_lt : ∀ bs : List UInt8, leValue bs < 256 ^ bs.length
  | [] => by simp [leValue]
  | b :: bs => by
    have := leValue_lt bs
    have := b.toNat_lt
    simp only [leValue, List.length_cons, Nat.pow_succ]
    omega

theorem row_v128 : Twin (Operator.v128Const <$> readBytes 16) (.v128Const <$> readBytes 16) (Same f) := by
  refine (Twin.readBytes 16).fmap ?_
  rintro bs _ ⟨rfl, hl⟩
  have := leValue_lt bs
  have h : leValue bs = (BitVec.ofNat 128 (leValue bs)).toNat := by
    rw [hl] at this
    rw [BitVec.toNat_ofNat, Nat.mod_eq_of_lt (by simpa using this)]
  exact ⟨.v128Const (.ofNat 128 (leValue bs)), ⟨hl, h⟩, ⟨hl, h⟩, True.intro⟩

theorem row_shuffle : Twin (Operator.i8x16Shuffle <$> readMany readU8 16)
    (.i8x16Shuffle <$> readMany readU8 16) (Same f) :=
  row f (Twin1.readU8.toTwin.manyE 16) ((Yields.triv readU8).many 16) fun ls h =>
    ⟨.i8x16Shuffle ls, rfl, h.1⟩

theorem twin_expectFrame (k want : FrameKind) (s : String) :
    Twin (expectFrame k want s) (expectFrame k want s) Eq :=
  .ite (fun _ => .pure rfl) fun _ => .pos fun _ _ => .fail

theorem twin_expectCatch (k : FrameKind) (s : String) :
    Twin (expectCatchFrame k s) (expectCatchFrame k s) Eq := by
  intro r a r' e
  by_cases h : k = .legacyCatch ∨ k = .legacyTry
  · have hz : ∀ z, expectCatchFrame k s z = .ok ((), z) := by
      intro z
      rcases h with rfl | rfl <;> rfl
    rw [hz] at e
    cases e
    exact ⟨[], rfl, rfl, fun z tail _ => ⟨(), hz z, rfl⟩⟩
  · exfalso
    have h1 : k ≠ .legacyCatch := fun h' => h (.inl h')
    have h2 : k ≠ .legacyTry := fun h' => h (.inr h')
    simp only [expectCatchFrame, expectFrame, if_neg h1, if_neg h2] at e
    cases e

theorem twin_requireLegacy (what : String) (pos pos' : Nat) :
    Twin (requireLegacyExceptions f what pos) (requireLegacyExceptions f what pos')
      (fun _ _ => f.legacyExceptions = true) :=
  .ite (fun h => .pure h) fun _ => .fail

theorem row_else (k : FrameKind) : Twin (do expectFrame k .if_ "else"; pure .else_)
    (do expectFrame k .if_ "else"; pure .else_) (Same f) :=
  (twin_expectFrame _ _ _).bindE fun _ => row_pure f .else_ True.intro True.intro

theorem row_try (pos pos' : Nat) :
    Twin (do requireLegacyExceptions f "try" pos; .block .try_ <$> readBlockType)
      (do requireLegacyExceptions f "try" pos'; .block .try_ <$> readBlockType) (Same f) :=
  (twin_requireLegacy f _ pos pos').bind fun _ _ h => row_block f _ fun _ => h

theorem row_catch (k : FrameKind) (pos pos' : Nat) :
    Twin (do requireLegacyExceptions f "catch" pos; expectCatchFrame k "catch"; .catch_ <$> readVarU32)
      (do requireLegacyExceptions f "catch" pos'; expectCatchFrame k "catch"; .catch_ <$> readVarU32)
      (Same f) :=
  (twin_requireLegacy f _ pos pos').bind fun _ _ h => (twin_expectCatch _ _).bindE fun _ =>
    row f Twin1.u32.toTwin (Yields.triv _) fun t _ => ⟨.catch_ t, rfl, h⟩

theorem row_catchAll (k : FrameKind) (pos pos' : Nat) :
    Twin (do requireLegacyExceptions f "catch_all" pos; expectCatchFrame k "catch_all"; pure .catchAll)
      (do requireLegacyExceptions f "catch_all" pos'; expectCatchFrame k "catch_all"; pure .catchAll)
      (Same f) :=
  (twin_requireLegacy f _ pos pos').bind fun _ _ h => (twin_expectCatch _ _).bindE fun _ =>
    row_pure f .catchAll True.intro h

theorem row_delegate (k : FrameKind) :
    Twin (do expectFrame k .legacyTry "delegate"; .delegate <$> readVarU32)
      (do expectFrame k .legacyTry "delegate"; .delegate <$> readVarU32) (Same f) :=
  (twin_expectFrame _ _ _).bindE fun _ =>
    row f Twin1.u32.toTwin (Yields.triv _) fun t _ => ⟨.delegate t, rfl, True.intro⟩

theorem visitFb_same (pos pos' code : Nat) : Twin (visitFb pos code) (visitFb pos' code) (Same f) := by
  unfold visitFb
  split <;> first
    | with_reducible exact row_plain f _
    | with_reducible exact row_idx f _
    | with_reducible exact row_idx2 f _
    | with_reducible exact row_heap f _
    | with_reducible exact row_cast f _
    | exact .fail

theorem visitFc_same (pos pos' code : Nat) : Twin (visitFc pos code) (visitFc pos' code) (Same f) := by
  unfold visitFc
  split <;> first
    | with_reducible exact row_plain f _
    | with_reducible exact row_idx f _
    | with_reducible exact row_idx2 f _
    | exact row_read2 f fun i j => ⟨.memoryInit j i, ⟨rfl, rfl⟩, True.intro⟩
    | exact row_read2 f fun i j => ⟨.tableInit j i, ⟨rfl, rfl⟩, True.intro⟩
    | exact .fail

theorem visitFd4_same (pos pos' code : Nat) : Twin (visitFd4 f pos code) (visitFd4 f pos' code) (Same f) := by
  unfold visitFd4
  split <;> first
    | with_reducible exact row_plain f _
    | ((with_reducible refine row_mem f _ _ ?_); rfl)
    | ((with_reducible refine row_memLane f _ _ ?_); rfl)
    | with_reducible exact row_lane f _
    | exact .fail

theorem visitFd3_same (pos pos' code : Nat) : Twin (visitFd3 f pos code) (visitFd3 f pos' code) (Same f) := by
  unfold visitFd3
  split <;> first
    | with_reducible exact row_plain f _
    | ((with_reducible refine row_mem f _ _ ?_); rfl)
    | ((with_reducible refine row_memLane f _ _ ?_); rfl)
    | with_reducible exact row_lane f _
    | with_reducible exact row_v128 f
    | with_reducible exact row_shuffle f
    | exact visitFd4_same f pos pos' _

theorem visitFd2_same (pos pos' code : Nat) : Twin (visitFd2 f pos code) (visitFd2 f pos' code) (Same f) := by
  unfold visitFd2
  split <;> first
    | with_reducible exact row_plain f _
    | ((with_reducible refine row_mem f _ _ ?_); rfl)
    | ((with_reducible refine row_memLane f _ _ ?_); rfl)
    | with_reducible exact row_lane f _
    | with_reducible exact row_v128 f
    | with_reducible exact row_shuffle f
    | exact visitFd3_same f pos pos' _

theorem visitFd1_same (pos pos' code : Nat) : Twin (visitFd1 f pos code) (visitFd1 f pos' code) (Same f) := by
  unfold visitFd1
  split <;> first
    | with_reducible exact row_plain f _
    | ((with_reducible refine row_mem f _ _ ?_); rfl)
    | ((with_reducible refine row_memLane f _ _ ?_); rfl)
    | with_reducible exact row_lane f _
    | with_reducible exact row_v128 f
    | with_reducible exact row_shuffle f
    | exact visitFd2_same f pos pos' _

theorem visitFd_same (pos pos' code : Nat) : Twin (visitFd f pos code) (visitFd f pos' code) (Same f) := by
  unfold visitFd
  split <;> first
    | with_reducible exact row_plain f _
    | ((with_reducible refine row_mem f _ _ ?_); rfl)
    | ((with_reducible refine row_memLane f _ _ ?_); rfl)
    | with_reducible exact row_lane f _
    | with_reducible exact row_v128 f
    | with_reducible exact row_shuffle f
    | exact visitFd1_same f pos pos' _

theorem visitFe_same (pos pos' code : Nat) : Twin (visitFe f pos code) (visitFe f pos' code) (Same f) := by
  unfold visitFe
  split <;> first
    | with_reducible exact row_plain f _
    | ((with_reducible refine row_mem f _ _ ?_); rfl)
    | with_reducible exact row_atomic f _
    | with_reducible exact row_atomic2 f _
    | exact .fail
    | exact Twin1.readU8.toTwin.bindE fun b => .ite (fun _ => .fail) fun _ =>
        row_pure f .atomicFence True.intro True.intro

theorem visitCode3_same (k : FrameKind) (pos pos' code : Nat) :
    Twin (visitCode3 f k pos code) (visitCode3 f k pos' code) (Same f) := by
  unfold visitCode3
  split <;> first
    | with_reducible exact row_plain f _
    | with_reducible exact row_idx f _
    | ((with_reducible refine row_mem f _ _ ?_); rfl)
    | with_reducible exact row_idx2 f _
    | with_reducible exact row_heap f _
    | with_reducible exact row_resume f
    | with_reducible exact row_resumeThrow f
    | with_reducible exact row_resumeThrowRef f
    | exact Twin1.u32.toTwin.bindE fun c => visitFb_same f _ _ _
    | exact Twin1.u32.toTwin.bindE fun c => visitFc_same f _ _ _
    | exact Twin1.u32.toTwin.bindE fun c => visitFd_same f _ _ _
    | exact Twin1.u32.toTwin.bindE fun c => visitFe_same f _ _ _
    | exact .fail

theorem visitCode2_same (k : FrameKind) (pos pos' code : Nat) :
    Twin (visitCode2 f k pos code) (visitCode2 f k pos' code) (Same f) := by
  unfold visitCode2
  split <;> first
    | with_reducible exact row_plain f _
    | with_reducible exact row_idx f _
    | ((with_reducible refine row_mem f _ _ ?_); rfl)
    | exact visitCode3_same f k pos pos' _

theorem visitCode1_same (k : FrameKind) (pos pos' code : Nat) :
    Twin (visitCode1 f k pos code) (visitCode1 f k pos' code) (Same f) := by
  unfold visitCode1
  split <;> first
    | with_reducible exact row_plain f _
    | with_reducible exact row_idx f _
    | ((with_reducible refine row_mem f _ _ ?_); rfl)
    | with_reducible exact row_memorySize f
    | with_reducible exact row_memoryGrow f
    | ((with_reducible refine row f Twin1.i32.toTwin (Yields.triv _) ?_); exact fun v _ => ⟨.i32Const v, rfl, True.intro⟩)
    | ((with_reducible refine row f Twin1.i64.toTwin (Yields.triv _) ?_); exact fun v _ => ⟨.i64Const v, rfl, True.intro⟩)
    | ((with_reducible refine row f Twin.u32le (Yields.triv _) ?_); exact fun v _ => ⟨.f32Const v, rfl, True.intro⟩)
    | ((with_reducible refine row f Twin.u64le (Yields.triv _) ?_); exact fun v _ => ⟨.f64Const v, rfl, True.intro⟩)
    | exact visitCode2_same f k pos pos' _

theorem visitCode0_same (k : FrameKind) (pos pos' code : Nat) :
    Twin (visitCode0 f k pos code) (visitCode0 f k pos' code) (Same f) := by
  unfold visitCode0
  split <;> first
    | with_reducible exact row_plain f _
    | with_reducible exact row_idx f _
    | ((with_reducible refine row_mem f _ _ ?_); rfl)
    | with_reducible exact row_tryTable f
    | exact visitCode1_same f k pos pos' _

theorem visitCode_same (k : FrameKind) (pos pos' code : Nat) :
    Twin (visitCode f k pos code) (visitCode f k pos' code) (Same f) := by
  unfold visitCode
  split <;> first
    | with_reducible exact row_plain f _
    | with_reducible exact row_idx f _
    | ((with_reducible refine row_mem f _ _ ?_); rfl)
    | exact row_block f _ nofun
    | with_reducible exact row_brTable f
    | with_reducible exact row_callIndirect f
    | exact row_read2 f fun i j => ⟨.returnCallIndirect j i, ⟨rfl, rfl⟩, True.intro⟩
    | with_reducible exact row_select f
    | exact row_pure f .end_ True.intro True.intro
    | exact row_else f k
    | exact row_try f pos pos'
    | exact row_catch f k pos pos'
    | exact row_catchAll f k pos pos'
    | exact row_delegate f k
    | exact visitCode0_same f k pos pos' _

theorem visitOperator_same (k : Option FrameKind) :
    Twin1 (visitOperator f k) (visitOperator f k) (Same f) := by
  cases k with
  | none => exact .pos fun _ _ => .fail
  | some k => exact .pos fun pos pos' => Twin1.readU8.bindE fun code => visitCode_same f k pos pos' _

end
end Verif.Instr
