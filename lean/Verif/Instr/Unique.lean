import Verif.Instr.Prefix
/-! The opcode can be told from the bytes, and the instruction from opcode and immediates. -/
namespace Verif.Instr
open Verif.Reader Verif.Leb Verif.Framing Verif.Types Spec Enc

inductive Single where
  | else_ | end_ | catchAll | atomicFence | tryTable | catch_ | delegate | memorySize | memoryGrow
  | callIndirect | returnCallIndirect | memoryInit | tableInit | brTable | shuffle
  | i32Const | i64Const | f32Const | f64Const | v128Const | select | resume | resumeThrow
  | resumeThrowRef
  deriving DecidableEq, Repr

/-- An instruction without its immediates; the two typed selects are one. -/
inductive Shape where
  | plain (o : Plain) | blk (o : Blk) | idx (o : Idx) | idx2 (o : Idx2) | mem (o : Mem)
  | memLane (o : MemLane) | lane (o : Lane) | heap (o : Heap) | cast (o : Cast)
  | atomic (o : Atomic) | atomic2 (o : Atomic2) | single (s : Single)
  deriving DecidableEq, Repr

def shape : Instr → Shape
  | .plain o => .plain o
  | .else_ => .single .else_
  | .end_ => .single .end_
  | .catchAll => .single .catchAll
  | .atomicFence => .single .atomicFence
  | .block o _ => .blk o
  | .tryTable .. => .single .tryTable
  | .idx o _ => .idx o
  | .catch_ _ => .single .catch_
  | .delegate _ => .single .delegate
  | .memorySize _ => .single .memorySize
  | .memoryGrow _ => .single .memoryGrow
  | .idx2 o _ _ => .idx2 o
  | .callIndirect .. => .single .callIndirect
  | .returnCallIndirect .. => .single .returnCallIndirect
  | .memoryInit .. => .single .memoryInit
  | .tableInit .. => .single .tableInit
  | .brTable .. => .single .brTable
  | .mem o _ => .mem o
  | .memLane o _ _ => .memLane o
  | .lane o _ => .lane o
  | .i8x16Shuffle _ => .single .shuffle
  | .heap o _ => .heap o
  | .cast o .. => .cast o
  | .atomic o .. => .atomic o
  | .atomic2 o .. => .atomic2 o
  | .i32Const _ => .single .i32Const
  | .i64Const _ => .single .i64Const
  | .f32Const _ => .single .f32Const
  | .f64Const _ => .single .f64Const
  | .v128Const _ => .single .v128Const
  | .typedSelect _ | .typedSelectMulti _ => .single .select
  | .resume .. => .single .resume
  | .resumeThrow .. => .single .resumeThrow
  | .resumeThrowRef .. => .single .resumeThrowRef

def shapeOp : Operator → Shape
  | .plain o => .plain o
  | .else_ => .single .else_
  | .end_ => .single .end_
  | .catchAll => .single .catchAll
  | .atomicFence => .single .atomicFence
  | .block o _ => .blk o
  | .tryTable .. => .single .tryTable
  | .idx o _ => .idx o
  | .catch_ _ => .single .catch_
  | .delegate _ => .single .delegate
  | .memorySize _ => .single .memorySize
  | .memoryGrow _ => .single .memoryGrow
  | .idx2 o _ _ => .idx2 o
  | .callIndirect .. => .single .callIndirect
  | .returnCallIndirect .. => .single .returnCallIndirect
  | .memoryInit .. => .single .memoryInit
  | .tableInit .. => .single .tableInit
  | .brTable .. => .single .brTable
  | .mem o _ => .mem o
  | .memLane o _ _ => .memLane o
  | .lane o _ => .lane o
  | .i8x16Shuffle _ => .single .shuffle
  | .heap o _ => .heap o
  | .cast o .. => .cast o
  | .atomic o .. => .atomic o
  | .atomic2 o .. => .atomic2 o
  | .i32Const _ => .single .i32Const
  | .i64Const _ => .single .i64Const
  | .f32Const _ => .single .f32Const
  | .f64Const _ => .single .f64Const
  | .v128Const _ => .single .v128Const
  | .typedSelect _ | .typedSelectMulti _ => .single .select
  | .resume .. => .single .resume
  | .resumeThrow .. => .single .resumeThrow
  | .resumeThrowRef .. => .single .resumeThrowRef

def Single.opcode : Single → Opcode
  | .else_ => .one 0x05
  | .end_ => .one 0x0B
  | .catchAll => .one 0x19
  | .atomicFence => .raw 0xFE 0x03
  | .tryTable => .one 0x1f
  | .catch_ => .one 0x07
  | .delegate => .one 0x18
  | .memorySize => .one 0x3F
  | .memoryGrow => .one 0x40
  | .callIndirect => .one 0x11
  | .returnCallIndirect => .one 0x13
  | .memoryInit => .raw 0xFC 0x08
  | .tableInit => .raw 0xFC 0x0C
  | .brTable => .one 0x0E
  | .shuffle => .leb 0xFD 0x0D
  | .i32Const => .one 0x41
  | .i64Const => .one 0x42
  | .f32Const => .one 0x43
  | .f64Const => .one 0x44
  | .v128Const => .leb 0xFD 0x0C
  | .select => .one 0x1C
  | .resume => .one 0xE3
  | .resumeThrow => .one 0xE4
  | .resumeThrowRef => .one 0xE5

def Shape.opcode : Shape → Opcode
  | .plain o => opcodePlain o
  | .blk o => opcodeBlk o
  | .idx o => opcodeIdx o
  | .idx2 o => opcodeIdx2 o
  | .mem o => opcodeMem o
  | .memLane o => opcodeMemLane o
  | .lane o => opcodeLane o
  | .heap o => opcodeHeap o
  | .cast o => opcodeCast o
  | .atomic o => opcodeAtomic o
  | .atomic2 o => opcodeAtomic2 o
  | .single s => s.opcode

/-- Everything after the opcode. -/
def payload : Instr → Option (List UInt8)
  | .plain _ | .else_ | .end_ | .catchAll => some []
  | .atomicFence => some [0]
  | .block _ bt => some bt.encode
  | .tryTable ty catches => (ty.encode ++ ·) <$> encodeVec Catch.encode catches
  | .idx _ i | .catch_ i | .delegate i | .memorySize i | .memoryGrow i => some (encodeU32 i)
  | .idx2 _ i j => some (encodeU32 i ++ encodeU32 j)
  | .callIndirect i j | .returnCallIndirect i j | .memoryInit i j | .tableInit i j =>
    some (encodeU32 j ++ encodeU32 i)
  | .brTable ls l => (· ++ encodeU32 l) <$> encodeVec encodeU32 ls
  | .mem _ m => some m.encode
  | .memLane _ m l => some (m.encode ++ [l])
  | .lane _ l => some [l]
  | .i8x16Shuffle ls => some ls
  | .heap _ h => some h.encode
  | .cast _ d a b => some (encodeCast d a b)
  | .atomic _ o i => some (o.encode ++ encodeU32 i)
  | .atomic2 _ o i j => some (o.encode ++ (encodeU32 i ++ encodeU32 j))
  | .i32Const x => some (encodeI32 x)
  | .i64Const x => some (encodeI64 x)
  | .f32Const x => some (leBytes 4 x.toNat)
  | .f64Const x => some (leBytes 8 x.toNat)
  | .v128Const x => some (leBytes 16 x.toNat)
  | .typedSelect t => encodeVec Types.Enc.ValType.encode [t]
  | .typedSelectMulti ts => encodeVec Types.Enc.ValType.encode ts
  | .resume t hs => (encodeU32 t ++ ·) <$> encodeVec Handle.encode hs
  | .resumeThrow t e hs => (fun b => encodeU32 t ++ (encodeU32 e ++ b)) <$> encodeVec Handle.encode hs
  | .resumeThrowRef t hs => (encodeU32 t ++ ·) <$> encodeVec Handle.encode hs

theorem encode_eq (i : Instr) : i.encode = ((shape i).opcode.bytes ++ ·) <$> payload i := by
  cases i <;>
    simp only [Instr.encode, shape, payload, Shape.opcode, Single.opcode, Opcode.bytes,
      Option.map_eq_map, Option.map_some, List.append_assoc, List.append_nil, List.cons_append,
      List.nil_append, List.singleton_append] <;>
    (rename_i xs; first | rfl | (cases encodeVec _ _ <;> rfl))

/-- What identifies an opcode. -/
def key : Opcode → UInt8 × Nat
  | .one b => (b, 0)
  | .raw p b => (p, b.toNat + 1)
  | .leb p c => (p, c.toNat + 1)

/-- One-byte opcodes are no prefixes, the others are. -/
def Opcode.Ok' : Opcode → Prop
  | .one b => ¬ IsPrefix b
  | .raw p b => IsPrefix p ∧ b.toNat < 128
  | .leb p _ => IsPrefix p

instance : (o : Opcode) → Decidable (Opcode.Ok' o)
  | .one b => inferInstanceAs (Decidable (¬ IsPrefix b))
  | .raw p b => inferInstanceAs (Decidable (IsPrefix p ∧ b.toNat < 128))
  | .leb p _ => inferInstanceAs (Decidable (IsPrefix p))

theorem Shape.ok (s : Shape) : Opcode.Ok' s.opcode := by
  cases s with
  | _ o => cases o <;> decide

def readKey : R (UInt8 × Nat) := do
  let b ← readU8
  if IsPrefix b then (fun v => (b, v.toNat + 1)) <$> readVarU32 else pure (b, 0)

theorem dec_key {o : Opcode} (h : Opcode.Ok' o) : Dec readKey o.bytes (key o) := by
  cases o with
  | one b =>
    refine (Dec.readU8 b).bind_nil ?_
    exact .ite_neg h (.pure _)
  | raw p b =>
    refine Dec.bind (b1 := [p]) (b2 := [b]) (Dec.readU8 p) ?_
    rw [if_pos h.1]
    have := (Dec.u32 (BitVec.ofNat 32 b.toNat)).fmap (g := fun v => (p, v.toNat + 1))
    rw [encodeU32_byte h.2, BitVec.toNat_ofNat, Nat.mod_eq_of_lt (by have := h.2; omega)] at this
    exact this
  | leb p c =>
    refine Dec.bind (b1 := [p]) (b2 := encodeU32 c) (Dec.readU8 p) ?_
    rw [if_pos (show IsPrefix p from h)]
    exact (Dec.u32 c).fmap (g := fun v => (p, v.toNat + 1))

/-- What the decoder does for an opcode, from its key. -/
def byKey (f : Features) (k : FrameKind) (q : UInt8 × Nat) : R Operator :=
  match q.2 with
  | 0 => visitCode f k 0 q.1.toNat
  | n + 1 => sub f 0 q.1 n

theorem byKey_key (f : Features) (k : FrameKind) (o : Opcode) :
    byKey f k (key o) = dispatch f k 0 o := by cases o <;> rfl

def allFeatures : Features := ⟨true, true, true, true⟩

/-- Decode zeros as the immediates. -/
def probe (q : UInt8 × Nat) : Option Shape :=
  match byKey allFeatures .legacyTry q (Reader.new (List.replicate 20 0) 0) with
  | .ok (op, _) => some (shapeOp op)
  | .error _ => match byKey allFeatures .if_ q (Reader.new (List.replicate 20 0) 0) with
    | .ok (op, _) => some (shapeOp op)
    | .error _ => none

theorem probe_key (s : Shape) : probe (key s.opcode) = some s := by
  cases s with
  | _ o => cases o <;> decide +kernel

theorem shape_eq {i j : Instr} {bi bj s t : List UInt8} (hi : i.encode = some bi)
    (hj : j.encode = some bj) (he : bi ++ s = bj ++ t) :
    shape i = shape j ∧ ∃ pi pj, payload i = some pi ∧ payload j = some pj ∧ pi ++ s = pj ++ t := by
  rw [encode_eq] at hi hj
  cases hpi : payload i with
  | none => simp [hpi] at hi
  | some pi =>
    cases hpj : payload j with
    | none => simp [hpj] at hj
    | some pj =>
      simp only [hpi, hpj, Option.map_eq_map, Option.map_some, Option.some.injEq] at hi hj
      subst hi hj
      rw [List.append_assoc, List.append_assoc] at he
      obtain ⟨h1, h2, h3⟩ := (dec_key (shape i).ok).unique (dec_key (shape j).ok) he
      refine ⟨?_, pi, pj, rfl, rfl, h3⟩
      have := probe_key (shape i)
      rw [h2, probe_key] at this
      exact (Option.some.inj this).symm

theorem fmap_some {α β : Type} {g : α → β} {o : Option α} {b : β} (h : g <$> o = some b) :
    ∃ a, o = some a ∧ b = g a := by
  cases o with
  | none => cases h
  | some a => exact ⟨a, rfl, (Option.some.inj h).symm⟩

theorem prefix_free {i j : Instr} {bi bj s t : List UInt8} (ui : Unambiguous i)
    (uj : Unambiguous j) (hi : i.encode = some bi) (hj : j.encode = some bj)
    (he : bi ++ s = bj ++ t) : i = j ∧ s = t := by
  obtain ⟨hs, pi, pj, hpi, hpj, he⟩ := shape_eq hi hj he
  clear hi hj
  have c32 : ∀ {a b : BitVec 32} {s t}, encodeU32 a ++ s = encodeU32 b ++ t → a = b ∧ s = t :=
    fun h => pf_u32 _ _ _ _ trivial trivial h
  cases i <;> cases j <;> first | (exfalso; cases hs; done) | skip
  all_goals try (simp only [shape, Shape.plain.injEq, Shape.blk.injEq, Shape.idx.injEq,
    Shape.idx2.injEq, Shape.mem.injEq, Shape.memLane.injEq, Shape.lane.injEq, Shape.heap.injEq,
    Shape.cast.injEq, Shape.atomic.injEq, Shape.atomic2.injEq] at hs)
  all_goals try subst hs
  all_goals try (simp only [payload] at hpi hpj)
  all_goals try (obtain rfl := Option.some.inj hpi; obtain rfl := Option.some.inj hpj)
  case plain.plain => exact ⟨rfl, he⟩
  case else_.else_ => exact ⟨rfl, he⟩
  case end_.end_ => exact ⟨rfl, he⟩
  case catchAll.catchAll => exact ⟨rfl, he⟩
  case atomicFence.atomicFence => exact ⟨rfl, (List.cons.inj he).2⟩
  case block.block =>
    obtain ⟨rfl, h⟩ := pf_blockType _ _ _ _ trivial trivial he
    exact ⟨rfl, h⟩
  case tryTable.tryTable =>
    obtain ⟨vi, hvi, rfl⟩ := fmap_some hpi
    obtain ⟨vj, hvj, rfl⟩ := fmap_some hpj
    rw [List.append_assoc, List.append_assoc] at he
    obtain ⟨rfl, h⟩ := pf_blockType _ _ _ _ trivial trivial he
    obtain ⟨rfl, h⟩ := pf_vec pf_catch (fun _ _ => trivial) (fun _ _ => trivial) hvi hvj h
    exact ⟨rfl, h⟩
  case idx.idx =>
    obtain ⟨rfl, h⟩ := c32 he
    exact ⟨rfl, h⟩
  case catch_.catch_ =>
    obtain ⟨rfl, h⟩ := c32 he
    exact ⟨rfl, h⟩
  case delegate.delegate =>
    obtain ⟨rfl, h⟩ := c32 he
    exact ⟨rfl, h⟩
  case memorySize.memorySize =>
    obtain ⟨rfl, h⟩ := c32 he
    exact ⟨rfl, h⟩
  case memoryGrow.memoryGrow =>
    obtain ⟨rfl, h⟩ := c32 he
    exact ⟨rfl, h⟩
  case idx2.idx2 =>
    rw [List.append_assoc, List.append_assoc] at he
    obtain ⟨rfl, h⟩ := c32 he
    obtain ⟨rfl, h'⟩ := c32 h
    exact ⟨rfl, h'⟩
  case callIndirect.callIndirect =>
    rw [List.append_assoc, List.append_assoc] at he
    obtain ⟨rfl, h⟩ := c32 he
    obtain ⟨rfl, h'⟩ := c32 h
    exact ⟨rfl, h'⟩
  case returnCallIndirect.returnCallIndirect =>
    rw [List.append_assoc, List.append_assoc] at he
    obtain ⟨rfl, h⟩ := c32 he
    obtain ⟨rfl, h'⟩ := c32 h
    exact ⟨rfl, h'⟩
  case memoryInit.memoryInit =>
    rw [List.append_assoc, List.append_assoc] at he
    obtain ⟨rfl, h⟩ := c32 he
    obtain ⟨rfl, h'⟩ := c32 h
    exact ⟨rfl, h'⟩
  case tableInit.tableInit =>
    rw [List.append_assoc, List.append_assoc] at he
    obtain ⟨rfl, h⟩ := c32 he
    obtain ⟨rfl, h'⟩ := c32 h
    exact ⟨rfl, h'⟩
  case brTable.brTable =>
    obtain ⟨vi, hvi, rfl⟩ := fmap_some hpi
    obtain ⟨vj, hvj, rfl⟩ := fmap_some hpj
    rw [List.append_assoc, List.append_assoc] at he
    obtain ⟨rfl, h⟩ := pf_vec pf_u32 (fun _ _ => trivial) (fun _ _ => trivial) hvi hvj he
    obtain ⟨rfl, h'⟩ := c32 h
    exact ⟨rfl, h'⟩
  case mem.mem =>
    obtain ⟨rfl, h⟩ := pf_memArg _ _ _ _ ui uj he
    exact ⟨rfl, h⟩
  case memLane.memLane =>
    rw [List.append_assoc, List.append_assoc] at he
    obtain ⟨rfl, h⟩ := pf_memArg _ _ _ _ ui uj he
    obtain ⟨rfl, h'⟩ := List.cons.inj h
    exact ⟨rfl, h'⟩
  case lane.lane =>
    obtain ⟨rfl, h'⟩ := List.cons.inj he
    exact ⟨rfl, h'⟩
  case i8x16Shuffle.i8x16Shuffle =>
    obtain ⟨rfl, h⟩ := List.append_inj he (Eq.trans ui uj.symm)
    exact ⟨rfl, h⟩
  case heap.heap =>
    obtain ⟨rfl, h⟩ := pf_heap _ _ _ _ trivial trivial he
    exact ⟨rfl, h⟩
  case cast.cast _ d a b d' a' b' =>
    obtain ⟨h1, h⟩ := pf_cast (d, a, b) (d', a', b') _ _ trivial trivial he
    simp only [Prod.mk.injEq] at h1
    obtain ⟨rfl, rfl, rfl⟩ := h1
    exact ⟨rfl, h⟩
  case atomic.atomic =>
    rw [List.append_assoc, List.append_assoc] at he
    obtain ⟨rfl, h⟩ := pf_ordering _ _ _ _ trivial trivial he
    obtain ⟨rfl, h'⟩ := c32 h
    exact ⟨rfl, h'⟩
  case atomic2.atomic2 =>
    simp only [List.append_assoc] at he
    obtain ⟨rfl, h⟩ := pf_ordering _ _ _ _ trivial trivial he
    obtain ⟨rfl, h'⟩ := c32 h
    obtain ⟨rfl, h''⟩ := c32 h'
    exact ⟨rfl, h''⟩
  case i32Const.i32Const =>
    obtain ⟨rfl, h⟩ := pf_i32 _ _ _ _ trivial trivial he
    exact ⟨rfl, h⟩
  case i64Const.i64Const =>
    obtain ⟨rfl, h⟩ := pf_i64 _ _ _ _ trivial trivial he
    exact ⟨rfl, h⟩
  case f32Const.f32Const =>
    obtain ⟨rfl, h⟩ := pf_f32 _ _ _ _ trivial trivial he
    exact ⟨rfl, h⟩
  case f64Const.f64Const =>
    obtain ⟨rfl, h⟩ := pf_f64 _ _ _ _ trivial trivial he
    exact ⟨rfl, h⟩
  case v128Const.v128Const =>
    obtain ⟨rfl, h⟩ := pf_v128 _ _ _ _ trivial trivial he
    exact ⟨rfl, h⟩
  case typedSelect.typedSelect =>
    obtain ⟨h1, h⟩ := pf_vec pf_valType (fun _ _ => trivial) (fun _ _ => trivial) hpi hpj he
    obtain ⟨rfl, -⟩ := List.cons.inj h1
    exact ⟨rfl, h⟩
  case typedSelect.typedSelectMulti =>
    obtain ⟨h1, h⟩ := pf_vec pf_valType (fun _ _ => trivial) (fun _ _ => trivial) hpi hpj he
    subst h1
    exact absurd rfl uj
  case typedSelectMulti.typedSelect =>
    obtain ⟨h1, h⟩ := pf_vec pf_valType (fun _ _ => trivial) (fun _ _ => trivial) hpi hpj he
    subst h1
    exact absurd rfl ui
  case typedSelectMulti.typedSelectMulti =>
    obtain ⟨rfl, h⟩ := pf_vec pf_valType (fun _ _ => trivial) (fun _ _ => trivial) hpi hpj he
    exact ⟨rfl, h⟩
  case resume.resume =>
    obtain ⟨vi, hvi, rfl⟩ := fmap_some hpi
    obtain ⟨vj, hvj, rfl⟩ := fmap_some hpj
    rw [List.append_assoc, List.append_assoc] at he
    obtain ⟨rfl, h⟩ := c32 he
    obtain ⟨rfl, h'⟩ := pf_vec pf_handle (fun _ _ => trivial) (fun _ _ => trivial) hvi hvj h
    exact ⟨rfl, h'⟩
  case resumeThrowRef.resumeThrowRef =>
    obtain ⟨vi, hvi, rfl⟩ := fmap_some hpi
    obtain ⟨vj, hvj, rfl⟩ := fmap_some hpj
    rw [List.append_assoc, List.append_assoc] at he
    obtain ⟨rfl, h⟩ := c32 he
    obtain ⟨rfl, h'⟩ := pf_vec pf_handle (fun _ _ => trivial) (fun _ _ => trivial) hvi hvj h
    exact ⟨rfl, h'⟩
  case resumeThrow.resumeThrow =>
    obtain ⟨vi, hvi, rfl⟩ := fmap_some hpi
    obtain ⟨vj, hvj, rfl⟩ := fmap_some hpj
    simp only [List.append_assoc] at he
    obtain ⟨rfl, h⟩ := c32 he
    obtain ⟨rfl, h'⟩ := c32 h
    obtain ⟨rfl, h''⟩ := pf_vec pf_handle (fun _ _ => trivial) (fun _ _ => trivial) hvi hvj h'
    exact ⟨rfl, h''⟩

end Verif.Instr
