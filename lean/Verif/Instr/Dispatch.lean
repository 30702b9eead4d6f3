import Verif.Instr.Spec
import Verif.Types.Codec
/-! The decoder's table entry for each opcode in the encoder's table. -/
namespace Verif.Instr
open Verif.Reader Verif.Leb Verif.Types Enc

theorem _root_.Verif.Reader.Dec.fmap {f : R α} {g : α → β} {b : List UInt8} {a : α} (h : Dec f b a) :
    Dec (g <$> f) b (g a) := h.map

theorem _root_.Verif.Reader.DecP.fmap {f : R α} {g : α → β} {b : List UInt8} {P : α → Prop}
    {Q : β → Prop} (h : DecP f b P) (hq : ∀ a, P a → Q (g a)) : DecP (g <$> f) b Q := h.map hq

/-- The table behind a prefix byte. -/
def sub (f : Features) (pos : Nat) (p : UInt8) (code : Nat) : R Operator :=
  if p = 0xfb then visitFb pos code
  else if p = 0xfc then visitFc pos code
  else if p = 0xfd then visitFd f pos code
  else visitFe f pos code

/-- The reader that the decoder's tables select for an opcode. -/
def dispatch (f : Features) (k : FrameKind) (pos : Nat) : Opcode → R Operator
  | .one b => visitCode f k pos b.toNat
  | .raw p b => sub f pos p b.toNat
  | .leb p c => sub f pos p c.toNat

def IsPrefix (p : UInt8) : Prop := p = 0xfb ∨ p = 0xfc ∨ p = 0xfd ∨ p = 0xfe

instance (p : UInt8) : Decidable (IsPrefix p) := inferInstanceAs (Decidable (_ ∨ _))

/-- Two-byte opcodes consist of a prefix and a byte without continuation bit. -/
def _root_.Verif.Instr.Enc.Opcode.Ok : Opcode → Prop
  | .one _ => True
  | .raw p b => IsPrefix p ∧ b.toNat < 128
  | .leb p _ => IsPrefix p

instance : (o : Opcode) → Decidable o.Ok
  | .one _ => inferInstanceAs (Decidable True)
  | .raw p b => inferInstanceAs (Decidable (IsPrefix p ∧ b.toNat < 128))
  | .leb p _ => inferInstanceAs (Decidable (IsPrefix p))

theorem visitCode_prefix {p : UInt8} (hp : IsPrefix p) (f : Features) (k : FrameKind) (pos : Nat) :
    visitCode f k pos p.toNat = (do sub f pos p (← readVarU32).toNat) := by
  rcases hp with rfl | rfl | rfl | rfl <;> rfl

theorem encodeU32_small {v : Nat} (h : v < 128) : encodeU32 (BitVec.ofNat 32 v) = [UInt8.ofNat v] := by
  unfold encodeU32
  rw [BitVec.toNat_ofNat, Nat.mod_eq_of_lt (by omega), encodeU]
  simp only [show v / 128 = 0 by omega, Nat.mod_eq_of_lt h]
  rfl

theorem encodeU32_byte {b : UInt8} (h : b.toNat < 128) :
    encodeU32 (BitVec.ofNat 32 b.toNat) = [b] := by
  rw [encodeU32_small h]; simp

/-- Reading an operator is reading its opcode and then what the table says. -/
theorem decP_dispatch {f : Features} {k : FrameKind} {o : Opcode} {b : List UInt8}
    {P : Operator → Prop} (ho : o.Ok) (h : ∀ pos, DecP (dispatch f k pos o) b P) :
    DecP (visitOperator f (some k)) (o.bytes ++ b) P := by
  refine DecP.readPos fun pos => ?_
  cases o with
  | one c => exact (Dec.readU8 c).bindP (h pos)
  | raw p c =>
    obtain ⟨hp, hc⟩ := ho
    refine Dec.bindP (b1 := [p]) (b2 := c :: b) (Dec.readU8 p) ?_
    rw [visitCode_prefix hp]
    have := Dec.u32 (BitVec.ofNat 32 c.toNat)
    rw [encodeU32_byte hc] at this
    refine Dec.bindP (b1 := [c]) this ?_
    have hn : (BitVec.ofNat 32 c.toNat).toNat = c.toNat := by
      rw [BitVec.toNat_ofNat, Nat.mod_eq_of_lt (by omega)]
    rw [hn]
    exact h pos
  | leb p c =>
    refine Dec.bindP (b1 := [p]) (b2 := encodeU32 c ++ b) (Dec.readU8 p) ?_
    rw [visitCode_prefix ho]
    exact (Dec.u32 c).bindP (h pos)

/-- The largest alignment that the decoder's table gives for each access. -/
def maxAlignOf (o : Mem) : UInt8 :=
  if Spec.accessBits o = 8 then 0 else if Spec.accessBits o = 16 then 1
  else if Spec.accessBits o = 32 then 2 else if Spec.accessBits o = 64 then 3 else 4

def maxAlignOfLane (o : MemLane) : UInt8 :=
  if Spec.laneBits o = 8 then 0 else if Spec.laneBits o = 16 then 1
  else if Spec.laneBits o = 32 then 2 else 3

theorem maxAlignOf_spec (o : Mem) : 8 * 2 ^ (maxAlignOf o).toNat = Spec.accessBits o := by
  cases o <;> rfl

theorem maxAlignOfLane_spec (o : MemLane) : 8 * 2 ^ (maxAlignOfLane o).toNat = Spec.laneBits o := by
  cases o <;> rfl

section
variable (f : Features) (k : FrameKind) (pos : Nat)

theorem ok_plain (o : Plain) : (opcodePlain o).Ok := by cases o <;> decide
theorem ok_blk (o : Blk) : (opcodeBlk o).Ok := by cases o <;> decide
theorem ok_idx (o : Idx) : (opcodeIdx o).Ok := by cases o <;> decide
theorem ok_idx2 (o : Idx2) : (opcodeIdx2 o).Ok := by cases o <;> decide
theorem ok_mem (o : Mem) : (opcodeMem o).Ok := by cases o <;> decide
theorem ok_memLane (o : MemLane) : (opcodeMemLane o).Ok := by cases o <;> decide
theorem ok_lane (o : Lane) : (opcodeLane o).Ok := by cases o <;> decide
theorem ok_heap (o : Heap) : (opcodeHeap o).Ok := by cases o <;> decide
theorem ok_cast (o : Cast) : (opcodeCast o).Ok := by cases o <;> decide
theorem ok_atomic (o : Atomic) : (opcodeAtomic o).Ok := by cases o <;> decide
theorem ok_atomic2 (o : Atomic2) : (opcodeAtomic2 o).Ok := by cases o <;> decide

theorem dispatch_plain (o : Plain) : dispatch f k pos (opcodePlain o) = pure (.plain o) := by
  cases o <;> rfl

theorem dispatch_idx (o : Idx) : dispatch f k pos (opcodeIdx o) = .idx o <$> readVarU32 := by
  cases o <;> rfl

theorem dispatch_idx2 (o : Idx2) : dispatch f k pos (opcodeIdx2 o) = read2 (.idx2 o) := by
  cases o <;> rfl

theorem dispatch_mem (o : Mem) :
    dispatch f k pos (opcodeMem o) = .mem o <$> readMemarg f (maxAlignOf o) := by
  cases o <;> rfl

theorem dispatch_memLane (o : MemLane) :
    dispatch f k pos (opcodeMemLane o) = readMemLane f (maxAlignOfLane o) (.memLane o) := by
  cases o <;> rfl

theorem dispatch_lane (o : Lane) : dispatch f k pos (opcodeLane o) = .lane o <$> readU8 := by
  cases o <;> rfl

theorem dispatch_heap (o : Heap) : dispatch f k pos (opcodeHeap o) = .heap o <$> readHeapType := by
  cases o <;> rfl

theorem dispatch_cast (o : Cast) : dispatch f k pos (opcodeCast o) = readCast (.cast o) := by
  cases o <;> rfl

theorem dispatch_atomic (o : Atomic) :
    dispatch f k pos (opcodeAtomic o) = readAtomic (.atomic o) := by
  cases o <;> rfl

theorem dispatch_atomic2 (o : Atomic2) :
    dispatch f k pos (opcodeAtomic2 o) = readAtomic2 (.atomic2 o) := by
  cases o <;> rfl
end

end Verif.Instr
