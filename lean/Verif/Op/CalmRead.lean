import Verif.Op.CalmRest
import Verif.Instr.Frames
import Verif.Types.Yields
/-! The operators that the reader returns have the types of a module. -/
namespace Verif.Op.Calm
open Verif.Reader Verif.Leb Verif.Framing Verif.Types
open Verif.Instr

theorem modular_denote (e : Enc.HeapType) : Modular e.denote := by
  cases e with
  | abstract => trivial
  | concrete i => exact ⟨i, rfl⟩
  | exact i => exact ⟨i, rfl⟩

theorem modular_new {b : Bool} {e : Enc.HeapType} {t : RefType}
    (h : RefType.new b e.denote = some t) : ModularRef t := by
  rcases Types.c12_new b e.denote with ⟨_, t', h1, _, h2, _⟩ | ⟨_, h1⟩
  · rw [h1] at h
    cases h
    exact ⟨_, h2, modular_denote e⟩
  · rw [h1] at h
    cases h

theorem yields_modular : Yields readHeapType Modular :=
  yields_heapType.mono fun _ ⟨e, h⟩ => h ▸ modular_denote e

theorem yields_modularRef : Yields readRefType ModularRef :=
  yields_refType.mono fun _ ⟨_, h⟩ => modular_new h

theorem yields_modularVal : Yields readValType ModularVal := by
  refine yields_valType.mono ?_
  rintro v ⟨e, h, _⟩
  cases v with
  | ref r =>
    cases e with
    | ref e => exact modular_new h
    | _ => cases h
  | _ => trivial

theorem yields_modularBlock : Yields readBlockType ModularBlock := by
  refine .bind' fun b => .ite (fun _ => .ite (fun _ => .bind' fun _ => .pure trivial) fun _ => ?_)
    fun _ => .bind' fun _ => .ite (fun _ => .pure trivial) fun _ => .bind' fun _ => .fail
  exact yields_modularVal.bind fun _ h => .pure h

theorem modular_bind {α : Type} {P : α → Prop} {m : R α} {g : α → R Operator} (hm : Yields m P)
    (h : ∀ a, P a → All ModularOp (g a)) : All ModularOp (m >>= g) := by
  intro r op r' he
  obtain ⟨a, r1, e1, e2⟩ := Reader.bind_ok.mp he
  exact h a (hm _ _ _ e1) _ _ _ e2

theorem modular_heap {o : Instr.Heap} : All ModularOp (.heap o <$> readHeapType) :=
  modular_bind yields_modular fun _ h => .pure h

theorem modular_block {o : Blk} : All ModularOp (.block o <$> readBlockType) :=
  modular_bind yields_modularBlock fun _ h => .pure h

theorem modular_memLane {f : Instr.Features} {a : UInt8} {o : MemLane} :
    All ModularOp (readMemLane f a (.memLane o)) := .bind fun _ => .bind fun _ => .pure trivial

theorem modular_read2 {g : BitVec 32 → BitVec 32 → Operator} (h : ∀ i j, ModularOp (g i j)) :
    All ModularOp (read2 g) := .bind fun i => .bind fun j => .pure (h i j)

theorem modular_cast {o : Instr.Cast} : All ModularOp (readCast (.cast o)) := by
  refine .bind fun pos => .bind fun fl => .bind fun d => ?_
  split
  · exact .fail
  · refine modular_bind yields_heapType ?_
    rintro _ ⟨e1, rfl⟩
    split
    · exact .fail
    · next h1 =>
      refine modular_bind yields_heapType ?_
      rintro _ ⟨e2, rfl⟩
      split
      · exact .fail
      · next h2 => exact .pure ⟨modular_new h1, modular_new h2⟩

theorem modular_atomic {g : Instr.Ordering → BitVec 32 → Operator} (h : ∀ o i, ModularOp (g o i)) :
    All ModularOp (readAtomic g) := .bind fun i => .bind fun j => .pure (h i j)

theorem modular_atomic2 {g : Instr.Ordering → BitVec 32 → BitVec 32 → Operator}
    (h : ∀ o i j, ModularOp (g o i j)) : All ModularOp (readAtomic2 g) :=
  .bind fun o => .bind fun i => .bind fun j => .pure (h o i j)

theorem modular_select : All ModularOp readTypedSelect :=
  .bind fun n => .ite (modular_bind yields_modularVal fun _ h => .pure h) (.fmap fun _ => trivial)

theorem modular_tryTable : All ModularOp readTryTable :=
  modular_bind yields_modularBlock fun _ h => .bind fun _ => .pure h

theorem visitFb_modular (pos code : Nat) : All ModularOp (visitFb pos code) := by
  unfold visitFb
  split <;> first
    | exact .pure trivial
    | exact .fmap fun _ => trivial
    | exact modular_heap
    | exact modular_block
    | exact modular_memLane
    | exact modular_read2 fun _ _ => trivial
    | exact modular_cast
    | exact modular_atomic fun _ _ => trivial
    | exact modular_atomic2 fun _ _ _ => trivial
    | exact modular_select
    | exact .fail

theorem visitFc_modular (pos code : Nat) : All ModularOp (visitFc pos code) := by
  unfold visitFc
  split <;> first
    | exact .pure trivial
    | exact .fmap fun _ => trivial
    | exact modular_heap
    | exact modular_block
    | exact modular_memLane
    | exact modular_read2 fun _ _ => trivial
    | exact modular_cast
    | exact modular_atomic fun _ _ => trivial
    | exact modular_atomic2 fun _ _ _ => trivial
    | exact modular_select
    | exact .fail

theorem visitFd4_modular (f : Instr.Features) (pos code : Nat) : All ModularOp (visitFd4 f pos code) := by
  unfold visitFd4
  split <;> first
    | exact .pure trivial
    | exact .fmap fun _ => trivial
    | exact modular_heap
    | exact modular_block
    | exact modular_memLane
    | exact modular_read2 fun _ _ => trivial
    | exact modular_cast
    | exact modular_atomic fun _ _ => trivial
    | exact modular_atomic2 fun _ _ _ => trivial
    | exact modular_select
    | exact .fail

theorem visitFd3_modular (f : Instr.Features) (pos code : Nat) : All ModularOp (visitFd3 f pos code) := by
  unfold visitFd3
  split <;> first
    | exact .pure trivial
    | exact .fmap fun _ => trivial
    | exact modular_heap
    | exact modular_block
    | exact modular_memLane
    | exact modular_read2 fun _ _ => trivial
    | exact modular_cast
    | exact modular_atomic fun _ _ => trivial
    | exact modular_atomic2 fun _ _ _ => trivial
    | exact modular_select
    | exact .fail
    | exact visitFd4_modular f pos _

theorem visitFd2_modular (f : Instr.Features) (pos code : Nat) : All ModularOp (visitFd2 f pos code) := by
  unfold visitFd2
  split <;> first
    | exact .pure trivial
    | exact .fmap fun _ => trivial
    | exact modular_heap
    | exact modular_block
    | exact modular_memLane
    | exact modular_read2 fun _ _ => trivial
    | exact modular_cast
    | exact modular_atomic fun _ _ => trivial
    | exact modular_atomic2 fun _ _ _ => trivial
    | exact modular_select
    | exact .fail
    | exact visitFd3_modular f pos _

theorem visitFd1_modular (f : Instr.Features) (pos code : Nat) : All ModularOp (visitFd1 f pos code) := by
  unfold visitFd1
  split <;> first
    | exact .pure trivial
    | exact .fmap fun _ => trivial
    | exact modular_heap
    | exact modular_block
    | exact modular_memLane
    | exact modular_read2 fun _ _ => trivial
    | exact modular_cast
    | exact modular_atomic fun _ _ => trivial
    | exact modular_atomic2 fun _ _ _ => trivial
    | exact modular_select
    | exact .fail
    | exact visitFd2_modular f pos _

theorem visitFd_modular (f : Instr.Features) (pos code : Nat) : All ModularOp (visitFd f pos code) := by
  unfold visitFd
  split <;> first
    | exact .pure trivial
    | exact .fmap fun _ => trivial
    | exact modular_heap
    | exact modular_block
    | exact modular_memLane
    | exact modular_read2 fun _ _ => trivial
    | exact modular_cast
    | exact modular_atomic fun _ _ => trivial
    | exact modular_atomic2 fun _ _ _ => trivial
    | exact modular_select
    | exact .fail
    | exact visitFd1_modular f pos _

theorem visitFe_modular (f : Instr.Features) (pos code : Nat) : All ModularOp (visitFe f pos code) := by
  unfold visitFe
  split <;> first
    | exact .pure trivial
    | exact .fmap fun _ => trivial
    | exact modular_heap
    | exact modular_block
    | exact modular_memLane
    | exact modular_read2 fun _ _ => trivial
    | exact modular_cast
    | exact modular_atomic fun _ _ => trivial
    | exact modular_atomic2 fun _ _ _ => trivial
    | exact modular_select
    | exact .fail
    | exact .bind fun _ => .ite .fail (.pure trivial)

theorem visitCode3_modular (f : Instr.Features) (k : FrameKind) (pos code : Nat) : All ModularOp (visitCode3 f k pos code) := by
  unfold visitCode3
  split <;> first
    | exact .pure trivial
    | exact .fmap fun _ => trivial
    | exact modular_heap
    | exact modular_block
    | exact modular_memLane
    | exact modular_read2 fun _ _ => trivial
    | exact modular_cast
    | exact modular_atomic fun _ _ => trivial
    | exact modular_atomic2 fun _ _ _ => trivial
    | exact modular_select
    | exact .fail
    | exact modular_tryTable
    | exact .bind fun _ => visitFb_modular _ _
    | exact .bind fun _ => visitFc_modular _ _
    | exact .bind fun _ => visitFd_modular _ _ _
    | exact .bind fun _ => visitFe_modular _ _ _
    | exact .bind fun _ => modular_block
    | exact .bind fun _ => .bind fun _ => modular_block
    | exact .bind fun _ => .pure trivial
    | exact .bind fun _ => .fmap fun _ => trivial
    | exact .bind fun _ => .bind fun _ => .pure trivial
    | exact .bind fun _ => .bind fun _ => .fmap fun _ => trivial

theorem visitCode2_modular (f : Instr.Features) (k : FrameKind) (pos code : Nat) : All ModularOp (visitCode2 f k pos code) := by
  unfold visitCode2
  split <;> first
    | exact .pure trivial
    | exact .fmap fun _ => trivial
    | exact modular_heap
    | exact modular_block
    | exact modular_memLane
    | exact modular_read2 fun _ _ => trivial
    | exact modular_cast
    | exact modular_atomic fun _ _ => trivial
    | exact modular_atomic2 fun _ _ _ => trivial
    | exact modular_select
    | exact .fail
    | exact visitCode3_modular f k pos _
    | exact modular_tryTable
    | exact .bind fun _ => visitFb_modular _ _
    | exact .bind fun _ => visitFc_modular _ _
    | exact .bind fun _ => visitFd_modular _ _ _
    | exact .bind fun _ => visitFe_modular _ _ _
    | exact .bind fun _ => modular_block
    | exact .bind fun _ => .bind fun _ => modular_block
    | exact .bind fun _ => .pure trivial
    | exact .bind fun _ => .fmap fun _ => trivial
    | exact .bind fun _ => .bind fun _ => .pure trivial
    | exact .bind fun _ => .bind fun _ => .fmap fun _ => trivial

theorem visitCode1_modular (f : Instr.Features) (k : FrameKind) (pos code : Nat) : All ModularOp (visitCode1 f k pos code) := by
  unfold visitCode1
  split <;> first
    | exact .pure trivial
    | exact .fmap fun _ => trivial
    | exact modular_heap
    | exact modular_block
    | exact modular_memLane
    | exact modular_read2 fun _ _ => trivial
    | exact modular_cast
    | exact modular_atomic fun _ _ => trivial
    | exact modular_atomic2 fun _ _ _ => trivial
    | exact modular_select
    | exact .fail
    | exact visitCode2_modular f k pos _
    | exact modular_tryTable
    | exact .bind fun _ => visitFb_modular _ _
    | exact .bind fun _ => visitFc_modular _ _
    | exact .bind fun _ => visitFd_modular _ _ _
    | exact .bind fun _ => visitFe_modular _ _ _
    | exact .bind fun _ => modular_block
    | exact .bind fun _ => .bind fun _ => modular_block
    | exact .bind fun _ => .pure trivial
    | exact .bind fun _ => .fmap fun _ => trivial
    | exact .bind fun _ => .bind fun _ => .pure trivial
    | exact .bind fun _ => .bind fun _ => .fmap fun _ => trivial

theorem visitCode0_modular (f : Instr.Features) (k : FrameKind) (pos code : Nat) : All ModularOp (visitCode0 f k pos code) := by
  unfold visitCode0
  split <;> first
    | exact .pure trivial
    | exact .fmap fun _ => trivial
    | exact modular_heap
    | exact modular_block
    | exact modular_memLane
    | exact modular_read2 fun _ _ => trivial
    | exact modular_cast
    | exact modular_atomic fun _ _ => trivial
    | exact modular_atomic2 fun _ _ _ => trivial
    | exact modular_select
    | exact .fail
    | exact visitCode1_modular f k pos _
    | exact modular_tryTable
    | exact .bind fun _ => visitFb_modular _ _
    | exact .bind fun _ => visitFc_modular _ _
    | exact .bind fun _ => visitFd_modular _ _ _
    | exact .bind fun _ => visitFe_modular _ _ _
    | exact .bind fun _ => modular_block
    | exact .bind fun _ => .bind fun _ => modular_block
    | exact .bind fun _ => .pure trivial
    | exact .bind fun _ => .fmap fun _ => trivial
    | exact .bind fun _ => .bind fun _ => .pure trivial
    | exact .bind fun _ => .bind fun _ => .fmap fun _ => trivial

theorem visitCode_modular (f : Instr.Features) (k : FrameKind) (pos code : Nat) : All ModularOp (visitCode f k pos code) := by
  unfold visitCode
  split <;> first
    | exact .pure trivial
    | exact .fmap fun _ => trivial
    | exact modular_heap
    | exact modular_block
    | exact modular_memLane
    | exact modular_read2 fun _ _ => trivial
    | exact modular_cast
    | exact modular_atomic fun _ _ => trivial
    | exact modular_atomic2 fun _ _ _ => trivial
    | exact modular_select
    | exact .fail
    | exact visitCode0_modular f k pos _
    | exact modular_tryTable
    | exact .bind fun _ => visitFb_modular _ _
    | exact .bind fun _ => visitFc_modular _ _
    | exact .bind fun _ => visitFd_modular _ _ _
    | exact .bind fun _ => visitFe_modular _ _ _
    | exact .bind fun _ => modular_block
    | exact .bind fun _ => .bind fun _ => modular_block
    | exact .bind fun _ => .pure trivial
    | exact .bind fun _ => .fmap fun _ => trivial
    | exact .bind fun _ => .bind fun _ => .pure trivial
    | exact .bind fun _ => .bind fun _ => .fmap fun _ => trivial

/-- Every operator that the reader returns has types of a module. -/
theorem visitOperator_modular {f : Instr.Features} {frame : Option FrameKind} {r r' : Reader}
    {o : Operator} (h : visitOperator f frame r = .ok (o, r')) : ModularOp o := by
  cases frame with
  | none => cases h
  | some k =>
    have : All ModularOp (visitOperator f (some k)) :=
      .bind fun pos => .bind fun code => visitCode_modular f k pos code.toNat
    exact this _ _ _ h

end Verif.Op.Calm
