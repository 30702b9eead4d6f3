import Verif.Op.VisitAll
import Verif.Instr.Frames
/-! The memory immediates that the reader returns have the alignment of their instruction. -/
namespace Verif.Op.View
open Verif.Reader Verif.Leb Verif.Framing Verif.Types
open Verif.Instr
open Verif.Instr.Spec (accessBits laneBits)

/-- Everything that the reader returns satisfies `P`. -/
def Every {α : Type} (P : α → Prop) (m : R α) : Prop := ∀ r a r', m r = .ok (a, r') → P a

theorem Every.pure {α : Type} {P : α → Prop} {a : α} (h : P a) : Every P (pure a) := by
  intro r op' r' he
  cases he; exact h

theorem Every.bind {α β : Type} {P : β → Prop} {m : R α} {g : α → R β}
    (h : ∀ a, Every P (g a)) : Every P (m >>= g) := by
  intro r b r' he
  rw [bind_apply] at he
  cases hm : m r with
  | error e => rw [hm] at he; cases he
  | ok x => rw [hm] at he; exact h _ _ _ _ he

theorem Every.fail {α : Type} {P : α → Prop} {m : String} {pos : Nat} :
    Every P (R.fail m pos) := by
  intro r op r' he; cases he

theorem Every.ite {α : Type} {P : α → Prop} {c : Prop} [Decidable c] {m n : R α}
    (h1 : Every P m) (h2 : Every P n) : Every P (if c then m else n) := by
  split <;> assumption

theorem readMemarg_max {f : Instr.Features} {a : UInt8} {r r' : Reader} {m : MemArg}
    (h : readMemarg f a r = .ok (m, r')) : m.maxAlign = a := by
  have : Every (fun m : MemArg => m.maxAlign = a) (readMemarg f a) := by
    unfold readMemarg
    refine .bind fun _ => .bind fun fl => ?_
    dsimp only
    refine .ite (.bind fun _ => .ite .fail (.ite (.bind fun _ => .pure rfl) (.bind fun _ =>
      .pure rfl))) (.bind fun _ => .ite .fail (.ite (.bind fun _ => .pure rfl) (.bind fun _ =>
      .pure rfl)))
  exact this _ _ _ h

theorem natural_mem {f : Instr.Features} {a : UInt8} {o : Mem} (h : 8 * 2 ^ a.toNat = accessBits o) :
    All Natural (.mem o <$> readMemarg f a) := by
  intro r op r' he
  rw [show (Operator.mem o <$> readMemarg f a) = (readMemarg f a >>= fun m => pure (.mem o m))
    from rfl, bind_apply] at he
  cases hm : readMemarg f a r with
  | error e => rw [hm] at he; cases he
  | ok x =>
    rw [hm] at he
    cases he
    show 8 * 2 ^ x.1.maxAlign.toNat = accessBits o
    rw [readMemarg_max (r' := x.2) hm]
    exact h

theorem natural_memLane {f : Instr.Features} {a : UInt8} {o : MemLane}
    (h : 8 * 2 ^ a.toNat = laneBits o) : All Natural (readMemLane f a (.memLane o)) := by
  intro r op r' he
  unfold readMemLane at he
  rw [bind_apply] at he
  cases hm : readMemarg f a r with
  | error e => rw [hm] at he; cases he
  | ok x =>
    rw [hm] at he
    have := All.bind (P := Natural) (m := readU8) (g := fun l => pure (.memLane o x.1 l))
      (fun l => .pure (by
        show 8 * 2 ^ x.1.maxAlign.toNat = laneBits o
        rw [readMemarg_max (r' := x.2) hm]
        exact h))
    exact this _ _ _ he

theorem natural_read2 {g : BitVec 32 → BitVec 32 → Operator} (h : ∀ i j, Natural (g i j)) :
    All Natural (read2 g) := .bind fun i => .bind fun j => .pure (h i j)

theorem natural_cast {g : BitVec 32 → RefType → RefType → Operator}
    (h : ∀ d a b, Natural (g d a b)) : All Natural (readCast g) := by
  refine .bind fun pos => .bind fun fl => .bind fun d => ?_
  split
  · exact .fail
  · refine .bind fun x => ?_
    split
    · exact .fail
    · refine .bind fun y => ?_
      split
      · exact .fail
      · exact .pure (h _ _ _)

theorem natural_atomic {g : Instr.Ordering → BitVec 32 → Operator} (h : ∀ o i, Natural (g o i)) :
    All Natural (readAtomic g) := .bind fun i => .bind fun j => .pure (h i j)

theorem natural_atomic2 {g : Instr.Ordering → BitVec 32 → BitVec 32 → Operator}
    (h : ∀ o i j, Natural (g o i j)) : All Natural (readAtomic2 g) :=
  .bind fun o => .bind fun i => .bind fun j => .pure (h o i j)

theorem natural_select : All Natural readTypedSelect :=
  .bind fun n => .ite (.fmap fun _ => trivial) (.fmap fun _ => trivial)

theorem natural_tryTable : All Natural readTryTable :=
  .bind fun _ => .bind fun _ => .pure trivial

theorem visitFb_natural (pos code : Nat) : All Natural (visitFb pos code) := by
  unfold visitFb
  split <;> first
    | exact .pure trivial
    | exact .fmap fun _ => trivial
    | exact natural_mem rfl
    | exact natural_memLane rfl
    | exact natural_read2 fun _ _ => trivial
    | exact natural_cast fun _ _ _ => trivial
    | exact natural_atomic fun _ _ => trivial
    | exact natural_atomic2 fun _ _ _ => trivial
    | exact natural_select
    | exact .fail

theorem visitFc_natural (pos code : Nat) : All Natural (visitFc pos code) := by
  unfold visitFc
  split <;> first
    | exact .pure trivial
    | exact .fmap fun _ => trivial
    | exact natural_mem rfl
    | exact natural_memLane rfl
    | exact natural_read2 fun _ _ => trivial
    | exact natural_cast fun _ _ _ => trivial
    | exact natural_atomic fun _ _ => trivial
    | exact natural_atomic2 fun _ _ _ => trivial
    | exact natural_select
    | exact .fail

theorem visitFd4_natural (f : Instr.Features) (pos code : Nat) : All Natural (visitFd4 f pos code) := by
  unfold visitFd4
  split <;> first
    | exact .pure trivial
    | exact .fmap fun _ => trivial
    | exact natural_mem rfl
    | exact natural_memLane rfl
    | exact natural_read2 fun _ _ => trivial
    | exact natural_cast fun _ _ _ => trivial
    | exact natural_atomic fun _ _ => trivial
    | exact natural_atomic2 fun _ _ _ => trivial
    | exact natural_select
    | exact .fail

theorem visitFd3_natural (f : Instr.Features) (pos code : Nat) : All Natural (visitFd3 f pos code) := by
  unfold visitFd3
  split <;> first
    | exact .pure trivial
    | exact .fmap fun _ => trivial
    | exact natural_mem rfl
    | exact natural_memLane rfl
    | exact natural_read2 fun _ _ => trivial
    | exact natural_cast fun _ _ _ => trivial
    | exact natural_atomic fun _ _ => trivial
    | exact natural_atomic2 fun _ _ _ => trivial
    | exact natural_select
    | exact .fail
    | exact visitFd4_natural f pos _

theorem visitFd2_natural (f : Instr.Features) (pos code : Nat) : All Natural (visitFd2 f pos code) := by
  unfold visitFd2
  split <;> first
    | exact .pure trivial
    | exact .fmap fun _ => trivial
    | exact natural_mem rfl
    | exact natural_memLane rfl
    | exact natural_read2 fun _ _ => trivial
    | exact natural_cast fun _ _ _ => trivial
    | exact natural_atomic fun _ _ => trivial
    | exact natural_atomic2 fun _ _ _ => trivial
    | exact natural_select
    | exact .fail
    | exact visitFd3_natural f pos _

theorem visitFd1_natural (f : Instr.Features) (pos code : Nat) : All Natural (visitFd1 f pos code) := by
  unfold visitFd1
  split <;> first
    | exact .pure trivial
    | exact .fmap fun _ => trivial
    | exact natural_mem rfl
    | exact natural_memLane rfl
    | exact natural_read2 fun _ _ => trivial
    | exact natural_cast fun _ _ _ => trivial
    | exact natural_atomic fun _ _ => trivial
    | exact natural_atomic2 fun _ _ _ => trivial
    | exact natural_select
    | exact .fail
    | exact visitFd2_natural f pos _

theorem visitFd_natural (f : Instr.Features) (pos code : Nat) : All Natural (visitFd f pos code) := by
  unfold visitFd
  split <;> first
    | exact .pure trivial
    | exact .fmap fun _ => trivial
    | exact natural_mem rfl
    | exact natural_memLane rfl
    | exact natural_read2 fun _ _ => trivial
    | exact natural_cast fun _ _ _ => trivial
    | exact natural_atomic fun _ _ => trivial
    | exact natural_atomic2 fun _ _ _ => trivial
    | exact natural_select
    | exact .fail
    | exact visitFd1_natural f pos _

theorem visitFe_natural (f : Instr.Features) (pos code : Nat) : All Natural (visitFe f pos code) := by
  unfold visitFe
  split <;> first
    | exact .pure trivial
    | exact .fmap fun _ => trivial
    | exact natural_mem rfl
    | exact natural_memLane rfl
    | exact natural_read2 fun _ _ => trivial
    | exact natural_cast fun _ _ _ => trivial
    | exact natural_atomic fun _ _ => trivial
    | exact natural_atomic2 fun _ _ _ => trivial
    | exact natural_select
    | exact .fail
    | exact .bind fun _ => .ite .fail (.pure trivial)

theorem visitCode3_natural (f : Instr.Features) (k : FrameKind) (pos code : Nat) : All Natural (visitCode3 f k pos code) := by
  unfold visitCode3
  split <;> first
    | exact .pure trivial
    | exact .fmap fun _ => trivial
    | exact natural_mem rfl
    | exact natural_memLane rfl
    | exact natural_read2 fun _ _ => trivial
    | exact natural_cast fun _ _ _ => trivial
    | exact natural_atomic fun _ _ => trivial
    | exact natural_atomic2 fun _ _ _ => trivial
    | exact natural_select
    | exact .fail
    | exact natural_tryTable
    | exact .bind fun _ => visitFb_natural _ _
    | exact .bind fun _ => visitFc_natural _ _
    | exact .bind fun _ => visitFd_natural _ _ _
    | exact .bind fun _ => visitFe_natural _ _ _
    | exact .bind fun _ => .pure trivial
    | exact .bind fun _ => .fmap fun _ => trivial
    | exact .bind fun _ => .bind fun _ => .pure trivial
    | exact .bind fun _ => .bind fun _ => .fmap fun _ => trivial

theorem visitCode2_natural (f : Instr.Features) (k : FrameKind) (pos code : Nat) : All Natural (visitCode2 f k pos code) := by
  unfold visitCode2
  split <;> first
    | exact .pure trivial
    | exact .fmap fun _ => trivial
    | exact natural_mem rfl
    | exact natural_memLane rfl
    | exact natural_read2 fun _ _ => trivial
    | exact natural_cast fun _ _ _ => trivial
    | exact natural_atomic fun _ _ => trivial
    | exact natural_atomic2 fun _ _ _ => trivial
    | exact natural_select
    | exact .fail
    | exact visitCode3_natural f k pos _
    | exact natural_tryTable
    | exact .bind fun _ => visitFb_natural _ _
    | exact .bind fun _ => visitFc_natural _ _
    | exact .bind fun _ => visitFd_natural _ _ _
    | exact .bind fun _ => visitFe_natural _ _ _
    | exact .bind fun _ => .pure trivial
    | exact .bind fun _ => .fmap fun _ => trivial
    | exact .bind fun _ => .bind fun _ => .pure trivial
    | exact .bind fun _ => .bind fun _ => .fmap fun _ => trivial

theorem visitCode1_natural (f : Instr.Features) (k : FrameKind) (pos code : Nat) : All Natural (visitCode1 f k pos code) := by
  unfold visitCode1
  split <;> first
    | exact .pure trivial
    | exact .fmap fun _ => trivial
    | exact natural_mem rfl
    | exact natural_memLane rfl
    | exact natural_read2 fun _ _ => trivial
    | exact natural_cast fun _ _ _ => trivial
    | exact natural_atomic fun _ _ => trivial
    | exact natural_atomic2 fun _ _ _ => trivial
    | exact natural_select
    | exact .fail
    | exact visitCode2_natural f k pos _
    | exact natural_tryTable
    | exact .bind fun _ => visitFb_natural _ _
    | exact .bind fun _ => visitFc_natural _ _
    | exact .bind fun _ => visitFd_natural _ _ _
    | exact .bind fun _ => visitFe_natural _ _ _
    | exact .bind fun _ => .pure trivial
    | exact .bind fun _ => .fmap fun _ => trivial
    | exact .bind fun _ => .bind fun _ => .pure trivial
    | exact .bind fun _ => .bind fun _ => .fmap fun _ => trivial

theorem visitCode0_natural (f : Instr.Features) (k : FrameKind) (pos code : Nat) : All Natural (visitCode0 f k pos code) := by
  unfold visitCode0
  split <;> first
    | exact .pure trivial
    | exact .fmap fun _ => trivial
    | exact natural_mem rfl
    | exact natural_memLane rfl
    | exact natural_read2 fun _ _ => trivial
    | exact natural_cast fun _ _ _ => trivial
    | exact natural_atomic fun _ _ => trivial
    | exact natural_atomic2 fun _ _ _ => trivial
    | exact natural_select
    | exact .fail
    | exact visitCode1_natural f k pos _
    | exact natural_tryTable
    | exact .bind fun _ => visitFb_natural _ _
    | exact .bind fun _ => visitFc_natural _ _
    | exact .bind fun _ => visitFd_natural _ _ _
    | exact .bind fun _ => visitFe_natural _ _ _
    | exact .bind fun _ => .pure trivial
    | exact .bind fun _ => .fmap fun _ => trivial
    | exact .bind fun _ => .bind fun _ => .pure trivial
    | exact .bind fun _ => .bind fun _ => .fmap fun _ => trivial

theorem visitCode_natural (f : Instr.Features) (k : FrameKind) (pos code : Nat) : All Natural (visitCode f k pos code) := by
  unfold visitCode
  split <;> first
    | exact .pure trivial
    | exact .fmap fun _ => trivial
    | exact natural_mem rfl
    | exact natural_memLane rfl
    | exact natural_read2 fun _ _ => trivial
    | exact natural_cast fun _ _ _ => trivial
    | exact natural_atomic fun _ _ => trivial
    | exact natural_atomic2 fun _ _ _ => trivial
    | exact natural_select
    | exact .fail
    | exact visitCode0_natural f k pos _
    | exact natural_tryTable
    | exact .bind fun _ => visitFb_natural _ _
    | exact .bind fun _ => visitFc_natural _ _
    | exact .bind fun _ => visitFd_natural _ _ _
    | exact .bind fun _ => visitFe_natural _ _ _
    | exact .bind fun _ => .pure trivial
    | exact .bind fun _ => .fmap fun _ => trivial
    | exact .bind fun _ => .bind fun _ => .pure trivial
    | exact .bind fun _ => .bind fun _ => .fmap fun _ => trivial

/-- Every operator that the reader returns is natural. -/
theorem visitOperator_natural {f : Instr.Features} {frame : Option FrameKind} {r r' : Reader}
    {o : Operator} (h : visitOperator f frame r = .ok (o, r')) : Natural o := by
  cases frame with
  | none => cases h
  | some k =>
    have : All Natural (visitOperator f (some k)) :=
      .bind fun pos => .bind fun code => visitCode_natural f k pos code.toNat
    exact this _ _ _ h

theorem collectFrom_natural (f : Instr.Features) : ∀ (n : Nat) (s s' : OperatorsReader)
    (os : List Operator), s.collectFrom f n = .ok (os, s') → ∀ o ∈ os, Natural o
  | 0, s, s', os, h => by
    unfold OperatorsReader.collectFrom at h
    cases h
    nofun
  | n + 1, s, s', os, h => by
    unfold OperatorsReader.collectFrom at h
    split at h
    · cases h
      nofun
    · split at h
      · cases h
      · next op s1 h1 =>
        split at h
        · cases h
        · next ops1 s2 h2 =>
          cases h
          unfold OperatorsReader.read at h1
          split at h1
          · cases h1
          · next op1 r1 h3 =>
            cases h1
            intro o ho
            rcases List.mem_cons.1 ho with rfl | ho
            · exact visitOperator_natural h3
            · exact collectFrom_natural f n _ _ _ h2 o ho

end Verif.Op.View
