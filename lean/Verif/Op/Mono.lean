import Verif.Op.Gate
import Verif.Op.VisitBlock
/-! A body that is accepted with some features is accepted in the same way with all of them, as
long as custom descriptors are off. -/
namespace Verif.Op.View
open Verif.Types (AbsHeap UnpackedIndex HeapType RefType ValType)
open Verif.Instr (FrameKind BlockType MemArg Catch Handle Operator)

/-- Whatever the first computation does when it succeeds, so does the second. -/
def Le {α : Type} (m m' : M α) : Prop := ∀ S x S', m S = (.ok x, S') → m' S = (.ok x, S')

theorem Le.refl {α : Type} (m : M α) : Le m m := fun _ _ _ h => h
theorem Le.of_eq {α : Type} {m m' : M α} (h : m = m') : Le m m' := h ▸ Le.refl m

theorem Le.bind {α β : Type} {m m' : M α} {k k' : α → M β} (h : Le m m')
    (hk : ∀ x, Le (k x) (k' x)) : Le (m >>= k) (m' >>= k') := by
  intro S x S' hs
  obtain ⟨y, S1, h1, h2⟩ := bind_eq_ok hs
  show (match m' S with
    | (.ok a, S') => k' a S'
    | (.error e, S') => (.error e, S')) = _
  rw [h S y S1 h1]
  exact hk y S1 x S' h2

theorem Le.require {a b : Bool} (h : a = true → b = true) : Le (require a) (require b) := by
  intro S x S' hs
  cases a
  · cases hs
  · rw [h rfl]; exact hs

theorem Le.map {α β : Type} {m m' : M α} {g : α → β} (h : Le m m') :
    Le (g <$> m) (g <$> m') := Le.bind h fun _ => Le.refl _

/-- The same environment with all features. -/
def Env.full (E : Env) : Env := { E with f := fullFeatures }

variable {E : Env}

theorem le_floats : Le (checkFloatsEnabled E) (checkFloatsEnabled (Env.full E)) :=
  Le.require fun _ => rfl

theorem le_featuresCheck {α : Type} {c c' : TypeList.M α}
    (h : ∀ x, c = .ok x → ∃ y, c' = .ok y) : Le (featuresCheck c) (featuresCheck c') := by
  intro S x S' hs
  cases c with
  | ok a =>
    obtain ⟨y, hy⟩ := h a rfl
    rw [hy]; exact hs
  | error e => cases e <;> cases hs

theorem checkRefType_mono (hE : E.f.customDescriptors = false) (r : RefType) (x : Unit)
    (h : TypeList.checkRefType E.f.types r = .ok x) :
    ∃ y, TypeList.checkRefType fullFeatures.types r = .ok y := by
  cases hh : r.heapType with
  | none =>
    unfold TypeList.checkRefType at h
    rw [hh] at h
    cases hf : E.f.types.referenceTypes <;> rw [hf] at h <;> cases h
  | some x =>
    refine features_ref r x hh ?_
    cases x with
    | exact i =>
      unfold TypeList.checkRefType at h
      rw [hh] at h
      have : E.f.types.customDescriptors = false := hE
      rw [this] at h
      cases hf : E.f.types.referenceTypes <;> rw [hf] at h <;> cases h
    | _ => trivial

theorem checkValueType_mono (hE : E.f.customDescriptors = false) (t : ValType) (x : Unit)
    (h : TypeList.checkValueType E.f.types t = .ok x) :
    ∃ y, TypeList.checkValueType fullFeatures.types t = .ok y := by
  cases t with
  | ref r => exact checkRefType_mono hE r x h
  | _ => exact ⟨(), rfl⟩

theorem le_checkValueType (hE : E.f.customDescriptors = false) (t : ValType) :
    Le (checkValueType E t) (checkValueType (Env.full E) t) := by
  unfold checkValueType
  refine Le.bind (le_featuresCheck (checkValueType_mono hE t)) fun _ => ?_
  cases t <;> exact Le.refl _

theorem le_checkBlockType (hE : E.f.customDescriptors = false) (t : BlockType) :
    Le (checkBlockType E t) (checkBlockType (Env.full E) t) := by
  cases t with
  | empty => exact Le.refl _
  | type t => exact Le.map (le_checkValueType hE t)
  | funcType i => exact Le.bind (Le.require fun _ => rfl) fun _ => Le.refl _

theorem le_pushExact (hE : E.f.customDescriptors = false) (n : Bool) (i : BitVec 32) :
    Le (pushExactRefIfAvailable E n i) (pushExactRefIfAvailable (Env.full E) n i) := by
  unfold pushExactRefIfAvailable
  rw [hE]
  exact Le.refl _

theorem le_hierarchy (hE : E.f.customDescriptors = false) (a b : Ref) :
    Le (checkBrOnCastTypeHierarchy E a b) (checkBrOnCastTypeHierarchy (Env.full E) a b) := by
  unfold checkBrOnCastTypeHierarchy
  rw [hE]
  exact Le.refl _

theorem le_refFunc (hE : E.f.customDescriptors = false) (i : BitVec 32) :
    Le (visitRefFunc E i) (visitRefFunc (Env.full E) i) := by
  unfold visitRefFunc
  rw [hE]
  exact Le.refl _

theorem le_refNull (hE : E.f.customDescriptors = false) (h : HeapType) :
    Le (visitRefNull E h) (visitRefNull (Env.full E) h) := by
  unfold visitRefNull
  cases RefType.new true h with
  | none => exact Le.refl _
  | some r => exact Le.bind (le_featuresCheck (checkRefType_mono hE r)) fun _ => Le.refl _

theorem le_castTypes (hE : E.f.customDescriptors = false) (a b : RefType) :
    Le (castTypes E a b) (castTypes (Env.full E) a b) := by
  unfold castTypes
  refine Le.bind (Le.refl _) fun _ => Le.bind (Le.refl _) fun _ => ?_
  exact Le.bind (le_hierarchy hE _ _) fun _ => Le.refl _

/-- Going through a computation, with what is known about its parts. -/
macro "le " hE:term : tactic => `(tactic| repeat first
  | exact le_floats
  | exact le_checkValueType $hE _
  | exact le_checkBlockType $hE _
  | exact le_pushExact $hE _ _
  | exact le_castTypes $hE _ _
  | exact Le.require fun _ => rfl
  | exact Le.refl _
  | refine Le.bind ?_ fun _ => ?_)

theorem le_runPlain (b : PlainBody) : Le (runPlain E b) (runPlain (Env.full E) b) := by
  cases b with
  | fcmp => exact Le.bind le_floats fun _ => Le.refl _
  | funary => exact Le.bind le_floats fun _ => Le.refl _
  | fbinary => exact Le.bind le_floats fun _ => Le.refl _
  | fconversion => exact Le.bind le_floats fun _ => Le.refl _
  | fsplat => exact Le.bind le_floats fun _ => Le.refl _
  | v128Fbinary => exact Le.bind le_floats fun _ => Le.refl _
  | v128Funary => exact Le.bind le_floats fun _ => Le.refl _
  | _ => exact Le.refl _

theorem le_runMem (m : MemArg) (b : MemBody) :
    Le (runMem E m b) (runMem (Env.full E) m b) := by
  cases b with
  | fload => exact Le.bind le_floats fun _ => Le.refl _
  | fstore => exact Le.bind le_floats fun _ => Le.refl _
  | _ => exact Le.refl _

theorem le_runLane (l : UInt8) (b : LaneBody) :
    Le (runLane E l b) (runLane (Env.full E) l b) := by
  cases b with
  | fextract => exact Le.bind le_floats fun _ => Le.refl _
  | freplace => exact Le.bind le_floats fun _ => Le.refl _
  | _ => exact Le.refl _

theorem le_visitBlk (hE : E.f.customDescriptors = false) (o : Instr.Blk) (t : BlockType) :
    Le (visitBlk E o t) (visitBlk (Env.full E) o t) := by
  cases o <;> exact Le.bind (le_checkBlockType hE t) fun _ => Le.refl _

theorem le_visitIdx (hE : E.f.customDescriptors = false) (o : Instr.Idx) (i : BitVec 32) :
    Le (visitIdx E o i) (visitIdx (Env.full E) o i) := by
  cases o with
  | memoryFill => exact Le.bind (Le.require fun _ => rfl) fun _ => Le.refl _
  | refFunc => exact le_refFunc hE i
  | structNew => unfold visitIdx visitStructNew; le hE
  | structNewDefault => unfold visitIdx visitStructNewDefault; le hE
  | structNewDesc => unfold visitIdx visitStructNewDesc; le hE
  | structNewDefaultDesc => unfold visitIdx visitStructNewDefaultDesc; le hE
  | arrayNew => unfold visitIdx visitArrayNew; le hE
  | arrayNewDefault => unfold visitIdx visitArrayNewDefault; le hE
  | _ => exact Le.refl _

theorem le_visitIdx2 (hE : E.f.customDescriptors = false) (o : Instr.Idx2) (i j : BitVec 32) :
    Le (visitIdx2 E o i j) (visitIdx2 (Env.full E) o i j) := by
  cases o with
  | memoryCopy => exact Le.bind (Le.require fun _ => rfl) fun _ => Le.refl _
  | arrayNewFixed => unfold visitIdx2 visitArrayNewFixed; le hE
  | arrayNewData => unfold visitIdx2 visitArrayNewData; le hE
  | arrayNewElem => unfold visitIdx2 visitArrayNewElem; le hE
  | _ => exact Le.refl _

theorem le_visitHeap (hE : E.f.customDescriptors = false) (o : Instr.Heap) (h : HeapType) :
    Le (visitHeap E o h) (visitHeap (Env.full E) o h) := by
  cases o with
  | refNull => exact le_refNull hE h
  | _ => exact Le.refl _

theorem le_visitCast (hE : E.f.customDescriptors = false) (o : Instr.Cast) (d : BitVec 32)
    (a b : RefType) : Le (visitCast E o d a b) (visitCast (Env.full E) o d a b) := by
  cases o with
  | brOnCast => exact Le.bind (le_castTypes hE a b) fun _ => Le.refl _
  | brOnCastFail => exact Le.bind (le_castTypes hE a b) fun _ => Le.refl _
  | brOnCastDescEq =>
    exact Le.bind (Le.refl _) fun _ => Le.bind (le_castTypes hE a b) fun _ => Le.refl _
  | brOnCastDescEqFail =>
    exact Le.bind (Le.refl _) fun _ => Le.bind (le_castTypes hE a b) fun _ => Le.refl _

theorem le_visit (hE : E.f.customDescriptors = false) (o : Operator) :
    Le (visit E o) (visit (Env.full E) o) := by
  cases o with
  | plain o => exact le_runPlain _
  | block o t => exact le_visitBlk hE o t
  | tryTable t cs => exact Le.bind (le_checkBlockType hE t) fun _ => Le.refl _
  | idx o i => exact le_visitIdx hE o i
  | idx2 o i j => exact le_visitIdx2 hE o i j
  | mem o m => exact le_runMem m _
  | lane o l => exact le_runLane l _
  | heap o h => exact le_visitHeap hE o h
  | cast o d a b => exact le_visitCast hE o d a b
  | f32Const => exact Le.bind le_floats fun _ => Le.refl _
  | f64Const => exact Le.bind le_floats fun _ => Le.refl _
  | brTable t =>
    have h0 : ∀ ts, popTypes E ts = popTypes (Env.full E) ts := fun ts => by
      induction ts with
      | nil => rfl
      | cons t ts ih =>
        unfold popTypes
        rw [ih]
        rfl
    have h1 : ∀ n, checkBrTarget E n = checkBrTarget (Env.full E) n := fun n => by
      funext x
      have h2 : ∀ ts, matchStackOperands E ts = matchStackOperands (Env.full E) ts := fun ts => by
        unfold matchStackOperands
        rw [h0]
      unfold checkBrTarget
      simp only [h2]
      rfl
    show Le (visitBrTable E t) (visitBrTable (Env.full E) t)
    unfold visitBrTable
    refine Le.bind (Le.refl _) fun _ => Le.bind (Le.refl _) fun ds => ?_
    rw [h1 ds.length]
    exact Le.bind (Le.refl _) fun _ => Le.refl _
  | typedSelect t => exact Le.bind (le_checkValueType hE t) fun _ => Le.refl _
  | _ => exact Le.refl _

theorem has_full (hE : E.f.customDescriptors = false) (p : Proposal) (h : E.f.has p = true) :
    fullFeatures.has p = true := by
  cases p with
  | customDescriptors =>
    have : E.f.customDescriptors = true := h
    rw [hE] at this; cases this
  | _ => rfl

theorem le_op (hE : E.f.customDescriptors = false) (o : Operator) :
    Le (op E o) (op (Env.full E) o) :=
  Le.bind (Le.require (has_full hE _)) fun _ => le_visit hE o

theorem le_runOps (hE : E.f.customDescriptors = false) : ∀ os : List Operator,
    Le (runOps E os) (runOps (Env.full E) os)
  | [] => Le.refl _
  | o :: os => Le.bind (le_op hE o) fun _ => le_runOps hE os

/-- The operators that need custom descriptors. -/
def Plainly (o : Operator) : Prop := proposal o ≠ .customDescriptors

/-- With all features, an operator is visited unless it needs custom descriptors. -/
theorem op_full (hE : E.f = fullFeatures) (o : Operator) (hp : Plainly o) :
    op E o = visit E o := by
  have : E.f.has (proposal o) = true := by
    rw [hE]
    cases h : proposal o with
    | customDescriptors => exact absurd h hp
    | _ => rfl
  unfold op
  rw [this]
  rfl

theorem op_full_ok (hE : E.f = fullFeatures) {o : Operator} {S S' : St} {u : Unit}
    (h : op E o S = (.ok u, S')) : Plainly o ∧ visit E o S = (.ok u, S') := by
  by_cases hp : Plainly o
  · rw [op_full hE o hp] at h; exact ⟨hp, h⟩
  · have hq : proposal o = .customDescriptors := Decidable.of_not_not hp
    unfold op at h
    rw [hq, hE] at h
    cases h

end Verif.Op.View
