import Verif.Op.Gate
import Verif.Op.InitLemmas
import Verif.Op.TypingSpec
import Verif.TypeList.Hist
/-! The operands of the innermost block: what the helpers of the validator do to them, in terms of
the typing rules. -/
namespace Verif.Op.View
open Verif.Op.Typing
open Verif.Types (AbsHeap HeapType UnpackedIndex RefType ValType)
open Verif.Instr (FrameKind BlockType MemArg Catch Handle BrTable Operator)
open Verif.TypeList.Spec (Field Storage Comp SubT Decls HeapSub RefSub ValSub StorageSub)
open Verif.TypeList (DeclsOk HeapIn Alg heapShared alg_shared)

/-! ## Modules and their resources -/

/-- The answers about a module are those of the context. -/
structure Faithful (R : Resources) (C : Ctx) : Prop where
  table : ∀ i, R.tableAt i = (C.tables[i.toNat]?).map fun t => ⟨t.elem, t.is64, t.shared⟩
  memory : ∀ i, R.memoryAt i = C.mems[i.toNat]?
  tag : ∀ i, R.tagAt i = (C.tags[i.toNat]?).map fun t => ⟨t.1, t.2⟩
  global : ∀ i, R.globalAt i = (C.globals[i.toNat]?).map fun g => ⟨g.content, g.mutable, g.shared⟩
  subType : ∀ i, R.subTypeAt i = C.type i
  subTypeId : ∀ c, R.subTypeAtId c = C.defs c
  funcId : ∀ i, R.typeIdOfFunction i = (C.funcs[i.toNat]?).bind fun t => C.types[t.toNat]?
  funcIdx : ∀ i, R.typeIndexOfFunction i = C.funcs[i.toNat]?
  elem : ∀ i, R.elementTypeAt i = C.elems[i.toNat]?
  sub : ∀ a b, R.isSubtype a b = true ↔ ValSub C.decls a b
  shared : ∀ r, R.isShared r = C.sharedHeap r.heap
  heap : ∀ h h', R.checkHeapType h = .ok h' ↔ C.HeapTy h h'
  top : ∀ h, HeapIn C.decls h → (∃ s a, R.topType h = .abs s a) ∧
    HeapSub C.decls h (R.topType h) ∧
    ∀ h', HeapSub C.decls h h' → HeapSub C.decls h' (R.topType h)
  data : ∀ i, (∃ n, R.dataCount = some n ∧ i < n) ↔ i.toNat < C.datas
  refs : ∀ i, R.isFunctionReferenced i = true ↔ i ∈ C.refs

/-- Types of the module exist, have small identifiers, and supertypes are declared properly. -/
structure CtxOk (C : Ctx) : Prop where
  decls : DeclsOk C.decls
  types : ∀ id ∈ C.types, (C.defs id).isSome ∧ id < 2 ^ 20

/-- All features but custom descriptors. -/
def fullFeatures : Features where
  floats := true
  multiValue := true
  saturatingFloatToInt := true
  signExtension := true
  referenceTypes := true
  bulkMemory := true
  bulkMemoryOpt := true
  simd := true
  relaxedSimd := true
  threads := true
  sharedEverythingThreads := true
  tailCall := true
  exceptions := true
  functionReferences := true
  memoryControl := true
  gc := true
  gcTypes := true
  legacyExceptions := true
  stackSwitching := true
  wideArithmetic := true
  customDescriptors := false
  otherSlow := true

/-! ## States -/

/-- Everything but the operands of the innermost block. -/
structure Base where
  locals : Locals
  inits : LocalInits
  fr : Frame
  frs : List Frame
  low : List MT
  shared : Bool
  hh : fr.height = low.length

def st (B : Base) (cur : List MT) : St :=
  ⟨B.locals, B.inits, B.fr :: B.frs, cur ++ B.low, B.shared, none⟩

/-- A block type in a frame stands for this function type. -/
def BTIs (F : Fn) : BT → List V → List V → Prop
  | .empty, ps, rs => ps = [] ∧ rs = []
  | .type t, ps, rs => ps = [] ∧ rs = [t]
  | .func i, ps, rs => F.Func i ps rs

/-- A frame has this label. -/
def FrameIs (F : Fn) (fr : Frame) (l : Label) : Prop :=
  ∃ ps rs, BTIs F fr.blockType ps rs ∧ l.types = (if fr.kind = .loop then ps else rs) ∧
    (l.isCatch = true ↔ fr.kind = .legacyCatch ∨ fr.kind = .legacyCatchAll)

structure Sit (E : Env) (F : Fn) (B : Base) : Prop where
  faith : Faithful E.R F.C
  ctx : CtxOk F.C
  full : E.f = fullFeatures
  shared : B.shared = F.shared
  labels : List.Forall₂ (FrameIs F) (B.fr :: B.frs) F.labels
  results : ∃ fr ps, (B.fr :: B.frs).getLast? = some fr ∧ BTIs F fr.blockType ps F.results

/-- The computation succeeds and ends in this state. -/
def Run {α : Type} (B : Base) (m : M α) (cur : List MT) (x : α) (S : St) : Prop :=
  m (st B cur) = (.ok x, S)

/-- The computation succeeds and changes the operands of the innermost block. -/
scoped notation:max "Ok " B:max m:max cur:max x:max cur':max => Run B m cur x (st B cur')

/-- When the computation succeeds, it has only changed the operands of the innermost block. -/
class Cur {α : Type} (m : M α) : Prop where
  spec : ∀ B cur x S, m (st B cur) = (.ok x, S) → ∃ cur', S = st B cur'

theorem st_inj {B : Base} {c c' : List MT} : st B c = st B c' ↔ c = c' := by
  simp [st]

variable {α β : Type}

theorem ok_bind {B : Base} {m : M α} {k : α → M β} [hm : Cur m] {c : List MT} {y : β} {S' : St} :
    Run B (m >>= k) c y S' ↔ ∃ x c1, Ok B m c x c1 ∧ Run B (k x) c1 y S' := by
  constructor
  · intro h
    obtain ⟨x, S, h1, h2⟩ := bind_eq_ok h
    obtain ⟨c1, rfl⟩ := hm.spec _ _ _ _ h1
    exact ⟨x, c1, h1, h2⟩
  · rintro ⟨x, c1, h1, h2⟩
    exact (bind_ok _ h1).trans h2

theorem ok_bindU {B : Base} {m : M Unit} {k : Unit → M β} [hm : Cur m] {c : List MT} {y : β} {S' : St} :
    Run B (m >>= k) c y S' ↔ ∃ c1, Ok B m c () c1 ∧ Run B (k ()) c1 y S' := by
  rw [ok_bind]
  constructor
  · rintro ⟨_, h⟩; exact h
  · intro h; exact ⟨(), h⟩

/-- The same for a computation that changes nothing. -/
theorem ok_pure {B : Base} {x y : α} {c c' : List MT} :
    Ok B (pure x) c y c' ↔ y = x ∧ c' = c := by
  show ((Except.ok x : Except Fail α), st B c) = (.ok y, st B c') ↔ _
  rw [Prod.mk.injEq, st_inj]
  exact ⟨fun ⟨h1, h2⟩ => ⟨(Except.ok.inj h1).symm, h2.symm⟩, fun ⟨h1, h2⟩ => ⟨by rw [h1], h2.symm⟩⟩

theorem ok_fail {B : Base} {e : Fail} {y : α} {c c' : List MT} :
    Ok B (fail e) c y c' ↔ False :=
  ⟨fun h => (by
    have h' : (Except.error e : Except Fail α) = .ok y := congrArg Prod.fst h
    cases h'), False.elim⟩

theorem ok_require {B : Base} {b : Bool} {u : Unit} {c c' : List MT} :
    Ok B (require b) c u c' ↔ b = true ∧ c' = c := by
  cases b with
  | true => rw [require, if_pos rfl, ok_pure]; simp
  | false => rw [require, if_neg (by decide), ok_fail]; simp

theorem ok_orError {B : Base} {o : Option α} {y : α} {c c' : List MT} :
    Ok B (orError o) c y c' ↔ o = some y ∧ c' = c := by
  cases o with
  | some a => rw [orError, ok_pure]; simp [eq_comm]
  | none => rw [orError, ok_fail]; simp

theorem ok_orPanic {B : Base} {o : Option α} {y : α} {c c' : List MT} :
    Ok B (orPanic o) c y c' ↔ o = some y ∧ c' = c := by
  cases o with
  | some a => rw [orPanic, ok_pure]; simp [eq_comm]
  | none => rw [orPanic, ok_fail]; simp

theorem ok_lift {B : Base} {o : Except Fail α} {y : α} {c c' : List MT} :
    Ok B (lift o) c y c' ↔ o = .ok y ∧ c' = c := by
  cases o with
  | ok a => rw [lift, ok_pure]; simp [eq_comm]
  | error e => rw [lift, ok_fail]; simp

theorem ok_pushMT {B : Base} {t : MT} {u : Unit} {c c' : List MT} :
    Ok B (pushMT t) c u c' ↔ c' = t :: c := by
  show ((Except.ok () : Except Fail Unit), st B (t :: c)) = (.ok u, st B c') ↔ _
  rw [Prod.mk.injEq, st_inj]
  exact ⟨fun h => h.2.symm, fun h => ⟨rfl, h.symm⟩⟩

theorem ok_push {B : Base} {t : Val} {u : Unit} {c c' : List MT} :
    Ok B (push t) c u c' ↔ c' = .known t :: c := ok_pushMT

theorem ok_pushRef {B : Base} {t : Ref} {u : Unit} {c c' : List MT} :
    Ok B (pushRef t) c u c' ↔ c' = .known (.ref t) :: c := ok_pushMT

/-! ### Computations that only change the operands of the innermost block -/

/-- A computation that does not change the state. -/
theorem Cur.const {m : M α} (h : ∀ S, (m S).2 = S) : Cur m where
  spec B c x S hm := ⟨c, by have := h (st B c); rw [hm] at this; exact this⟩

instance (a : α) : Cur (pure a : M α) := .const fun _ => rfl
instance (e : Fail) : Cur (fail e : M α) := .const fun _ => rfl
instance (b : Bool) : Cur (require b) := .const fun _ => by cases b <;> rfl
instance (o : Option α) : Cur (orError o) := .const fun _ => by cases o <;> rfl
instance (o : Option α) : Cur (orPanic o) := .const fun _ => by cases o <;> rfl
instance (o : Except Fail α) : Cur (lift o) := .const fun _ => by cases o <;> rfl
instance : Cur getS := .const fun _ => rfl
instance (t : MT) : Cur (pushMT t) where
  spec B c x S h := ⟨t :: c, (congrArg Prod.snd h).symm⟩
instance (t : Val) : Cur (push t) := inferInstanceAs (Cur (pushMT _))
instance (t : Ref) : Cur (pushRef t) := inferInstanceAs (Cur (pushMT _))

instance Cur.bind (m : M α) (k : α → M β) [hm : Cur m] [hk : ∀ a, Cur (k a)] : Cur (m >>= k) where
  spec B c x S h := by
    obtain ⟨y, S1, h1, h2⟩ := bind_eq_ok h
    obtain ⟨c1, rfl⟩ := hm.spec _ _ _ _ h1
    exact (hk y).spec _ _ _ _ h2

instance Cur.map (f : α → β) (m : M α) [Cur m] : Cur (f <$> m) :=
  inferInstanceAs (Cur (m >>= fun a => Pure.pure (f a)))

instance Cur.ite (c : Prop) [Decidable c] (a b : M α) [Cur a] [Cur b] :
    Cur (if c then a else b) := by split <;> infer_instance

theorem Cur.each' {g : α → M Unit} (h : ∀ a, Cur (g a)) : ∀ xs, Cur (each g xs)
  | [] => inferInstanceAs (Cur (Pure.pure ()))
  | x :: xs => by
    have := Cur.each' h xs
    exact inferInstanceAs (Cur (do g x; Op.each g xs))

instance (g : α → M Unit) [h : ∀ a, Cur (g a)] (xs : List α) : Cur (each g xs) := Cur.each' h xs

macro "cur" : tactic =>
  `(tactic| repeat' (first | infer_instance | refine @Cur.bind _ _ _ _ ?_ ?_ | intro _ | split))

/-! ### Popping -/

/-- Popping, without an expected type or with one. -/
theorem pop_st {E : Env} (hr : ∀ t, E.R.isSubtype t t = true) (x : Option Val) (B : Base)
    (c : List MT) : pop E x (st B c) = match c with
      | [] => if B.fr.unreachable then (.ok .bottom, st B []) else (.error .error, st B [])
      | m :: c => (if checkPopped E x m then .ok m else .error .error, st B c) := by
  obtain ⟨locals, inits, fr, frs, low, shared, hh⟩ := B
  have hpre : ∀ (l : List MT), l.head?.toList ++ l.tail = l := by intro l; cases l <;> rfl
  cases c with
  | nil =>
    have hfast : popFast x (st ⟨locals, inits, fr, frs, low, shared, hh⟩ []) = none := by
      unfold popFast st
      dsimp only [List.nil_append]
      split
      · split
        · rw [if_neg]
          rw [hh]
          simp
        · rfl
      · rfl
    unfold pop
    rw [hfast]
    dsimp only
    unfold popSlow st
    dsimp only [List.nil_append]
    rw [hpre]
    simp only [hh, true_and]
    cases fr.unreachable <;> rfl
  | cons m c =>
    dsimp only
    cases hfast : popFast x (st ⟨locals, inits, fr, frs, low, shared, hh⟩ (m :: c)) with
    | some p =>
      unfold popFast st at hfast
      dsimp only [List.cons_append] at hfast
      split at hfast
      · next t ops heq =>
          cases heq
          split at hfast
          · next ht =>
              split at hfast
              · cases hfast
                unfold pop
                have : popFast x (st ⟨locals, inits, fr, frs, low, shared, hh⟩ (.known t :: c)) =
                    some (t, c ++ low) := by
                  unfold popFast st
                  dsimp only [List.cons_append]
                  rw [if_pos ht, if_pos (by simp only [List.length_append]; omega)]
                rw [this, ← ht]
                have hc : checkPopped E (some t) (.known t) = true := hr t
                simp only [hc, if_true]
                rfl
              · cases hfast
          · cases hfast
      · cases hfast
    | none =>
      unfold pop
      rw [hfast]
      dsimp only
      unfold popSlow st
      dsimp only [List.cons_append, List.head?_cons, List.tail_cons, Option.toList]
      have hl : ¬ (m :: (c ++ low)).length = fr.height := by
        simp only [List.length_cons, List.length_append]; omega
      simp only [List.nil_append, List.cons_append, hl, false_and, if_false]
      rfl

/-- The type of an operand is below the expected one. -/
def Chk (C : Ctx) (t : V) : MT → Prop
  | .bottom => True
  | .unknownRef none => ∃ r, t = .ref r
  | .unknownRef (some h) => ∃ r, t = .ref r ∧
      HeapSub C.decls (.abs (C.sharedHeap r.heap) h) r.heap
  | .known t' => ValSub C.decls t' t

/-- Popping an operand of a type. -/
def Pop (C : Ctx) (u : Bool) (t : V) : List MT → List MT → Prop
  | [], c' => u = true ∧ c' = []
  | m :: c, c' => Chk C t m ∧ c' = c

/-- Popping operands of these types, the first one first. -/
def Pops (C : Ctx) (u : Bool) : List V → List MT → List MT → Prop
  | [], c, c' => c' = c
  | t :: ts, c, c' => ∃ c1, Pop C u t c c1 ∧ Pops C u ts c1 c'

/-- The operands after these have been pushed. -/
def pushed (ts : List V) (c : List MT) : List MT := (ts.map MT.known).reverse ++ c

/-- Popping operands of these types, the first one first, and pushing results. -/
def Exec (C : Ctx) (u : Bool) : List V → List V → List MT → List MT → Prop
  | [], outs, c, c' => c' = pushed outs c
  | t :: ts, outs, c, c' => ∃ c1, Pop C u t c c1 ∧ Exec C u ts outs c1 c'

/-- The effect of an operator that has such a type. -/
def HasTy (C : Ctx) (u : Bool) (P : List V → List V → Prop) (c c' : List MT) : Prop :=
  ∃ ins outs, P ins outs ∧ Exec C u ins.reverse outs c c'

theorem valSub_ref {D : Decls} {a : Ref} {t : V} (h : ValSub D (.ref a) t) :
    ∃ r, t = .ref r ∧ RefSub D a r := by
  cases h with
  | refl => exact ⟨a, rfl, ⟨fun h => h, .refl⟩⟩
  | ref h => exact ⟨_, rfl, h⟩

theorem valSub_ref_iff {D : Decls} {a b : Ref} : ValSub D (.ref a) (.ref b) ↔ RefSub D a b := by
  constructor
  · intro h
    obtain ⟨r, hr, h⟩ := valSub_ref h
    cases hr
    exact h
  · exact .ref

theorem valSub_of_ref {D : Decls} {a : Ref} {t : V} (h : ValSub D t (.ref a)) :
    ∃ r, t = .ref r ∧ RefSub D r a := by
  cases h with
  | refl => exact ⟨a, rfl, ⟨fun h => h, .refl⟩⟩
  | ref h => exact ⟨_, rfl, h⟩

theorem Faithful.refl {R : Resources} {C : Ctx} (h : Faithful R C) (t : V) :
    R.isSubtype t t = true := (h.sub t t).2 .refl

theorem chk_iff {E : Env} {C : Ctx} (h : Faithful E.R C) (t : V) (m : MT) :
    checkPopped E (some t) m = true ↔ Chk C t m := by
  cases m with
  | bottom => simp [checkPopped, Chk]
  | unknownRef o =>
    cases o with
    | none => cases t <;> simp [checkPopped, Chk]
    | some a =>
      cases t with
      | ref r =>
        simp only [checkPopped, Chk, h.sub, h.shared, valSub_ref_iff, RefSub]
        simp
      | _ => simp [checkPopped, Chk]
  | known t' => simp [checkPopped, Chk, h.sub]

variable {E : Env} {F : Fn} {B : Base}

theorem ok_pop (h : Sit E F B) {x : Option Val} {c c' : List MT} {m : MT} :
    Ok B (pop E x) c m c' ↔
      (c = [] ∧ B.fr.unreachable = true ∧ m = .bottom ∧ c' = []) ∨
      (c = m :: c' ∧ ∀ t, x = some t → Chk F.C t m) := by
  unfold Run
  rw [pop_st h.faith.refl]
  cases c with
  | nil =>
    dsimp only
    cases B.fr.unreachable
    · simp
    · simp [st_inj, eq_comm]
  | cons m' c =>
    dsimp only
    have hx : (checkPopped E x m' = true) ↔ ∀ t, x = some t → Chk F.C t m' := by
      cases x with
      | none => simp [checkPopped]
      | some t => simp [chk_iff h.faith]
    constructor
    · intro heq
      by_cases hc : checkPopped E x m' = true
      · rw [if_pos hc, Prod.mk.injEq, st_inj] at heq
        obtain ⟨h1, rfl⟩ := heq
        cases h1
        exact .inr ⟨rfl, hx.1 hc⟩
      · rw [if_neg hc, Prod.mk.injEq] at heq
        cases heq.1
    · rintro (⟨h, _⟩ | ⟨heq, hc⟩)
      · cases h
      · cases heq
        rw [if_pos (hx.2 hc)]

end Verif.Op.View
