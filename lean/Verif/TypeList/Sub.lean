import Verif.TypeList.Spec
/-! # The subtyping relation, decided

`Alg` is the relation the validator decides, in terms of the declarations; it is shown to be the
closure of the axioms. -/
namespace Verif.TypeList
open Verif.Types
open Spec

/-- Declared supertypes come earlier and agree in kind and sharedness. -/
def DeclsOk (D : Decls) : Prop :=
  ∀ i j, D.super i = some j → j < i ∧ ∃ p, D.info i = some p ∧ D.info j = some p

/-- One type is declared below another, in any number of steps. -/
def Chain (D : Decls) : Nat → Nat → Prop := Relation.ReflTransGen fun i j => D.super i = some j

/-- Is an abstract type above all types of a kind? -/
def below (k : Kind) (t : AbsHeap) : Bool := absIsSubtypeOf k.top t

/-- What the validator decides. -/
def Alg (D : Decls) : Heap Nat → Heap Nat → Prop
  | .abs s a, .abs s' b => s = s' ∧ absIsSubtypeOf a b = true
  | .concrete i, .abs s t | .exact i, .abs s t =>
    ∃ k, D.info i = some (s, k) ∧ below k t = true
  | .abs s t, .concrete j | .abs s t, .exact j => ∃ k, D.info j = some (s, k) ∧ t = k.bot
  | .concrete i, .concrete j | .exact i, .concrete j => Chain D i j
  | .exact i, .exact j => i = j
  | .concrete _, .exact _ => False

/-- The defined types mentioned exist. -/
def HeapIn (D : Decls) (h : Heap Nat) : Prop := ∀ i ∈ h.refs, (D.info i).isSome

theorem absIsSubtypeOf_iff (a b : AbsHeap) :
    absIsSubtypeOf a b = true ↔ Relation.ReflTransGen AbsStep a b := by
  constructor
  · cases a <;> cases b <;> intro h <;> first
      | exact .refl
      | exact absurd h (by decide)
      | exact .single (by constructor)
      | exact .tail (.single .i31_eq) .eq_any
      | exact .tail (.single .struct_eq) .eq_any
      | exact .tail (.single .array_eq) .eq_any
      | exact .tail (.single .none_i31) .i31_eq
      | exact .tail (.tail (.single .none_i31) .i31_eq) .eq_any
  · intro h
    induction h with
    | refl => cases a <;> rfl
    | tail _ hs ih =>
      clear * - hs ih
      revert ih
      cases hs <;> cases a <;> decide

theorem absSub_refl (a : AbsHeap) : absIsSubtypeOf a a = true := by cases a <;> rfl

theorem absSub_trans {a b c : AbsHeap} (h : absIsSubtypeOf a b = true)
    (h' : absIsSubtypeOf b c = true) : absIsSubtypeOf a c = true := by
  rw [absIsSubtypeOf_iff] at *
  exact h.trans h'

theorem absSub_antisymm {a b : AbsHeap} (h : absIsSubtypeOf a b = true)
    (h' : absIsSubtypeOf b a = true) : a = b := by
  cases a <;> cases b <;> first | rfl | exact absurd h (by decide) | exact absurd h' (by decide)

theorem bot_below (k : Kind) (t : AbsHeap) (h : absIsSubtypeOf t k.bot = true) : t = k.bot := by
  cases k <;> cases t <;> first | rfl | exact absurd h (by decide)

theorem bot_top (k : Kind) : absIsSubtypeOf k.bot k.top = true := by cases k <;> rfl

theorem not_below_bot (k k' : Kind) : below k k'.bot = false := by cases k <;> cases k' <;> rfl

theorem abs_heapSub {D : Decls} {s : Bool} {a b : AbsHeap} (h : absIsSubtypeOf a b = true) :
    HeapSub D (.abs s a) (.abs s b) := by
  rw [absIsSubtypeOf_iff] at h
  induction h with
  | refl => exact .refl
  | tail _ hs ih => exact .tail ih (.abs hs)

theorem chain_heapSub {D : Decls} {i j : Nat} (h : Chain D i j) :
    HeapSub D (.concrete i) (.concrete j) := by
  induction h with
  | refl => exact .refl
  | tail _ hs ih => exact .tail ih (.super hs)

/-- Sound, whatever the declarations are. -/
theorem Alg.sound {D : Decls} {a b : Heap Nat} (ha : HeapIn D a) (h : Alg D a b) :
    HeapSub D a b := by
  cases a with
  | abs s a =>
    cases b with
    | abs s' b => obtain ⟨rfl, h⟩ := h; exact abs_heapSub h
    | concrete j =>
      obtain ⟨k, h, rfl⟩ := h
      exact .tail (.single (.bot h)) (.exact h)
    | exact j =>
      obtain ⟨k, h, rfl⟩ := h
      exact .single (.bot h)
  | concrete i =>
    cases b with
    | abs s b =>
      obtain ⟨k, h, hb⟩ := h
      exact Relation.ReflTransGen.head (.top h) (abs_heapSub hb)
    | concrete j => exact chain_heapSub h
    | exact j => exact h.elim
  | exact i =>
    obtain ⟨⟨s', k'⟩, hi⟩ := Option.isSome_iff_exists.1 (ha i (by simp [Heap.refs]))
    refine ?_
    cases b with
    | abs s b =>
      obtain ⟨k, h, hb⟩ := h
      exact Relation.ReflTransGen.head (.exact h) (.head (.top h) (abs_heapSub hb))
    | concrete j => exact Relation.ReflTransGen.head (.exact hi) (chain_heapSub h)
    | exact j =>
      have h : i = j := h
      rw [h]; exact .refl

theorem Alg.refl (D : Decls) (a : Heap Nat) : Alg D a a := by
  cases a with
  | abs s a => exact ⟨rfl, absSub_refl a⟩
  | concrete i => exact (Relation.ReflTransGen.refl : Chain D i i)
  | exact i => exact (rfl : i = i)

theorem chain_info {D : Decls} (hD : DeclsOk D) {i j : Nat} (h : Chain D i j) :
    i = j ∨ ∃ p, D.info i = some p ∧ D.info j = some p := by
  induction h with
  | refl => exact .inl rfl
  | tail _ hs ih =>
    obtain ⟨_, p, h1, h2⟩ := hD _ _ hs
    rcases ih with rfl | ⟨q, h3, h4⟩
    · exact .inr ⟨p, h1, h2⟩
    · rw [h1] at h4; cases h4; exact .inr ⟨p, h3, h2⟩

theorem chain_info_eq {D : Decls} (hD : DeclsOk D) {i j : Nat} (h : Chain D i j) :
    D.info i = D.info j := by
  rcases chain_info hD h with rfl | ⟨p, h1, h2⟩
  · rfl
  · rw [h1, h2]

theorem chain_le {D : Decls} (hD : DeclsOk D) {i j : Nat} (h : Chain D i j) : j ≤ i := by
  induction h with
  | refl => exact Nat.le_refl _
  | tail _ hs ih => have := (hD _ _ hs).1; omega

theorem Alg.step {D : Decls} (hD : DeclsOk D) {a b c : Heap Nat} (hs : HeapStep D a b)
    (h : Alg D b c) : Alg D a c := by
  cases hs with
  | @abs s a b hab =>
    have hab := (absIsSubtypeOf_iff a b).2 (.single hab)
    cases c with
    | abs s' c => obtain ⟨rfl, h⟩ := h; exact ⟨rfl, absSub_trans hab h⟩
    | concrete j => obtain ⟨k, h, rfl⟩ := h; exact ⟨k, h, bot_below k a hab⟩
    | exact j => obtain ⟨k, h, rfl⟩ := h; exact ⟨k, h, bot_below k a hab⟩
  | @top i s k hi =>
    cases c with
    | abs s' c => obtain ⟨rfl, h⟩ := h; exact ⟨k, hi, h⟩
    | concrete j =>
      obtain ⟨k', h, hk⟩ := h
      have := not_below_bot k k'
      rw [← hk] at this
      simp [below, absSub_refl] at this
    | exact j =>
      obtain ⟨k', h, hk⟩ := h
      have := not_below_bot k k'
      rw [← hk] at this
      simp [below, absSub_refl] at this
  | @super i j hij =>
    obtain ⟨_, p, h1, h2⟩ := hD _ _ hij
    cases c with
    | abs s c =>
      obtain ⟨k, h, hb⟩ := h
      refine ⟨k, ?_, hb⟩
      rw [h1, ← h2, h]
    | concrete l => exact Relation.ReflTransGen.head hij h
    | exact l => exact h.elim
  | @exact i s k hi =>
    cases c with
    | abs s c => exact h
    | concrete l => exact h
    | exact l => exact h.elim
  | @bot i s k hi =>
    cases c with
    | abs s' c =>
      obtain ⟨k', h, hb⟩ := h
      rw [hi] at h; cases h
      exact ⟨rfl, absSub_trans (bot_top k) hb⟩
    | concrete j => exact ⟨k, by rw [← hi, chain_info_eq hD h], rfl⟩
    | exact j =>
      have h : i = j := h
      subst h; exact ⟨k, hi, rfl⟩

/-- Complete, when declared supertypes agree in kind. -/
theorem Alg.complete {D : Decls} (hD : DeclsOk D) {a b : Heap Nat} (h : HeapSub D a b) :
    Alg D a b := by
  induction h using Relation.ReflTransGen.head_induction_on with
  | refl => exact .refl D b
  | head hs _ ih => exact .step hD hs ih

theorem Alg.antisymm {D : Decls} (hD : DeclsOk D) {a b : Heap Nat} (h : Alg D a b)
    (h' : Alg D b a) : a = b := by
  cases a with
  | abs s a =>
    cases b with
    | abs s' b => obtain ⟨rfl, h⟩ := h; rw [absSub_antisymm h h'.2]
    | concrete j =>
      obtain ⟨k, h, rfl⟩ := h
      obtain ⟨k', h', hb⟩ := h'
      rw [not_below_bot] at hb; cases hb
    | exact j =>
      obtain ⟨k, h, rfl⟩ := h
      obtain ⟨k', h', hb⟩ := h'
      rw [not_below_bot] at hb; cases hb
  | concrete i =>
    cases b with
    | abs s b =>
      obtain ⟨k, h, rfl⟩ := h'
      obtain ⟨k', h', hb⟩ := h
      rw [not_below_bot] at hb; cases hb
    | concrete j =>
      have h1 := chain_le hD h
      have h2 := chain_le hD h'
      rw [Nat.le_antisymm h1 h2]
    | exact j => exact h.elim
  | exact i =>
    cases b with
    | abs s b =>
      obtain ⟨k, h, rfl⟩ := h'
      obtain ⟨k', h', hb⟩ := h
      rw [not_below_bot] at hb; cases hb
    | concrete j => exact h'.elim
    | exact j =>
      have h : i = j := h
      rw [h]

/-- More declarations make for more subtyping. -/
def DeclsLe (D D' : Decls) : Prop :=
  (∀ i p, D.info i = some p → D'.info i = some p) ∧
  (∀ i j, D.super i = some j → D'.super i = some j)

theorem HeapSub.mono {D D' : Decls} (h : DeclsLe D D') {a b : Heap Nat} (hs : HeapSub D a b) :
    HeapSub D' a b := by
  refine Relation.ReflTransGen.mono (p := HeapStep D') (fun x y hxy => ?_) a b hs
  cases hxy with
  | abs h => exact .abs h
  | top hi => exact .top (h.1 _ _ hi)
  | super hi => exact .super (h.2 _ _ hi)
  | exact hi => exact .exact (h.1 _ _ hi)
  | bot hi => exact .bot (h.1 _ _ hi)

theorem ValSub.mono {D D' : Decls} (h : DeclsLe D D') {a b : Val Nat} (hs : ValSub D a b) :
    ValSub D' a b := by
  cases hs with
  | refl => exact .refl
  | ref hr => exact .ref ⟨hr.1, HeapSub.mono h hr.2⟩

theorem StorageSub.mono {D D' : Decls} (h : DeclsLe D D') {a b : Storage Nat}
    (hs : StorageSub D a b) : StorageSub D' a b := by
  cases hs with
  | i8 => exact .i8
  | i16 => exact .i16
  | val hv => exact .val (ValSub.mono h hv)

theorem FieldSub.mono {D D' : Decls} (h : DeclsLe D D') {a b : Field Nat}
    (hs : FieldSub D a b) : FieldSub D' a b := by
  cases hs with
  | const h1 => exact .const (StorageSub.mono h h1)
  | var h1 h2 => exact .var (StorageSub.mono h h1) (StorageSub.mono h h2)

theorem CompSub.mono {D D' : Decls} (h : DeclsLe D D') {a b : Comp Nat}
    (hs : CompSub D a b) : CompSub D' a b := by
  cases hs with
  | func h1 h2 => exact .func (h1.imp fun _ _ => ValSub.mono h) (h2.imp fun _ _ => ValSub.mono h)
  | array h1 => exact .array (FieldSub.mono h h1)
  | struct h1 => exact .struct (h1.imp fun _ _ => FieldSub.mono h)
  | cont h1 => exact .cont (HeapSub.mono h h1)

/-! ## Composite subtyping is a preorder -/

theorem ValSub.trans {D : Decls} {a b c : Val Nat} (h : ValSub D a b) (h' : ValSub D b c) :
    ValSub D a c := by
  cases h with
  | refl => exact h'
  | ref h =>
    cases h' with
    | refl => exact .ref h
    | ref h' => exact .ref ⟨fun e => h'.1 (h.1 e), h.2.trans h'.2⟩

theorem StorageSub.trans {D : Decls} {a b c : Storage Nat} (h : StorageSub D a b)
    (h' : StorageSub D b c) : StorageSub D a c := by
  cases h with
  | i8 => exact h'
  | i16 => exact h'
  | val h => cases h' with | val h' => exact .val (ValSub.trans h h')

theorem FieldSub.trans {D : Decls} {a b c : Field Nat} (h : FieldSub D a b)
    (h' : FieldSub D b c) : FieldSub D a c := by
  cases h with
  | const h => cases h' with | const h' => exact .const (StorageSub.trans h h')
  | var h k => cases h' with
    | var h' k' => exact .var (StorageSub.trans h h') (StorageSub.trans k' k)

theorem forall₂_trans {α : Type} {R : α → α → Prop} (hR : ∀ a b c, R a b → R b c → R a c)
    {l m n : List α} (h : List.Forall₂ R l m) (h' : List.Forall₂ R m n) : List.Forall₂ R l n := by
  induction h generalizing n with
  | nil => exact h'
  | cons h1 _ ih => cases h' with | cons h2 h3 => exact .cons (hR _ _ _ h1 h2) (ih h3)

theorem CompSub.trans {D : Decls} {a b c : Comp Nat} (h : CompSub D a b)
    (h' : CompSub D b c) : CompSub D a c := by
  cases h with
  | func h1 h2 => cases h' with
    | func h3 h4 =>
      exact .func (forall₂_trans (R := fun p p' => ValSub D p' p) (fun _ _ _ h h' => ValSub.trans h' h) h1 h3)
        (forall₂_trans (R := ValSub D) (fun _ _ _ => ValSub.trans) h2 h4)
  | array h => cases h' with | array h' => exact .array (FieldSub.trans h h')
  | @struct fs extra fs' h =>
    generalize hx : Comp.struct fs' = x at h'
    cases h' with
    | func => cases hx
    | array => cases hx
    | cont => cases hx
    | @struct gs extra' gs' h' =>
      injection hx with hx
      subst hx
      have hl := h'.length_eq
      have h1 := List.forall₂_take gs.length h
      have hlen := h.length_eq
      rw [List.take_left] at h1
      rw [show fs ++ extra = fs.take gs.length ++ (fs.drop gs.length ++ extra) by
        rw [← List.append_assoc, List.take_append_drop]]
      exact .struct (forall₂_trans (R := FieldSub D) (fun _ _ _ => FieldSub.trans) h1 h')
  | cont h => cases h' with | cont h' => exact .cont (h.trans h')

theorem ValSub.refl' (D : Decls) (a : Val Nat) : ValSub D a a := .refl

theorem StorageSub.refl (D : Decls) (a : Storage Nat) : StorageSub D a a := by
  cases a with
  | i8 => exact .i8
  | i16 => exact .i16
  | val v => exact .val .refl

theorem FieldSub.refl (D : Decls) (a : Field Nat) : FieldSub D a a := by
  obtain ⟨m, s⟩ := a
  cases m with
  | true => exact .var (StorageSub.refl D s) (StorageSub.refl D s)
  | false => exact .const (StorageSub.refl D s)

theorem CompSub.refl (D : Decls) (a : Comp Nat) : CompSub D a a := by
  cases a with
  | func ps rs => exact .func (List.forall₂_same.2 fun _ _ => .refl) (List.forall₂_same.2 fun _ _ => .refl)
  | array f => exact .array (FieldSub.refl D f)
  | struct fs =>
    have := CompSub.struct (D := D) (extra := []) (List.forall₂_same.2 fun (f : Field Nat) (_ : f ∈ fs) => FieldSub.refl D f)
    simpa using this
  | cont i => exact .cont .refl

end Verif.TypeList
