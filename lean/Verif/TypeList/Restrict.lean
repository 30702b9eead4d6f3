import Verif.TypeList.AcceptLemmas
/-! # Subtyping among the first types of a list -/
namespace Verif.TypeList
open Verif.Types
open Spec

/-- The same declarations below `N`. -/
def Cut (D D' : Decls) (N : Nat) : Prop :=
  ∀ i, i < N → D'.info i = D.info i ∧ D'.super i = D.super i

variable {D D' : Decls} {N : Nat}

theorem chain_cut (hD : DeclsOk D) (hc : Cut D D' N) {i j : Nat} (h : Chain D i j) (hi : i < N) :
    Chain D' i j := by
  induction h using Relation.ReflTransGen.head_induction_on with
  | refl => exact .refl
  | @head a b hs _ ih =>
    have := (hD a b hs).1
    exact .head ((hc a hi).2.trans hs) (ih (by omega))

theorem heapSub_cut (hD : DeclsOk D) (hc : Cut D D' N) {a b : Heap Nat}
    (ha : ∀ i ∈ a.refs, i < N ∧ (D.info i).isSome) (hb : ∀ i ∈ b.refs, i < N)
    (h : HeapSub D a b) : HeapSub D' a b := by
  have h := Alg.complete hD h
  refine Alg.sound (fun i hi => ?_) ?_
  · rw [(hc i (ha i hi).1).1]; exact (ha i hi).2
  · cases a with
    | abs s a =>
      cases b with
      | abs s' b => exact h
      | concrete j | exact j =>
        obtain ⟨k, h, e⟩ := h
        exact ⟨k, (hc j (hb j (by simp [Heap.refs]))).1.trans h, e⟩
    | concrete i =>
      have hi := ha i (by simp [Heap.refs])
      cases b with
      | abs s b =>
        obtain ⟨k, h, e⟩ := h
        exact ⟨k, (hc i hi.1).1.trans h, e⟩
      | concrete j => exact chain_cut hD hc h hi.1
      | exact j => exact h.elim
    | exact i =>
      have hi := ha i (by simp [Heap.refs])
      cases b with
      | abs s b =>
        obtain ⟨k, h, e⟩ := h
        exact ⟨k, (hc i hi.1).1.trans h, e⟩
      | concrete j => exact chain_cut hD hc h hi.1
      | exact j => exact h

theorem valSub_cut (hD : DeclsOk D) (hc : Cut D D' N) {a b : Val Nat}
    (ha : ∀ i ∈ a.refs, i < N ∧ (D.info i).isSome) (hb : ∀ i ∈ b.refs, i < N)
    (h : ValSub D a b) : ValSub D' a b := by
  cases h with
  | refl => exact .refl
  | ref hr => exact .ref ⟨hr.1, heapSub_cut hD hc ha hb hr.2⟩

theorem storageSub_cut (hD : DeclsOk D) (hc : Cut D D' N) {a b : Storage Nat}
    (ha : ∀ i ∈ a.refs, i < N ∧ (D.info i).isSome) (hb : ∀ i ∈ b.refs, i < N)
    (h : StorageSub D a b) : StorageSub D' a b := by
  cases h with
  | i8 => exact .i8
  | i16 => exact .i16
  | val hv => exact .val (valSub_cut hD hc ha hb hv)

theorem fieldSub_cut (hD : DeclsOk D) (hc : Cut D D' N) {a b : Field Nat}
    (ha : ∀ i ∈ a.refs, i < N ∧ (D.info i).isSome) (hb : ∀ i ∈ b.refs, i < N ∧ (D.info i).isSome)
    (h : FieldSub D a b) : FieldSub D' a b := by
  cases h with
  | const h1 => exact .const (storageSub_cut hD hc ha (fun i hi => (hb i hi).1) h1)
  | var h1 h2 =>
    exact .var (storageSub_cut hD hc ha (fun i hi => (hb i hi).1) h1)
      (storageSub_cut hD hc hb (fun i hi => (ha i hi).1) h2)

theorem forall₂_cut {α : Type} {R R' : α → α → Prop} {refs : α → List Nat} {P Q : Nat → Prop}
    (hR : ∀ a b, (∀ i ∈ refs a, P i) → (∀ i ∈ refs b, Q i) → R a b → R' a b) :
    ∀ {l l' : List α}, (∀ i ∈ l.flatMap refs, P i) → (∀ i ∈ l'.flatMap refs, Q i) →
      List.Forall₂ R l l' → List.Forall₂ R' l l' := by
  intro l l' hl hl' h
  induction h with
  | nil => exact .nil
  | @cons a b l l' h1 _ ih =>
    simp only [List.flatMap_cons, List.mem_append] at hl hl'
    exact .cons (hR a b (fun i hi => hl i (.inl hi)) (fun i hi => hl' i (.inl hi)) h1)
      (ih (fun i hi => hl i (.inr hi)) fun i hi => hl' i (.inr hi))

theorem compSub_cut (hD : DeclsOk D) (hc : Cut D D' N) {a b : Comp Nat}
    (ha : ∀ i ∈ a.refs, i < N ∧ (D.info i).isSome) (hb : ∀ i ∈ b.refs, i < N ∧ (D.info i).isSome)
    (h : CompSub D a b) : CompSub D' a b := by
  cases h with
  | func h1 h2 =>
    simp only [Comp.refs, List.mem_append] at ha hb
    exact .func
      (forall₂_cut (refs := Val.refs) (fun x y hx hy h => valSub_cut hD hc hy (fun i hi => (hx i hi).1) h)
        (fun i hi => ha i (.inl hi)) (fun i hi => hb i (.inl hi)) h1)
      (forall₂_cut (refs := Val.refs) (fun x y hx hy h => valSub_cut hD hc hx (fun i hi => (hy i hi).1) h)
        (fun i hi => ha i (.inr hi)) (fun i hi => hb i (.inr hi)) h2)
  | array h1 => exact .array (fieldSub_cut hD hc ha hb h1)
  | struct h1 =>
    simp only [Comp.refs, List.flatMap_append, List.mem_append] at ha hb
    exact .struct (forall₂_cut (refs := Field.refs) (fun x y => fieldSub_cut hD hc)
      (fun i hi => ha i (.inl hi)) hb h1)
  | cont h1 =>
    exact .cont (heapSub_cut hD hc ha (fun i hi => (hb i hi).1) h1)

theorem valShared_cut (hc : Cut D D' N) {v : Val Nat} (hv : ∀ i ∈ v.refs, i < N)
    (h : valShared D v) : valShared D' v := by
  cases v with
  | ref r =>
    obtain ⟨n, x⟩ := r
    cases x with
    | abs s a => exact h
    | concrete i | exact i =>
      have := (hc i (hv i (by simp [Val.refs, Heap.refs]))).1
      show (D'.info i).map _ = _
      rw [this]
      exact h
  | _ => trivial

theorem storageShared_cut (hc : Cut D D' N) {v : Storage Nat} (hv : ∀ i ∈ v.refs, i < N)
    (h : storageShared D v) : storageShared D' v := by
  cases v with
  | val v => exact valShared_cut hc hv h
  | _ => trivial

theorem compShared_cut (hc : Cut D D' N) {c : Comp Nat} (hv : ∀ i ∈ c.refs, i < N)
    (h : compShared D c) : compShared D' c := by
  cases c with
  | func ps rs =>
    simp only [Comp.refs, List.mem_append, List.mem_flatMap] at hv
    exact ⟨fun p hp => valShared_cut hc (fun i hi => hv i (.inl ⟨p, hp, hi⟩)) (h.1 p hp),
      fun p hp => valShared_cut hc (fun i hi => hv i (.inr ⟨p, hp, hi⟩)) (h.2 p hp)⟩
  | array f => exact storageShared_cut hc hv h
  | struct fs =>
    simp only [Comp.refs, List.mem_flatMap] at hv
    exact fun p hp => storageShared_cut hc (fun i hi => hv i ⟨p, hp, hi⟩) (h p hp)
  | cont i => trivial

end Verif.TypeList
