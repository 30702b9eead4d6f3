import Verif.Valid.Model
import Verif.TypeList.Props
/-! What the list of types stands for is what the model of validation reads off it. -/
namespace Verif.Valid
open Verif.Types (AbsHeap HeapType UnpackedIndex PackedIndex RefType ValType StorageType FieldType
  CompositeInnerType SubType)
open Verif.TypeList (TypeList DIdx DRef DVal DStorage DField DComp DSub idx View toNat_small)
open Verif.Types (OptIs)
open Verif.TypeList.Spec (Heap Ref Val Storage Field Comp SubT)

theorem decIdx_of {p : PackedIndex} {i : Nat} (h : DIdx p (idx i)) (hi : i < 2 ^ 20) :
    decIdx p = i := by
  unfold decIdx
  rw [h.unpack]
  exact toNat_small hi

theorem decRef_of {t : RefType} {r : Ref Nat} (h : DRef t (r.map idx))
    (hr : ∀ i ∈ r.heap.refs, i < 2 ^ 20) : decRef t = r := by
  obtain ⟨h1, h2⟩ := h.view
  unfold decRef
  rw [h1, h2]
  obtain ⟨n, x⟩ := r
  cases x with
  | abs s a => rfl
  | concrete i =>
    show (⟨n, .concrete (BitVec.ofNat 32 i).toNat⟩ : Ref Nat) = _
    rw [toNat_small (hr i (by simp [Heap.refs]))]
  | exact i =>
    show (⟨n, .exact (BitVec.ofNat 32 i).toNat⟩ : Ref Nat) = _
    rw [toNat_small (hr i (by simp [Heap.refs]))]

theorem decVal_of {t : ValType} {v : Val Nat} (h : DVal t (v.map idx))
    (hr : ∀ i ∈ v.refs, i < 2 ^ 20) : decVal t = v := by
  cases t <;> cases v <;> simp only [Val.map, DVal] at h <;> try rfl
  exact congrArg Val.ref (decRef_of h hr)

theorem decStorage_of {t : StorageType} {v : Storage Nat} (h : DStorage t (v.map idx))
    (hr : ∀ i ∈ v.refs, i < 2 ^ 20) : decStorage t = v := by
  cases t <;> cases v <;> simp only [Storage.map, DStorage] at h <;> try rfl
  exact congrArg Storage.val (decVal_of h hr)

theorem decField_of {t : FieldType} {v : Field Nat} (h : DField t (v.map idx))
    (hr : ∀ i ∈ v.refs, i < 2 ^ 20) : decField t = v := by
  obtain ⟨h1, h2⟩ := h
  unfold decField
  rw [h1, decStorage_of h2 hr]
  rfl

theorem decOpt_of {o : Option PackedIndex} {x : Option Nat} (h : OptIs DIdx o (x.map idx))
    (hx : ∀ i ∈ x.toList, i < 2 ^ 20) : o.map decIdx = x := by
  cases o <;> cases x <;> simp only [Option.map, OptIs] at h <;> try rfl
  show some _ = _
  rw [decIdx_of h (hx _ (by simp))]

theorem map_of {α β γ : Type} {D : α → γ → Prop} {g : β → γ} {dec : α → β} {refs : β → List Nat}
    (hd : ∀ a b, D a (g b) → (∀ i ∈ refs b, i < 2 ^ 20) → dec a = b) :
    ∀ {l : List α} {m : List β}, List.Forall₂ D l (m.map g) →
      (∀ i ∈ m.flatMap refs, i < 2 ^ 20) → l.map dec = m
  | _, [], h, _ => by cases h; rfl
  | _, b :: m, h, hr => by
    cases h with
    | cons h1 h2 =>
      rw [List.map_cons, hd _ _ h1 fun i hi => hr i (by simp [hi]),
        map_of hd h2 fun i hi => hr i (by
          rw [List.flatMap_cons]
          exact List.mem_append_right _ hi)]

theorem decComp_of {t : CompositeInnerType} {x : Comp Nat} (h : DComp t (x.map idx))
    (hr : ∀ i ∈ x.refs, i < 2 ^ 20) : decComp t = x := by
  cases t <;> cases x <;> simp only [Comp.map, DComp] at h
  · rename_i f ps rs
    obtain ⟨h1, h2⟩ := h
    have h3 : f.paramsResults.map decVal = ps ++ rs :=
      map_of (D := DVal) (g := Val.map idx) (refs := Val.refs) (fun _ _ => decVal_of)
        (by rw [List.map_append]; exact h1) (by
          intro i hi
          rw [List.flatMap_append] at hi
          exact hr i hi)
    rw [List.length_map] at h2
    show Comp.func ((f.paramsResults.take f.lenParams).map decVal)
      ((f.paramsResults.drop f.lenParams).map decVal) = _
    rw [List.map_take, List.map_drop, h3, h2, List.take_left, List.drop_left]
  · exact congrArg Comp.array (decField_of h hr)
  · exact congrArg Comp.struct (map_of (D := DField) (g := Field.map idx) (refs := Field.refs)
      (fun _ _ => decField_of) h hr)
  · exact congrArg Comp.cont (decIdx_of h (hr _ (by simp [Comp.refs])))

theorem decSub_of {t : SubType} {x : SubT Nat} (h : DSub t (x.map idx))
    (hr : ∀ i ∈ x.refs, i < 2 ^ 20) : decSub t = x := by
  obtain ⟨h1, h2, h3, h4, h5, h6⟩ := h
  have e1 := decOpt_of (x := x.supertype) h2 fun i hi => hr i (by simp [SubT.refs] at hi ⊢; simp [hi])
  have e2 := decOpt_of (x := x.descriptor) h4 fun i hi => hr i (by simp [SubT.refs] at hi ⊢; simp [hi])
  have e3 := decOpt_of (x := x.describes) h5 fun i hi => hr i (by simp [SubT.refs] at hi ⊢; simp [hi])
  have e4 := decComp_of (x := x.comp) h6 fun i hi => hr i (by simp [SubT.refs, hi])
  unfold decSub
  rw [h1, e1, h3, e2, e3, e4]
  rfl

/-- There is only one list that the list of types stands for. -/
theorem listOf_of {T : TypeList} {L : List (SubT Nat)} (h : View T L) : listOf T = L := by
  obtain ⟨h1, h2⟩ := h
  unfold listOf
  have : ∀ {l : List SubType} {m : List (SubT Nat)},
      List.Forall₂ (fun t x => DSub t (x.map idx)) l m → (∀ x ∈ m, ∀ r ∈ x.refs, r < 2 ^ 20) →
      l.map decSub = m := by
    intro l m h
    induction h with
    | nil => intro _; rfl
    | cons h _ ih =>
      intro hr
      rw [List.map_cons, decSub_of h (hr _ (by simp)), ih fun x hx => hr x (by simp [hx])]
  exact this h1 fun x hx r hr => (h2 x hx r hr).1

end Verif.Valid
