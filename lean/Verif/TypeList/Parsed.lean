import Verif.TypeList.Step
import Verif.Types.Yields
/-! # Parsed groups have sources -/
namespace Verif.TypeList
open Verif.Types Verif.Reader
open Spec (SubT Comp Heap Ref Val Storage Field)

def Below (l : List Nat) : Prop := ∀ r ∈ l, r < 2 ^ 20

theorem modIdx_toNat (i : BitVec 32) : modIdx i.toNat = .module i := by
  simp [modIdx]

theorem src_heap {e : Enc.HeapType} (hf : e.denote.Fits) :
    ∃ x : Heap Nat, toHeap (x.map modIdx) = e.denote ∧ Below x.refs := by
  cases e with
  | abstract s t => exact ⟨.abs s t, rfl, by simp [Heap.refs, Below]⟩
  | concrete i =>
    exact ⟨.concrete i.toNat, by simp [Heap.map, toHeap, modIdx_toNat, Enc.HeapType.denote],
      by
      have : i.toNat < 2 ^ 20 := hf
      simpa [Heap.refs, Below] using this⟩
  | exact i =>
    exact ⟨.exact i.toNat, by simp [Heap.map, toHeap, modIdx_toNat, Enc.HeapType.denote],
      by
      have : i.toNat < 2 ^ 20 := hf
      simpa [Heap.refs, Below] using this⟩

theorem src_val {v : ValType} {e : Enc.ValType} (h : v.Is e) (hf : e.Fits) :
    ∃ x : Val Nat, DVal v (x.map modIdx) ∧ Below x.refs := by
  cases v <;> cases e <;> simp only [ValType.Is] at h
  · exact ⟨.i32, trivial, by simp [Val.refs, Below]⟩
  · exact ⟨.i64, trivial, by simp [Val.refs, Below]⟩
  · exact ⟨.f32, trivial, by simp [Val.refs, Below]⟩
  · exact ⟨.f64, trivial, by simp [Val.refs, Below]⟩
  · exact ⟨.v128, trivial, by simp [Val.refs, Below]⟩
  · rename_i r e
    obtain ⟨x, hx, hb⟩ := src_heap (e := e.heapType) hf
    refine ⟨.ref ⟨e.nullable, x⟩, ?_, hb⟩
    show RefType.new e.nullable (toHeap (x.map modIdx)) = some r
    rw [hx]; exact h

theorem src_storage {v : StorageType} {e : Enc.StorageType} (h : v.Is e) (hf : e.Fits) :
    ∃ x : Storage Nat, DStorage v (x.map modIdx) ∧ Below x.refs := by
  cases v <;> cases e <;> simp only [StorageType.Is] at h
  · exact ⟨.i8, trivial, by simp [Storage.refs, Below]⟩
  · exact ⟨.i16, trivial, by simp [Storage.refs, Below]⟩
  · obtain ⟨x, hx, hb⟩ := src_val h hf
    exact ⟨.val x, hx, hb⟩

theorem src_field {v : FieldType} {e : Enc.FieldType} (h : v.Is e) (hf : e.elementType.Fits) :
    ∃ x : Field Nat, DField v (x.map modIdx) ∧ Below x.refs := by
  obtain ⟨x, hx, hb⟩ := src_storage h.1 hf
  exact ⟨⟨v.mutable, x⟩, ⟨rfl, hx⟩, hb⟩

theorem src_list {α β γ : Type} {R : α → β → Prop} {F : β → Prop} {D : α → γ → Prop}
    {refs : γ → List Nat} (hR : ∀ a b, R a b → F b → ∃ x, D a x ∧ Below (refs x))
    {l : List α} {m : List β} (h : List.Forall₂ R l m) (hf : ∀ b ∈ m, F b) :
    ∃ xs, List.Forall₂ D l xs ∧ Below (xs.flatMap refs) := by
  induction h with
  | nil => exact ⟨[], .nil, by simp [Below]⟩
  | cons h1 _ ih =>
    obtain ⟨x, hx, hb⟩ := hR _ _ h1 (hf _ (by simp))
    obtain ⟨xs, hxs, hbs⟩ := ih fun b hb => hf b (by simp [hb])
    refine ⟨x :: xs, .cons hx hxs, ?_⟩
    intro r hr
    rw [List.flatMap_cons, List.mem_append] at hr
    exact hr.elim (hb r) (hbs r)

theorem src_inner {v : CompositeInnerType} {e : Enc.CompositeInnerType} (h : v.Is e)
    (hf : e.Fits) : ∃ x : Comp Nat, DComp v (x.map modIdx) ∧ Below x.refs := by
  cases v <;> cases e <;> simp only [CompositeInnerType.Is] at h
  · rename_i v e
    obtain ⟨h1, h2, h3⟩ := h
    obtain ⟨_, _, f1, f2⟩ := hf
    obtain ⟨ps, hp, bp⟩ := src_list (D := fun a (x : Val Nat) => DVal a (x.map modIdx))
      (refs := Val.refs) (F := Enc.ValType.Fits) (fun _ _ => src_val) h1 f1
    obtain ⟨rs, hr, br⟩ := src_list (D := fun a (x : Val Nat) => DVal a (x.map modIdx))
      (refs := Val.refs) (F := Enc.ValType.Fits) (fun _ _ => src_val) h2 f2
    refine ⟨.func ps rs, ⟨?_, ?_⟩, ?_⟩
    · have e : v.paramsResults = v.params ++ v.results := by
        simp [FuncType.params, FuncType.results]
      rw [e]
      refine List.rel_append ?_ ?_
      · rw [List.forall₂_map_right_iff]; exact hp
      · rw [List.forall₂_map_right_iff]; exact hr
    · have := hp.length_eq
      simp only [FuncType.params, List.length_take] at this
      simp only [List.length_map]
      omega
    · intro r hr
      simp only [Comp.refs, List.mem_append] at hr
      exact hr.elim (bp r) (br r)
  · obtain ⟨x, hx, hb⟩ := src_field h hf
    exact ⟨.array x, hx, hb⟩
  · obtain ⟨xs, hx, hb⟩ := src_list (D := fun a (x : Field Nat) => DField a (x.map modIdx))
      (refs := Field.refs) (F := fun e : Enc.FieldType => e.elementType.Fits) (fun _ _ => src_field) h hf.2
    refine ⟨.struct xs, ?_, hb⟩
    simp only [Comp.map, DComp]
    rw [List.forall₂_map_right_iff]; exact hx
  · rename_i p i
    refine ⟨.cont i.toNat, ?_, by
      have : i.toNat < 2 ^ 20 := hf
      simpa [Comp.refs, Below] using this⟩
    simp only [Comp.map, DComp, modIdx_toNat]
    exact h

theorem src_opt {o : Option PackedIndex} {i : Option (BitVec 32)} (h : OptIs PackedIndex.Is o i)
    (hf : OptFits i) : OptIs DIdx o ((i.map BitVec.toNat).map modIdx) ∧
      Below (i.map BitVec.toNat).toList := by
  cases o <;> cases i <;> simp only [OptIs] at h
  · exact ⟨trivial, by simp [Below]⟩
  · rename_i p i
    refine ⟨?_, by simpa [Below, OptFits] using hf⟩
    simp only [Option.map_some, OptIs, modIdx_toNat]
    exact h

theorem src_sub {v : SubType} {e : Enc.SubType} (h : v.Is e) (hf : e.Fits) :
    ∃ x : SubT Nat, DSub v (x.map modIdx) ∧ Below x.refs := by
  obtain ⟨h1, h2, h3, h4, h5, h6⟩ := h
  obtain ⟨f1, f2, f3, f4⟩ := hf
  obtain ⟨a1, b1⟩ := src_opt h2 f1
  obtain ⟨a2, b2⟩ := src_opt h5 f3
  obtain ⟨a3, b3⟩ := src_opt h6 f2
  obtain ⟨c, a4, b4⟩ := src_inner h3 f4
  refine ⟨⟨e.isFinal, _, e.compositeType.shared, _, _, c⟩, ⟨h1, a1, h4, a2, a3, a4⟩, ?_⟩
  intro r hr
  simp only [SubT.refs, List.mem_append] at hr
  rcases hr with ((hr | hr) | hr) | hr
  · exact b1 r hr
  · exact b2 r hr
  · exact b3 r hr
  · exact b4 r hr

theorem src_group (r r' : Reader) (g : RecGroup) (h : readRecGroup r = .ok (g, r')) :
    ∃ xs, Src g xs := by
  have : ∃ xs, List.Forall₂ (fun (t : SubType) (x : SubT Nat) => DSub t (x.map modIdx)) g.types xs ∧
      Below (xs.flatMap SubT.refs) := by
    rcases yields_recGroup _ _ _ h with ⟨o, t, e, rfl, h1, h2⟩ | ⟨ts, es, rfl, h1, h2, h3⟩
    · obtain ⟨x, hx, hb⟩ := src_sub h1 h2
      exact ⟨[x], .cons hx .nil, by simpa using hb⟩
    · exact src_list (R := SubType.Is) (F := Enc.SubType.Fits) (fun _ _ => src_sub) h1 h3
  obtain ⟨xs, h1, h2⟩ := this
  exact ⟨xs, h1, fun x hx r hr => h2 r (List.mem_flatMap.2 ⟨x, hx, hr⟩)⟩

end Verif.TypeList
