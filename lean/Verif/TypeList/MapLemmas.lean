import Verif.TypeList.Spec
/-! # Replacing references: functoriality, congruence, injectivity -/
namespace Verif.TypeList.Spec
variable {ρ σ τ : Type}

/-! ## Composition -/

theorem Heap.map_map (g : ρ → σ) (h : σ → τ) (x : Heap ρ) :
    (x.map g).map h = x.map (fun r => h (g r)) := by cases x <;> rfl

theorem Ref.map_map (g : ρ → σ) (h : σ → τ) (x : Ref ρ) :
    (x.map g).map h = x.map (fun r => h (g r)) := by simp [Ref.map, Heap.map_map]

theorem Val.map_map (g : ρ → σ) (h : σ → τ) (x : Val ρ) :
    (x.map g).map h = x.map (fun r => h (g r)) := by cases x <;> simp [Val.map, Ref.map_map]

theorem Storage.map_map (g : ρ → σ) (h : σ → τ) (x : Storage ρ) :
    (x.map g).map h = x.map (fun r => h (g r)) := by
  cases x <;> simp [Storage.map, Val.map_map]

theorem Field.map_map (g : ρ → σ) (h : σ → τ) (x : Field ρ) :
    (x.map g).map h = x.map (fun r => h (g r)) := by simp [Field.map, Storage.map_map]

theorem Comp.map_map (g : ρ → σ) (h : σ → τ) (x : Comp ρ) :
    (x.map g).map h = x.map (fun r => h (g r)) := by
  cases x <;> simp [Comp.map, Field.map_map, Val.map_map]

theorem SubT.map_map (g : ρ → σ) (h : σ → τ) (x : SubT ρ) :
    (x.map g).map h = x.map (fun r => h (g r)) := by
  simp [SubT.map, Comp.map_map, Function.comp_def]

/-! ## References -/

theorem Heap.refs_map (g : ρ → σ) (x : Heap ρ) : (x.map g).refs = x.refs.map g := by
  cases x <;> rfl

theorem Val.refs_map (g : ρ → σ) (x : Val ρ) : (x.map g).refs = x.refs.map g := by
  cases x <;> simp [Val.map, Val.refs, Ref.map, Heap.refs_map]

theorem Storage.refs_map (g : ρ → σ) (x : Storage ρ) : (x.map g).refs = x.refs.map g := by
  cases x <;> simp [Storage.map, Storage.refs, Val.refs_map]

theorem Field.refs_map (g : ρ → σ) (x : Field ρ) : (x.map g).refs = x.refs.map g := by
  simp [Field.map, Field.refs, Storage.refs_map]

theorem flatMap_refs_map {α β : Type} (g : ρ → σ) (k : α → β) (ra : α → List ρ)
    (rb : β → List σ) (h : ∀ a, rb (k a) = (ra a).map g) (l : List α) :
    (l.map k).flatMap rb = (l.flatMap ra).map g := by
  induction l with
  | nil => rfl
  | cons a l ih => simp [h, ih]

theorem Comp.refs_map (g : ρ → σ) (x : Comp ρ) : (x.map g).refs = x.refs.map g := by
  cases x with
  | func ps rs =>
    simp only [Comp.map, Comp.refs, List.map_append]
    rw [flatMap_refs_map g _ _ _ (Val.refs_map g), flatMap_refs_map g _ _ _ (Val.refs_map g)]
  | array f => exact Field.refs_map g f
  | struct fs => exact flatMap_refs_map g _ _ _ (Field.refs_map g) fs
  | cont r => rfl

theorem SubT.refs_map (g : ρ → σ) (x : SubT ρ) : (x.map g).refs = x.refs.map g := by
  simp only [SubT.map, SubT.refs, Comp.refs_map, List.map_append]
  cases x.supertype <;> cases x.descriptor <;> cases x.describes <;> rfl

/-! ## Congruence -/

theorem Heap.map_congr {g h : ρ → σ} {x : Heap ρ} (e : ∀ r ∈ x.refs, g r = h r) :
    x.map g = x.map h := by
  cases x <;> simp_all [Heap.map, Heap.refs]

theorem Ref.map_congr {g h : ρ → σ} {x : Ref ρ} (e : ∀ r ∈ x.heap.refs, g r = h r) :
    x.map g = x.map h := by simp [Ref.map, Heap.map_congr e]

theorem Val.map_congr {g h : ρ → σ} {x : Val ρ} (e : ∀ r ∈ x.refs, g r = h r) :
    x.map g = x.map h := by
  cases x <;> simp only [Val.map]
  rw [Ref.map_congr e]

theorem Storage.map_congr {g h : ρ → σ} {x : Storage ρ} (e : ∀ r ∈ x.refs, g r = h r) :
    x.map g = x.map h := by
  cases x <;> simp only [Storage.map]
  rw [Val.map_congr e]

theorem Field.map_congr {g h : ρ → σ} {x : Field ρ} (e : ∀ r ∈ x.refs, g r = h r) :
    x.map g = x.map h := by
  simp only [Field.map]; rw [Storage.map_congr e]

theorem Comp.map_congr {g h : ρ → σ} {x : Comp ρ} (e : ∀ r ∈ x.refs, g r = h r) :
    x.map g = x.map h := by
  cases x with
  | func ps rs =>
    simp only [Comp.refs, List.mem_append, List.mem_flatMap] at e
    simp only [Comp.map]
    congr 1
    · exact List.map_congr_left fun v hv => Val.map_congr fun r hr => e r (.inl ⟨v, hv, hr⟩)
    · exact List.map_congr_left fun v hv => Val.map_congr fun r hr => e r (.inr ⟨v, hv, hr⟩)
  | array f => simp only [Comp.map]; rw [Field.map_congr e]
  | struct fs =>
    simp only [Comp.refs, List.mem_flatMap] at e
    simp only [Comp.map]
    congr 1
    exact List.map_congr_left fun v hv => Field.map_congr fun r hr => e r ⟨v, hv, hr⟩
  | cont r => simp only [Comp.map]; rw [e r (by simp [Comp.refs])]

theorem option_map_congr {g h : ρ → σ} {x : Option ρ} (e : ∀ r ∈ x.toList, g r = h r) :
    x.map g = x.map h := by cases x <;> simp_all

theorem SubT.map_congr {g h : ρ → σ} {x : SubT ρ} (e : ∀ r ∈ x.refs, g r = h r) :
    x.map g = x.map h := by
  simp only [SubT.refs, List.mem_append] at e
  simp only [SubT.map]
  rw [option_map_congr (x := x.supertype) fun r hr => e r (.inl (.inl (.inl hr))),
    option_map_congr (x := x.descriptor) fun r hr => e r (.inl (.inl (.inr hr))),
    option_map_congr (x := x.describes) fun r hr => e r (.inl (.inr hr)),
    Comp.map_congr fun r hr => e r (.inr hr)]

/-! ## Injectivity -/

theorem Heap.map_inj {g : ρ → σ} {x y : Heap ρ}
    (e : ∀ r ∈ x.refs, ∀ s ∈ y.refs, g r = g s → r = s) (h : x.map g = y.map g) : x = y := by
  cases x <;> cases y <;> simp_all [Heap.map, Heap.refs]

theorem Val.map_inj {g : ρ → σ} {x y : Val ρ}
    (e : ∀ r ∈ x.refs, ∀ s ∈ y.refs, g r = g s → r = s) (h : x.map g = y.map g) : x = y := by
  cases x <;> cases y <;> simp only [Val.map, reduceCtorEq, Val.ref.injEq, Ref.map,
    Ref.mk.injEq] at h <;> try rfl
  rename_i a b
  obtain ⟨n, a⟩ := a
  obtain ⟨n', b⟩ := b
  obtain ⟨h1, h2⟩ := h
  simp only at h1 h2
  rw [h1, Heap.map_inj (x := a) (y := b) e h2]

theorem Storage.map_inj {g : ρ → σ} {x y : Storage ρ}
    (e : ∀ r ∈ x.refs, ∀ s ∈ y.refs, g r = g s → r = s) (h : x.map g = y.map g) : x = y := by
  cases x <;> cases y <;> simp only [Storage.map, reduceCtorEq, Storage.val.injEq] at h <;> try rfl
  rw [Val.map_inj e h]

theorem Field.map_inj {g : ρ → σ} {x y : Field ρ}
    (e : ∀ r ∈ x.refs, ∀ s ∈ y.refs, g r = g s → r = s) (h : x.map g = y.map g) : x = y := by
  obtain ⟨n, a⟩ := x
  obtain ⟨n', b⟩ := y
  simp only [Field.map, Field.mk.injEq] at h
  rw [h.1, Storage.map_inj (x := a) (y := b) e h.2]

theorem list_map_inj {α β : Type} {g : ρ → σ} {k : α → β} {refs : α → List ρ}
    (hk : ∀ a b, (∀ r ∈ refs a, ∀ s ∈ refs b, g r = g s → r = s) → k a = k b → a = b)
    {l m : List α} (e : ∀ r ∈ l.flatMap refs, ∀ s ∈ m.flatMap refs, g r = g s → r = s)
    (h : l.map k = m.map k) : l = m := by
  induction l generalizing m with
  | nil => cases m with
    | nil => rfl
    | cons => simp at h
  | cons a l ih =>
    cases m with
    | nil => simp at h
    | cons b m =>
      simp only [List.map_cons, List.cons.injEq] at h
      simp only [List.flatMap_cons, List.mem_append] at e
      rw [hk a b (fun r hr s hs => e r (.inl hr) s (.inl hs)) h.1,
        ih (fun r hr s hs => e r (.inr hr) s (.inr hs)) h.2]

theorem Comp.map_inj {g : ρ → σ} {x y : Comp ρ}
    (e : ∀ r ∈ x.refs, ∀ s ∈ y.refs, g r = g s → r = s) (h : x.map g = y.map g) : x = y := by
  cases x <;> cases y <;> simp only [Comp.map, reduceCtorEq, Comp.func.injEq, Comp.array.injEq,
    Comp.struct.injEq, Comp.cont.injEq] at h
  · simp only [Comp.refs, List.mem_append] at e
    rw [list_map_inj (g := g) (refs := Val.refs) (fun _ _ => Val.map_inj)
        (fun r hr s hs => e r (.inl hr) s (.inl hs)) h.1,
      list_map_inj (g := g) (refs := Val.refs) (fun _ _ => Val.map_inj)
        (fun r hr s hs => e r (.inr hr) s (.inr hs)) h.2]
  · rw [Field.map_inj e h]
  · rw [list_map_inj (g := g) (refs := Field.refs) (fun _ _ => Field.map_inj) e h]
  · simp only [Comp.refs, List.mem_singleton, forall_eq] at e
    rw [e h]

theorem option_map_inj {g : ρ → σ} {x y : Option ρ}
    (e : ∀ r ∈ x.toList, ∀ s ∈ y.toList, g r = g s → r = s) (h : x.map g = y.map g) : x = y := by
  cases x <;> cases y <;> simp_all

theorem SubT.map_inj {g : ρ → σ} {x y : SubT ρ}
    (e : ∀ r ∈ x.refs, ∀ s ∈ y.refs, g r = g s → r = s) (h : x.map g = y.map g) : x = y := by
  obtain ⟨a1, a2, a3, a4, a5, a6⟩ := x
  obtain ⟨b1, b2, b3, b4, b5, b6⟩ := y
  simp only [SubT.refs, List.mem_append] at e
  simp only [SubT.map, SubT.mk.injEq] at h
  obtain ⟨h1, h2, h3, h4, h5, h6⟩ := h
  rw [h1, option_map_inj (fun r hr s hs => e r (.inl (.inl (.inl hr))) s (.inl (.inl (.inl hs)))) h2,
    h3, option_map_inj (fun r hr s hs => e r (.inl (.inl (.inr hr))) s (.inl (.inl (.inr hs)))) h4,
    option_map_inj (fun r hr s hs => e r (.inl (.inr hr)) s (.inl (.inr hs))) h5,
    Comp.map_inj (fun r hr s hs => e r (.inr hr) s (.inr hs)) h6]

/-- A whole group. -/
theorem group_map_inj {g : ρ → σ} {l m : List (SubT ρ)}
    (e : ∀ r ∈ l.flatMap SubT.refs, ∀ s ∈ m.flatMap SubT.refs, g r = g s → r = s)
    (h : l.map (SubT.map g) = m.map (SubT.map g)) : l = m :=
  list_map_inj (g := g) (refs := SubT.refs) (fun _ _ => SubT.map_inj) e h

theorem group_map_congr {g h : ρ → σ} {l : List (SubT ρ)}
    (e : ∀ r ∈ l.flatMap SubT.refs, g r = h r) : l.map (SubT.map g) = l.map (SubT.map h) :=
  List.map_congr_left fun x hx => SubT.map_congr fun r hr => e r (List.mem_flatMap.2 ⟨x, hx, hr⟩)

end Verif.TypeList.Spec
