import Verif.TypeList.Spec
import Verif.Types.Packed
/-!
# What packed types stand for, and what visiting their indices does
-/
namespace Verif.TypeList
open Verif.Types
open Spec (Heap Ref Val Storage Field Comp SubT)

abbrev U := UnpackedIndex

/-- The parser's heap type for a heap type. -/
def toHeap : Heap U → HeapType
  | .abs s t => .abstract s t
  | .concrete u => .concrete u
  | .exact u => .exact u

/-- Back. -/
def ofHeap : HeapType → Heap U
  | .abstract s t => .abs s t
  | .concrete u => .concrete u
  | .exact u => .exact u

@[simp] theorem toHeap_ofHeap (h : HeapType) : toHeap (ofHeap h) = h := by cases h <;> rfl
@[simp] theorem ofHeap_toHeap (h : Heap U) : ofHeap (toHeap h) = h := by cases h <;> rfl

/-! `D… t x`: the packed `t` stands for `x`. -/

def DIdx (p : PackedIndex) (u : U) : Prop := u.pack = some p

def DRef (r : RefType) (x : Ref U) : Prop := RefType.new x.nullable (toHeap x.heap) = some r

def DVal : ValType → Val U → Prop
  | .i32, .i32 | .i64, .i64 | .f32, .f32 | .f64, .f64 | .v128, .v128 => True
  | .ref r, .ref x => DRef r x
  | _, _ => False

def DStorage : StorageType → Storage U → Prop
  | .i8, .i8 | .i16, .i16 => True
  | .val v, .val x => DVal v x
  | _, _ => False

def DField (f : FieldType) (x : Field U) : Prop :=
  f.mutable = x.mutable ∧ DStorage f.elementType x.storage

def DComp : CompositeInnerType → Comp U → Prop
  | .func f, .func ps rs => List.Forall₂ DVal f.paramsResults (ps ++ rs) ∧ f.lenParams = ps.length
  | .array f, .array x => DField f x
  | .struct fs, .struct xs => List.Forall₂ DField fs xs
  | .cont p, .cont u => DIdx p u
  | _, _ => False

def DSub (t : SubType) (x : SubT U) : Prop :=
  t.isFinal = x.final ∧ OptIs DIdx t.supertypeIdx x.supertype ∧
    t.compositeType.shared = x.shared ∧ OptIs DIdx t.compositeType.descriptorIdx x.descriptor ∧
    OptIs DIdx t.compositeType.describesIdx x.describes ∧ DComp t.compositeType.inner x.comp

/-! ## The packed form and what it stands for determine each other -/

theorem DIdx.unpack {p : PackedIndex} {u : U} (h : DIdx p u) : p.unpack = some u := by
  unfold DIdx at h
  rw [pack_eq] at h
  split at h
  · rename_i hu; cases h; exact unpack_kind u hu
  · cases h

theorem DIdx.lt {p : PackedIndex} {u : U} (h : DIdx p u) : u.raw.toNat < 2 ^ 20 := by
  unfold DIdx at h
  rw [pack_eq] at h
  split at h
  · assumption
  · cases h

theorem dIdx_of_lt (u : U) (h : u.raw.toNat < 2 ^ 20) : ∃ p, DIdx p u :=
  ⟨_, by unfold DIdx; rw [pack_eq, if_pos h]⟩

theorem DIdx.right {p : PackedIndex} {u u' : U} (h : DIdx p u) (h' : DIdx p u') : u = u' := by
  have := h.unpack; rw [h'.unpack] at this; cases this; rfl

theorem DIdx.left {p p' : PackedIndex} {u : U} (h : DIdx p u) (h' : DIdx p' u) : p = p' := by
  unfold DIdx at h h'; rw [h] at h'; cases h'; rfl

theorem DRef.view {r : RefType} {x : Ref U} (h : DRef r x) :
    r.isNullable = x.nullable ∧ r.heapType = some (toHeap x.heap) := (new_is h).1

theorem DRef.right {r : RefType} {x x' : Ref U} (h : DRef r x) (h' : DRef r x') : x = x' := by
  obtain ⟨h1, h2⟩ := h.view
  obtain ⟨h3, h4⟩ := h'.view
  rw [h1] at h3; rw [h2] at h4
  cases x; cases x'
  simp only at h3 h4
  injection h4 with h4
  have := congrArg ofHeap h4
  simp only [ofHeap_toHeap] at this
  simp_all

theorem DRef.left {r r' : RefType} {x : Ref U} (h : DRef r x) (h' : DRef r' x) : r = r' := by
  unfold DRef at h h'; rw [h] at h'; cases h'; rfl

theorem DVal.left {r r' : ValType} {x : Val U} (h : DVal r x) (h' : DVal r' x) : r = r' := by
  cases r <;> cases r' <;> cases x <;> simp only [DVal] at h h' <;> try rfl
  rw [DRef.left h h']

theorem DVal.right {r : ValType} {x x' : Val U} (h : DVal r x) (h' : DVal r x') : x = x' := by
  cases r <;> cases x <;> cases x' <;> simp only [DVal] at h h' <;> try rfl
  rw [DRef.right h h']

theorem DStorage.left {r r' : StorageType} {x : Storage U} (h : DStorage r x)
    (h' : DStorage r' x) : r = r' := by
  cases r <;> cases r' <;> cases x <;> simp only [DStorage] at h h' <;> try rfl
  rw [DVal.left h h']

theorem DStorage.right {r : StorageType} {x x' : Storage U} (h : DStorage r x)
    (h' : DStorage r x') : x = x' := by
  cases r <;> cases x <;> cases x' <;> simp only [DStorage] at h h' <;> try rfl
  rw [DVal.right h h']

theorem DField.left {r r' : FieldType} {x : Field U} (h : DField r x)
    (h' : DField r' x) : r = r' := by
  cases r; cases r'; cases x
  obtain ⟨h1, h2⟩ := h
  obtain ⟨h3, h4⟩ := h'
  simp only at h1 h2 h3 h4
  rw [DStorage.left h2 h4, h1, h3]

theorem DField.right {r : FieldType} {x x' : Field U} (h : DField r x)
    (h' : DField r x') : x = x' := by
  cases r; cases x'; cases x
  obtain ⟨h1, h2⟩ := h
  obtain ⟨h3, h4⟩ := h'
  simp only at h1 h2 h3 h4
  rw [DStorage.right h2 h4, ← h1, ← h3]

theorem forall₂_left {α β : Type} {D : α → β → Prop} (hD : ∀ a a' b, D a b → D a' b → a = a')
    {l l' : List α} {m : List β} (h : List.Forall₂ D l m) (h' : List.Forall₂ D l' m) :
    l = l' := by
  induction h generalizing l' with
  | nil => cases h'; rfl
  | cons h1 _ ih => cases h' with | cons h2 h3 => rw [hD _ _ _ h1 h2, ih h3]

theorem forall₂_right {α β : Type} {D : α → β → Prop} (hD : ∀ a b b', D a b → D a b' → b = b')
    {l : List α} {m m' : List β} (h : List.Forall₂ D l m) (h' : List.Forall₂ D l m') :
    m = m' := by
  induction h generalizing m' with
  | nil => cases h'; rfl
  | cons h1 _ ih => cases h' with | cons h2 h3 => rw [hD _ _ _ h1 h2, ih h3]

theorem DComp.left {r r' : CompositeInnerType} {x : Comp U} (h : DComp r x) (h' : DComp r' x) :
    r = r' := by
  cases r <;> cases r' <;> cases x <;> simp only [DComp] at h h'
  · rename_i f f' ps rs
    cases f; cases f'
    simp only at h h'
    rw [forall₂_left (D := DVal) (fun _ _ _ => DVal.left) h.1 h'.1, h.2, h'.2]
  · rw [DField.left h h']
  · rw [forall₂_left (D := DField) (fun _ _ _ => DField.left) h h']
  · rw [DIdx.left h h']

theorem DComp.right {r : CompositeInnerType} {x x' : Comp U} (h : DComp r x) (h' : DComp r x') :
    x = x' := by
  cases r <;> cases x' <;> cases x <;> simp only [DComp] at h h'
  · have h1 := forall₂_right (D := DVal) (fun _ _ _ => DVal.right) h.1 h'.1
    have h2 := h.2.symm.trans h'.2
    obtain ⟨h3, h4⟩ := List.append_inj h1 h2
    rw [h3, h4]
  · rw [DField.right h h']
  · rw [forall₂_right (D := DField) (fun _ _ _ => DField.right) h h']
  · rw [DIdx.right h h']

theorem optIs_left {o o' : Option PackedIndex} {x : Option U} (h : OptIs DIdx o x)
    (h' : OptIs DIdx o' x) : o = o' := by
  cases o <;> cases o' <;> cases x <;> simp only [OptIs] at h h' <;> try rfl
  rw [DIdx.left h h']

theorem optIs_right {o : Option PackedIndex} {x x' : Option U} (h : OptIs DIdx o x)
    (h' : OptIs DIdx o x') : x = x' := by
  cases o <;> cases x' <;> cases x <;> simp only [OptIs] at h h' <;> try rfl
  rw [DIdx.right h h']

theorem DSub.left {t t' : SubType} {x : SubT U} (h : DSub t x) (h' : DSub t' x) : t = t' := by
  obtain ⟨h1, h2, h3, h4, h5, h6⟩ := h
  obtain ⟨k1, k2, k3, k4, k5, k6⟩ := h'
  have e2 := optIs_left h2 k2
  have e4 := optIs_left h4 k4
  have e5 := optIs_left h5 k5
  have e6 := DComp.left h6 k6
  obtain ⟨a, b, c, d, e, f⟩ := t
  obtain ⟨a', b', c', d', e', f'⟩ := t'
  simp_all

theorem DSub.right {t : SubType} {x x' : SubT U} (h : DSub t x) (h' : DSub t x') : x = x' := by
  obtain ⟨h1, h2, h3, h4, h5, h6⟩ := h
  obtain ⟨k1, k2, k3, k4, k5, k6⟩ := h'
  have e2 := optIs_right h2 k2
  have e4 := optIs_right h4 k4
  have e5 := optIs_right h5 k5
  have e6 := DComp.right h6 k6
  cases x; cases x'
  simp_all

theorem DComp.params {f : FuncType} {ps rs : List (Val U)} (h : DComp (.func f) (.func ps rs)) :
    List.Forall₂ DVal f.params ps ∧ List.Forall₂ DVal f.results rs := by
  obtain ⟨h1, h2⟩ := h
  unfold FuncType.params FuncType.results
  rw [h2]
  exact ⟨by simpa using List.forall₂_take ps.length h1, by simpa using List.forall₂_drop ps.length h1⟩

/-! ## Visiting -/

@[simp] theorem ok_bind {α β : Type} (a : α) (k : α → M β) : (Except.ok a >>= k : M β) = k a := rfl
@[simp] theorem error_bind {α β : Type} (e : Stop) (k : α → M β) :
    (Except.error e >>= k : M β) = .error e := rfl
@[simp] theorem pure_ok {α : Type} (a : α) : (pure a : M α) = .ok a := rfl

/-- What the visitor does to one reference. -/
def fhat (f : PackedIndex → M PackedIndex) (u : U) : M U := do
  let p ← unwrap u.pack
  let p' ← f p
  unwrap p'.unpack

/-- The new reference, where there is one. -/
def ghat (f : PackedIndex → M PackedIndex) (u : U) : U :=
  match fhat f u with
  | .ok u' => u'
  | .error _ => u

/-- The visitor turns packed indices into packed indices. -/
def Keeps (f : PackedIndex → M PackedIndex) : Prop :=
  ∀ p u p', DIdx p u → f p = .ok p' → ∃ u', DIdx p' u'

/-- Either all references could be replaced and the result stands for the replacement, or the
visitor stopped at one of them. -/
def Remaps {α β : Type} (f : PackedIndex → M PackedIndex) (r : M α) (D : α → β → Prop)
    (x : β) (refs : List U) : Prop :=
  (∃ a, r = .ok a ∧ D a x ∧ ∀ u ∈ refs, ∃ u', fhat f u = .ok u') ∨
  (∃ e, r = .error e ∧ ∃ u ∈ refs, fhat f u = .error e)

variable {f : PackedIndex → M PackedIndex}

theorem Remaps.pure {α β : Type} {a : α} {D : α → β → Prop} {x : β} (h : D a x) :
    Remaps f (.ok a) D x [] := .inl ⟨a, rfl, h, by simp⟩

theorem Remaps.bind {α β γ δ : Type} {r : M α} {D : α → β → Prop} {x : β} {l l' : List U}
    {k : α → M γ} {D' : γ → δ → Prop} {y : δ} (h : Remaps f r D x l)
    (h' : ∀ a, D a x → Remaps f (k a) D' y l') : Remaps f (r >>= k) D' y (l ++ l') := by
  rcases h with ⟨a, rfl, ha, hl⟩ | ⟨e, rfl, u, hu, he⟩
  · rcases h' a ha with ⟨b, hb, hb', hl'⟩ | ⟨e, he, u, hu, hue⟩
    · refine .inl ⟨b, hb, hb', ?_⟩
      intro u hu
      rcases List.mem_append.1 hu with hu | hu
      · exact hl u hu
      · exact hl' u hu
    · exact .inr ⟨e, he, u, List.mem_append_right _ hu, hue⟩
  · exact .inr ⟨e, rfl, u, List.mem_append_left _ hu, he⟩

theorem Remaps.map {α β γ δ : Type} {r : M α} {D : α → β → Prop} {x : β} {l : List U}
    {k : α → γ} {D' : γ → δ → Prop} {y : δ} (h : Remaps f r D x l)
    (h' : ∀ a, D a x → D' (k a) y) : Remaps f (r >>= fun a => .ok (k a)) D' y l := by
  have := h.bind (l' := []) (k := fun a => .ok (k a)) (fun a ha => .pure (h' a ha))
  simpa using this

theorem Remaps.mapM {α β : Type} {D : α → β → Prop} {h : α → M α} {g : β → β}
    {refs : β → List U} (hh : ∀ a x, D a x → Remaps f (h a) D (g x) (refs x)) {l : List α}
    {xs : List β} (hl : List.Forall₂ D l xs) :
    Remaps f (l.mapM h) (List.Forall₂ D) (xs.map g) (xs.flatMap refs) := by
  induction hl with
  | nil => exact .pure .nil
  | cons h1 _ ih =>
    rw [List.mapM_cons, List.flatMap_cons, List.map_cons]
    refine (hh _ _ h1).bind fun a ha => ?_
    exact ih.map fun b hb => .cons ha hb

theorem remapIdx (hf : Keeps f) {p : PackedIndex} {u : U} (h : DIdx p u) :
    Remaps f (f p) DIdx (ghat f u) [u] := by
  have hp : u.pack = some p := h
  cases hfp : f p with
  | ok p' =>
    obtain ⟨u', hu'⟩ := hf p u p' h hfp
    have : fhat f u = .ok u' := by
      unfold fhat; rw [hp]; simp only [unwrap, ok_bind]; rw [hfp]; simp only [ok_bind]; rw [hu'.unpack]
    refine .inl ⟨p', rfl, by simp only [ghat, this]; exact hu', ?_⟩
    intro v hv
    simp at hv
    exact ⟨u', hv ▸ this⟩
  | error e =>
    have : fhat f u = .error e := by unfold fhat; rw [hp]; simp only [unwrap, ok_bind]; rw [hfp]; rfl
    exact .inr ⟨e, rfl, u, by simp, this⟩

theorem typeIndex_of {r : RefType} {x : Ref U} (h : DRef r x) :
    (∀ u, x.heap = .concrete u → ∃ p, r.typeIndex = some p ∧ DIdx p u ∧
      r.isExactTypeRef = false) ∧
    (∀ u, x.heap = .exact u → ∃ p, r.typeIndex = some p ∧ DIdx p u ∧
      r.isExactTypeRef = true) ∧
    (∀ s t, x.heap = .abs s t → r.typeIndex = none) := by
  obtain ⟨n, hx⟩ := x
  have hc := isConcrete_iff h
  have hv := h.view
  refine ⟨?_, ?_, ?_⟩
  · rintro u rfl
    have hc' : r.isConcreteTypeRef = true := hc
    have hu : u.raw.toNat < 2 ^ 20 := by
      have := (new_is h).2.2
      exact (UnpackedIndex.fits_iff u).1 this
    have hti : r.typeIndex = some ⟨r.bits &&& RefType.indexMask⟩ := by
      unfold RefType.typeIndex; rw [hc']; rfl
    have hex : r.isExactTypeRef = false := by
      have h2 := hv.2
      unfold RefType.heapType at h2
      rw [hc'] at h2
      cases hE : r.isExactTypeRef with
      | false => rfl
      | true =>
        rw [hE, hti] at h2
        simp [toHeap] at h2
        cases hq : (PackedIndex.mk (r.bits &&& RefType.indexMask)).unpack <;> simp [hq] at h2
    refine ⟨_, hti, ?_, hex⟩
    -- the bits
    have hb : r = RefType.concrete n ⟨u.kindOf ||| u.raw⟩ := by
      have h' : RefType.new n (.concrete u) = some r := h
      simp only [RefType.new, pack_eq, if_pos hu] at h'
      simpa using h'.symm
    unfold DIdx
    rw [pack_eq, if_pos hu]
    congr 2
    rw [hb]
    simp only [RefType.concrete]
    rw [← BitVec.or_assoc, and_index hu (by rcases kind_cases u with k | k | k <;> rw [k] <;> cases n <;> decide)]
    congr 1
    rcases kind_cases u with k | k | k <;> rw [k] <;> cases n <;> decide
  · rintro u rfl
    have hc' : r.isConcreteTypeRef = true := hc
    have hu : u.raw.toNat < 2 ^ 20 := by
      have := (new_is h).2.2
      exact (UnpackedIndex.fits_iff u).1 this
    have hti : r.typeIndex = some ⟨r.bits &&& RefType.indexMask⟩ := by
      unfold RefType.typeIndex; rw [hc']; rfl
    have hex : r.isExactTypeRef = true := by
      have h2 := hv.2
      unfold RefType.heapType at h2
      rw [hc'] at h2
      cases hE : r.isExactTypeRef with
      | true => rfl
      | false =>
        rw [hE, hti] at h2
        simp [toHeap] at h2
        cases hq : (PackedIndex.mk (r.bits &&& RefType.indexMask)).unpack <;> simp [hq] at h2
    refine ⟨_, hti, ?_, hex⟩
    have hb : r = RefType.exact n ⟨u.kindOf ||| u.raw⟩ := by
      have h' : RefType.new n (.exact u) = some r := h
      simp only [RefType.new, pack_eq, if_pos hu] at h'
      simpa using h'.symm
    unfold DIdx
    rw [pack_eq, if_pos hu]
    congr 2
    rw [hb]
    simp only [RefType.exact]
    rw [← BitVec.or_assoc, and_index hu (by rcases kind_cases u with k | k | k <;> rw [k] <;> cases n <;> decide)]
    congr 1
    rcases kind_cases u with k | k | k <;> rw [k] <;> cases n <;> decide
  · rintro s t rfl
    have hc' : r.isConcreteTypeRef = false := hc
    unfold RefType.typeIndex
    rw [hc']; rfl

theorem remapVal_spec (hf : Keeps f) {v : ValType} {x : Val U} (h : DVal v x) :
    Remaps f (remapVal f v) DVal (x.map (ghat f)) x.refs := by
  cases v <;> cases x <;> simp only [DVal] at h <;> try exact .pure trivial
  rename_i r x
  obtain ⟨n, hx⟩ := x
  obtain ⟨h1, h2, h3⟩ := typeIndex_of h
  have hn := h.view.1
  cases hx with
  | abs s t =>
    simp only [remapVal]
    rw [h3 s t rfl]
    exact .pure h
  | concrete u =>
    obtain ⟨p, hp, hd, he⟩ := h1 u rfl
    simp only [remapVal]
    rw [hp]
    refine (remapIdx hf hd).map fun a ha => ?_
    rw [he, hn]
    show RefType.new n (.concrete (ghat f u)) = _
    have : (ghat f u).pack = some a := ha
    simp [RefType.new, this]
  | exact u =>
    obtain ⟨p, hp, hd, he⟩ := h2 u rfl
    simp only [remapVal]
    rw [hp]
    refine (remapIdx hf hd).map fun a ha => ?_
    rw [he, hn]
    show RefType.new n (.exact (ghat f u)) = _
    have : (ghat f u).pack = some a := ha
    simp [RefType.new, this]

theorem remapField_spec (hf : Keeps f) {t : FieldType} {x : Field U} (h : DField t x) :
    Remaps f (remapField f t) DField (x.map (ghat f)) x.refs := by
  obtain ⟨e, m⟩ := t
  obtain ⟨m', s⟩ := x
  obtain ⟨h1, h2⟩ := h
  simp only at h1 h2
  subst h1
  cases e <;> cases s <;> simp only [DStorage] at h2 <;> try exact .pure ⟨rfl, trivial⟩
  exact (remapVal_spec hf h2).map fun a ha => ⟨rfl, ha⟩

theorem remapOpt_spec (hf : Keeps f) {o : Option PackedIndex} {x : Option U}
    (h : OptIs DIdx o x) : Remaps f (remapOpt f o) (OptIs DIdx) (x.map (ghat f)) x.toList := by
  cases o <;> cases x <;> simp only [OptIs] at h
  · exact .pure trivial
  · exact (remapIdx hf h).map fun a ha => ha

theorem remapInner_spec (hf : Keeps f) {t : CompositeInnerType} {x : Comp U} (h : DComp t x) :
    Remaps f (remapInner f t) DComp (x.map (ghat f)) x.refs := by
  cases t <;> cases x <;> simp only [DComp] at h
  · rename_i t ps rs
    have := Remaps.mapM (fun _ _ => remapVal_spec hf) h.1
    rw [List.flatMap_append] at this
    refine this.map fun a ha => ?_
    refine ⟨by simpa using ha, ?_⟩
    simp [h.2]
  · exact (remapField_spec hf h).map fun a ha => ha
  · exact (Remaps.mapM (fun _ _ => remapField_spec hf) h).map fun a ha => ha
  · exact (remapIdx hf h).map fun a ha => ha

theorem remapSub_spec (hf : Keeps f) {t : SubType} {x : SubT U} (h : DSub t x) :
    Remaps f (remapSub f t) DSub (x.map (ghat f)) x.refs := by
  obtain ⟨h1, h2, h3, h4, h5, h6⟩ := h
  unfold remapSub SubT.refs
  rw [List.append_assoc, List.append_assoc]
  refine (remapOpt_spec hf h2).bind fun a ha => ?_
  refine (remapOpt_spec hf h4).bind fun b hb => ?_
  refine (remapOpt_spec hf h5).bind fun c hc => ?_
  exact (remapInner_spec hf h6).map fun d hd => ⟨h1, ha, h3, hb, hc, hd⟩

end Verif.TypeList
