import Verif.TypeList.Decide
/-! # The checks on new types -/
namespace Verif.TypeList
open Verif.Types
open Spec (SubT Comp Heap Ref Val Storage Field Kind Decls CompSub Comp.kind)

variable {sz : Prop} {f : Features} {T : TypeList} {G : List CGroup}

theorem Decides.res {ok : Prop} {r : M Bool} {P : Prop} (h : Decides ok r P) :
    Res sz r fun b => b = true → P := by
  obtain ⟨b, rfl, h2, _⟩ := h
  exact .ok h2

theorem Res.reqIf {c : Prop} [Decidable c] (b : Bool) (msg : String) {α : Type} {k : M α}
    {P : α → Prop} (h : (c → b = true) → Res sz k P) :
    Res sz (if c then (do TypeList.require b msg; k) else k) P := by
  refine .ite (fun hc => (Res.require b msg).bind fun _ hb => h fun _ => hb) fun hc => h fun h => (hc h).elim

theorem checkRefType_res {r : RefType} {x : Ref U} (h : DRef r x) :
    Res sz (checkRefType f r) fun _ => True := by
  unfold checkRefType
  refine (Res.require _ _).bind fun _ _ => ?_
  refine (Res.unwrap h.view.2).bind ?_
  rintro _ rfl
  obtain ⟨n, hx⟩ := x
  cases hx with
  | concrete u =>
    simp only [toHeap]
    exact .ite (fun _ => .ok trivial) fun _ => (Res.require _ _).mono fun _ _ => trivial
  | exact u =>
    simp only [toHeap]
    exact (Res.require _ _).mono fun _ _ => trivial
  | abs s t =>
    simp only [toHeap]
    refine Res.reqIf _ _ fun _ => Res.reqIf _ _ fun _ => ?_
    cases t <;> simp only <;> first
      | exact (Res.require _ _).mono fun _ _ => trivial
      | exact .ite (fun _ => .ok trivial) fun _ => (Res.require _ _).mono fun _ _ => trivial

theorem checkValueType_res {t : ValType} {x : Val U} (h : DVal t x) :
    Res sz (checkValueType f t) fun _ => True := by
  cases t <;> cases x <;> simp only [DVal] at h <;> unfold checkValueType <;> first
    | exact .ok trivial
    | exact (Res.require _ _).mono fun _ _ => trivial
    | exact checkRefType_res h

theorem valtypeIsShared_spec (h : Static f T G) {t : ValType} {x : Val Nat}
    (ht : DVal t (x.map idx)) (hx : In G x.refs) :
    Res sz (valtypeIsShared T t) fun b => b = true → valShared (declsG G) x := by
  cases t <;> cases x <;> simp only [Val.map, DVal] at ht <;> unfold valtypeIsShared <;>
    try exact .ok fun _ => trivial
  rename_i r x
  simp only
  unfold reftypeIsShared
  refine (Res.unwrap ht.view.2).bind ?_
  rintro _ rfl
  obtain ⟨n, x⟩ := x
  cases x with
  | abs s t => exact .ok fun h => by simpa [valShared, heapShared] using h
  | concrete i =>
    have hi := hx i (by simp [Val.refs, Heap.refs])
    obtain ⟨t, x, h1, h2, h3⟩ := h.at hi.2
    simp only [Ref.map, Heap.map, toHeap, idx, toNat_small hi.1, typeAt, h1, unwrap, ok_bind]
    refine .ok fun h => ?_
    rw [h3.2.2.1] at h
    simp [valShared, heapShared, declsG, h2]
    exact h
  | exact i =>
    have hi := hx i (by simp [Val.refs, Heap.refs])
    obtain ⟨t, x, h1, h2, h3⟩ := h.at hi.2
    simp only [Ref.map, Heap.map, toHeap, idx, toNat_small hi.1, typeAt, h1, unwrap, ok_bind]
    refine .ok fun h => ?_
    rw [h3.2.2.1] at h
    simp [valShared, heapShared, declsG, h2]
    exact h

theorem checkVal_spec (h : Static f T G) {t : ValType} {x : Val Nat}
    (ht : DVal t (x.map idx)) (hx : In G x.refs) (shared : Bool) :
    Res sz (checkVal f T shared t) fun _ => shared = true → valShared (declsG G) x := by
  unfold checkVal
  refine (checkValueType_res ht).bind fun _ _ => ?_
  refine .ite (fun _ => ?_) fun hs => .ok fun h => (hs h).elim
  refine (valtypeIsShared_spec h ht hx).bind fun b hb => ?_
  refine .ite (fun _ => .err) fun hs => .ok fun _ => hb ?_
  cases b
  · exact (hs rfl).elim
  · rfl

theorem checkStorage_spec (h : Static f T G) {t : StorageType} {x : Storage Nat}
    (ht : DStorage t (x.map idx)) (hx : In G x.refs) (shared : Bool) :
    Res sz (checkStorage f T shared t) fun _ => shared = true → storageShared (declsG G) x := by
  cases t <;> cases x <;> simp only [Storage.map, DStorage] at ht <;> unfold checkStorage
  · exact .ok fun _ => trivial
  · exact .ok fun _ => trivial
  · exact checkVal_spec h ht hx shared

theorem forM'_spec {α β : Type} {D : α → β → Prop} {g : α → M Unit} {P : β → Prop} {l : List α}
    {xs : List β} (h : List.Forall₂ D l xs)
    (hg : ∀ a x, x ∈ xs → D a x → Res sz (g a) fun _ => P x) :
    Res sz (forM' g l) fun _ => ∀ x ∈ xs, P x := by
  induction h with
  | nil => exact .ok (by simp)
  | cons h1 _ ih =>
    unfold forM'
    refine (hg _ _ (by simp) h1).bind fun _ hp => ?_
    refine (ih fun a x hx => hg a x (by simp [hx])).mono fun _ hps => ?_
    intro x hx
    rcases List.mem_cons.1 hx with rfl | hx
    · exact hp
    · exact hps x hx

theorem checkComposite_spec (h : Static f T G) {t : CompositeType} {x : Comp Nat}
    (ht : DComp t.inner (x.map idx)) (hx : In G x.refs) :
    Res sz (checkCompositeType f T t) fun _ =>
      (t.shared = true → compShared (declsG G) x) ∧
      ∀ j, x = .cont j → ∃ s, (declsG G).info j = some (s, .func) := by
  obtain ⟨inner, sh, d, e⟩ := t
  unfold checkCompositeType
  simp only at ht ⊢
  refine Res.reqIf _ _ fun _ => ?_
  cases inner <;> cases x <;> simp only [Comp.map, DComp] at ht <;> simp only
  · rename_i t ps rs
    have hp := DComp.params (f := t) (ps := ps.map (Val.map idx)) (rs := rs.map (Val.map idx)) ht
    rw [List.forall₂_map_right_iff, List.forall₂_map_right_iff] at hp
    have hall := List.rel_append hp.1 hp.2
    have inx : ∀ v ∈ ps ++ rs, In G v.refs := fun v hv r hr => hx r (by
      simp only [Comp.refs, List.mem_append, List.mem_flatMap] at hv ⊢
      rcases hv with hv | hv
      · exact .inl ⟨v, hv, hr⟩
      · exact .inr ⟨v, hv, hr⟩)
    refine (forM'_spec (P := fun x => sh = true → valShared (declsG G) x) hall
      fun a y hy ha => checkVal_spec h ha (inx y hy) sh).bind fun _ hs => ?_
    have : (sh = true → compShared (declsG G) (.func ps rs)) ∧
        ∀ j, Comp.func ps rs = .cont j → ∃ s, (declsG G).info j = some (s, .func) :=
      ⟨fun e => ⟨fun p hp => hs p (by simp [hp]) e, fun p hp => hs p (by simp [hp]) e⟩, nofun⟩
    exact .ite (fun _ => (Res.require _ _).mono fun _ _ => this) fun _ => .ok this
  · refine (Res.require _ _).bind fun _ _ => (Res.require _ _).bind fun _ _ => ?_
    exact (checkStorage_spec h ht.2 hx sh).mono fun _ h => ⟨h, nofun⟩
  · rename_i fs xs
    rw [List.forall₂_map_right_iff] at ht
    refine (Res.require _ _).bind fun _ _ => (Res.require _ _).bind fun _ _ => ?_
    refine (forM'_spec (P := fun x => sh = true → storageShared (declsG G) x.storage) ht
      fun a y hy ha => checkStorage_spec h ha.2
        (fun r hr => hx r (by simp only [Comp.refs, List.mem_flatMap]; exact ⟨y, hy, hr⟩)) sh).mono
      fun _ hs => ⟨fun e x hx => hs x hx e, nofun⟩
  · rename_i p j
    refine (Res.require _ _).bind fun _ _ => (Res.require _ _).bind fun _ _ => ?_
    have hj := hx j (by simp [Comp.refs])
    refine (Res.unwrap (DIdx.unpack ht)).bind ?_
    rintro _ rfl
    obtain ⟨t, x, h1, h2, h3⟩ := h.at hj.2
    simp only [idx, toNat_small hj.1, typeAt, h1, unwrap, ok_bind]
    have h6 := h3.2.2.2.2.2
    cases hti : t.compositeType.inner with
    | func ft =>
      refine .ok ⟨fun _ => trivial, ?_⟩
      intro j' hj'
      cases hj'
      refine ⟨x.shared, ?_⟩
      rw [hti] at h6
      simp only [declsG, h2, Option.map_some, Option.some.injEq, Prod.mk.injEq, true_and]
      cases hc : x.comp <;> simp [SubT.map, hc, Comp.map, DComp] at h6 <;> rfl
    | array _ => exact .err
    | struct _ => exact .err
    | cont _ => exact .err

theorem atPacked_spec {p : PackedIndex} {j : Nat} (h : DIdx p (idx j)) (hj : j < 2 ^ 20)
    (m : List Nat) (T : TypeList) (k : Nat) : atPackedIndex m T k p = .ok j := by
  unfold atPackedIndex
  rw [h.unpack]
  simp only [unwrap, ok_bind, idx, toNat_small hj]
  rfl

theorem mapCanonical_spec {o : Option PackedIndex} {x : Option Nat}
    (h : OptIs DIdx o (x.map idx)) (hj : ∀ j ∈ x, j < 2 ^ 20) (m : List Nat) (T : TypeList)
    (k : Nat) : mapCanonicalOpt m T k o = .ok x := by
  cases o <;> cases x <;> simp only [Option.map, OptIs] at h
  · rfl
  · unfold mapCanonicalOpt
    simp only
    rw [atPacked_spec h (hj _ rfl)]
    rfl

theorem canonical_idx {p : PackedIndex} {j : Nat} (h : DIdx p (idx j)) :
    p.isCanonical = some true := by
  have h' := h.unpack
  unfold PackedIndex.unpack at h'
  unfold PackedIndex.isCanonical
  split at h'
  · cases h'
  · split at h'
    · cases h'
    · split at h'
      · rename_i hk; rw [if_pos (.inr hk)]
      · cases h'

theorem Static.depth (h : Static f T G) (d : Nat → Option Nat) :
    Static f { T with coreTypeToDepth := d } G :=
  ⟨h.types, h.groups, h.supers, h.elems, h.canon, h.gok, h.nodup, h.small, h.count⟩

theorem Static.group (h : Static f T G) {i : Nat} (hi : i < total G) :
    ∃ k, recGroupIdOf T i = .ok k := by
  unfold recGroupIdOf
  rw [h.groups, List.getElem?_eq_getElem (by rwa [gids_length])]
  exact ⟨_, rfl⟩

theorem optIs_none {o : Option PackedIndex} {x : Option Nat} (h : OptIs DIdx o (x.map idx)) :
    o.isSome = x.isSome := by
  cases o <;> cases x <;> simp_all [OptIs]

/-- `check_subtype` on the next type. -/
theorem checkSubtype_spec {n : Nat} (h : Inv f T G n) (hn : n < total G) (m : List Nat)
    (k : Nat) {x : SubT Nat} (hx : (flat 0 G)[n]? = some x) :
    Res sz (checkSubtype f m T k n) fun T' => ∃ d, d ≤ maxSubtypingDepth ∧
      T' = { T with coreTypeToDepth := fun i => if i = n then some d else T.coreTypeToDepth i } ∧
      SubChecked f G T'.coreTypeToDepth n x := by
  obtain ⟨t, x', h1, h2, h3⟩ := h.at hn
  rw [hx] at h2
  cases h2
  obtain ⟨hin, hsup⟩ := flat_refs h.gok hx
  have hnone : T.coreTypeToDepth n = none := by
    have := (h.depth n).not.2 (by omega)
    simpa using this
  unfold checkSubtype
  simp only [typeAt, h1, unwrap, ok_bind]
  refine Res.reqIf _ _ fun hgc => ?_
  refine ((checkComposite_spec h.toStatic h3.2.2.2.2.2
    (fun r hr => hin r (by simp [SubT.refs, hr]))).and
      (.partly fun _ => checkComposite_feats h3.2.2.2.2.2)).bind fun _ hcf => ?_
  obtain ⟨hc, hfe⟩ := hcf
  have hfe : Spec.SubFeats f x := by
    refine ⟨fun e => hgc ?_, fun e => hfe.1 (h3.2.2.1.trans e), (compFeats_map idx _).1 hfe.2⟩
    rw [h3.1, optIs_none h3.2.1]
    rcases e with e | e
    · simp [SubT.map, e]
    · simp [e]
  have hc1 : x.shared = true → compShared (declsG G) x.comp := by
    intro e; apply hc.1; rw [h3.2.2.1]; exact e
  have hopt := h3.2.1
  cases hs : x.supertype with
  | none =>
    cases hts : t.supertypeIdx with
    | some p => rw [hts] at hopt; simp [SubT.map, hs, OptIs] at hopt
    | none =>
      simp only
      unfold setSubtypingDepth
      refine (Res.assert (by simp)).bind fun _ _ => ?_
      refine (Res.assert (by simp [hnone])).bind fun _ _ => ?_
      refine .ok ⟨0, by simp, rfl, ?_⟩
      exact ⟨fun _ => by simp, by simp [hs], hc1, hc.2, hfe⟩
  | some j =>
    cases hts : t.supertypeIdx with
    | none => rw [hts] at hopt; simp [SubT.map, hs, OptIs] at hopt
    | some p =>
      have hp : DIdx p (idx j) := by rw [hts] at hopt; simpa [SubT.map, hs, OptIs] using hopt
      simp only
      have hj := hin j (by simp [SubT.refs, hs])
      have hjn := hsup j hs
      refine (Res.unwrap (canonical_idx hp)).bind ?_
      rintro _ rfl
      refine (Res.assert rfl).bind fun _ _ => ?_
      rw [atPacked_spec hp hj.1]
      simp only [ok_bind]
      obtain ⟨u, y, k1, k2, k3⟩ := h.at hj.2
      simp only [k1, ok_bind]
      split
      · exact Res.bind (P := fun _ => False) .err fun _ h => h.elim
      · rename_i hfin
        obtain ⟨ga, hga⟩ := h.group hn
        obtain ⟨gb, hgb⟩ := h.group hj.2
        have hm : Res sz (matchIds T n j) fun b => b = true →
            t.compositeType.shared = u.compositeType.shared ∧
              CompSub (declsG G) x.comp y.comp := by
          unfold matchIds
          rw [hga, hgb]
          simp only [typeAt, h1, k1, unwrap, ok_bind]
          exact (matchComp_spec h.toStatic h3.2.2.2.2.2 k3.2.2.2.2.2
            (fun r hr => hin r (by simp [SubT.refs, hr]))
            (fun r hr => (flat_refs h.gok k2).1 r (by simp [SubT.refs, hr])) ga gb).res
        refine hm.bind fun b hb => ?_
        split
        · exact Res.bind (P := fun _ => False) .err fun _ h => h.elim
        · rename_i hbt
          have hb := hb (by simpa using hbt)
          obtain ⟨d, hd⟩ := Option.isSome_iff_exists.1 ((h.depth j).2 hjn)
          have hdl := h.depthLe j d hd
          unfold getSubtypingDepth
          rw [hd]
          simp only [unwrap, ok_bind]
          refine Res.bind (P := fun x => x = d)
            ((Res.assert (by simpa using hdl)).bind fun _ _ => .pure rfl) ?_
          rintro _ rfl
          split
          · exact Res.bind (P := fun _ => False) .err fun _ h => h.elim
          · rename_i hle
            unfold setSubtypingDepth
            refine (Res.assert (by simp; omega)).bind fun _ _ => ?_
            refine (Res.assert (by simp [hnone])).bind fun _ _ => ?_
            refine .ok ⟨_, by omega, rfl, ?_⟩
            refine ⟨by simp [hs], ?_, hc1, hc.2, hfe⟩
            intro j' hj'
            rw [hs] at hj'
            cases hj'
            refine ⟨y, _, k2, ?_, ?_, hb.2, ?_, by simp; rfl⟩
            · have := k3.1
              simp only [SubT.map] at this
              rw [← this]; simpa using hfin
            · have e1 := h3.2.2.1
              have e2 := k3.2.2.1
              simp only [SubT.map] at e1 e2
              rw [← e1, ← e2]; exact hb.1
            · simp only
              rw [if_neg (by omega)]; exact hd

theorem differs_spec {b : PackedIndex} {sd : Nat} (hb : DIdx b (idx sd)) (hsd : sd < 2 ^ 20)
    {o : Option PackedIndex} {x : Option Nat} (h : OptIs DIdx o (x.map idx))
    (hx : ∀ j ∈ x, j < 2 ^ 20) (m : List Nat) (T : TypeList) (k : Nat) :
    differs m T k b o = .ok (decide (x ≠ some sd)) := by
  cases o <;> cases x <;> simp only [Option.map, OptIs] at h
  · simp [differs]
  · simp only [differs]
    rw [atPacked_spec h (hx _ rfl), atPacked_spec hb hsd]
    simp only [ok_bind, pure_ok, Except.ok.injEq]
    rename_i a b
    by_cases hab : b = sd <;> simp [hab]

theorem Res.bailIf (b : Bool) (msg : String) : Res sz (bailIf b msg) fun _ => b = false :=
  (Res.require _ _).mono fun _ h => by simpa using h

theorem optIs_some {o : Option PackedIndex} {p : PackedIndex} {x : Option Nat}
    (h : OptIs DIdx o (x.map idx)) (ho : o = some p) : ∃ j, x = some j ∧ DIdx p (idx j) := by
  subst ho
  cases x with
  | none => exact h.elim
  | some j => exact ⟨j, rfl, h⟩

theorem optIs_none' {o : Option PackedIndex} {x : Option Nat}
    (h : OptIs DIdx o (x.map idx)) (ho : o = none) : x = none := by
  subst ho
  cases x with
  | none => rfl
  | some j => exact h.elim

/-- The fields of a type that the checks look at. -/
theorem Static.opts (h : Static f T G) {i : Nat} (hi : i < total G) :
    ∃ t x, T.coreTypes[i]? = some t ∧ (flat 0 G)[i]? = some x ∧
      OptIs DIdx t.supertypeIdx (x.supertype.map idx) ∧
      OptIs DIdx t.compositeType.descriptorIdx (x.descriptor.map idx) ∧
      OptIs DIdx t.compositeType.describesIdx (x.describes.map idx) ∧
      DComp t.compositeType.inner (x.comp.map idx) ∧
      (∀ j ∈ x.supertype, j < 2 ^ 20 ∧ j < total G) ∧
      (∀ j ∈ x.descriptor, j < 2 ^ 20 ∧ j < total G) ∧
      (∀ j ∈ x.describes, j < 2 ^ 20 ∧ j < total G) := by
  obtain ⟨t, x, h1, h2, h3⟩ := h.at hi
  have hin := (flat_refs h.gok h2).1
  obtain ⟨_, hS, _, hD, hE, hI⟩ := h3
  exact ⟨t, x, h1, h2, hS, hD, hE, hI,
    fun j hj => hin j (by simp [SubT.refs, Option.mem_def.1 hj]),
    fun j hj => hin j (by simp [SubT.refs, Option.mem_def.1 hj]),
    fun j hj => hin j (by simp [SubT.refs, Option.mem_def.1 hj])⟩

/-- `check_descriptors`. -/
theorem checkDescriptors_spec (h : Static f T G) {n : Nat} (hn : n < total G) (m : List Nat)
    (k : Nat) {x : SubT Nat} (hx : (flat 0 G)[n]? = some x) :
    Res sz (checkDescriptors f m T k n) fun _ => DescChecked G n x := by
  obtain ⟨t, x', h1, h2, hS, hD, hE, hI, bS, bD, bE⟩ := h.opts hn
  rw [hx] at h2
  cases h2
  unfold checkDescriptors
  simp only [typeAt, h1, unwrap, ok_bind]
  rw [mapCanonical_spec hD (fun j hj => (bD j hj).1),
    mapCanonical_spec hE (fun j hj => (bE j hj).1)]
  simp only [ok_bind]
  -- the clauses
  refine Res.bind (P := fun _ => x.descriptor.isSome ∨ x.describes.isSome → x.comp.kind = .struct)
    ?_ fun _ h0 => ?_
  · unfold checkClauses
    rw [optIs_none hD, optIs_none hE]
    refine .ite (fun _ => ?_) fun hc => .ok fun h => ?_
    · refine (Res.require _ _).bind fun _ _ => ?_
      cases hti : t.compositeType.inner with
      | struct fs =>
        rw [hti] at hI
        refine .ok fun _ => ?_
        cases hc : x.comp <;> simp [hc, Comp.map, DComp] at hI <;> rfl
      | func _ => exact .err
      | array _ => exact .err
      | cont _ => exact .err
    · exact absurd h (by simpa using hc)
  -- supertypes
  refine Res.bind (P := fun _ => ∀ j y, x.supertype = some j → (flat 0 G)[j]? = some y →
    (∀ sd, y.descriptor = some sd → ∃ d z, x.descriptor = some d ∧
      (flat 0 G)[d]? = some z ∧ z.supertype = some sd) ∧
    (∀ sd, y.describes = some sd → ∃ d z, x.describes = some d ∧
      (flat 0 G)[d]? = some z ∧ z.supertype = some sd) ∧
    (y.describes = none → x.describes = none)) ?_ fun _ h1 => ?_
  · unfold checkSuperDescriptors
    cases hts : t.supertypeIdx with
    | none =>
      refine .ok fun j y hj => ?_
      rw [optIs_none' hS hts] at hj; cases hj
    | some p =>
      obtain ⟨j, hj, hp⟩ := optIs_some hS hts
      obtain ⟨hj1, hj2⟩ := bS j hj
      simp only
      refine (Res.unwrap (canonical_idx hp)).bind ?_
      rintro _ rfl
      refine (Res.assert rfl).bind fun _ _ => ?_
      rw [atPacked_spec hp hj1]
      obtain ⟨u, y, k1, k2, kS, kD, kE, kI, cS, cD, cE⟩ := h.opts hj2
      simp only [ok_bind, typeAt, k1, unwrap]
      refine Res.bind (P := fun _ => ∀ sd, y.descriptor = some sd → ∃ d z,
        x.descriptor = some d ∧ (flat 0 G)[d]? = some z ∧ z.supertype = some sd) ?_
        fun _ q1 => Res.mono (P := fun _ => (∀ sd, y.describes = some sd → ∃ d z,
          x.describes = some d ∧ (flat 0 G)[d]? = some z ∧ z.supertype = some sd) ∧
          (y.describes = none → x.describes = none)) ?_ fun _ q2 => ?_
      · unfold checkSuperDescriptor
        cases hxd : x.descriptor with
        | none =>
          refine (Res.bailIf _ _).mono fun _ hb sd hsd => ?_
          rw [optIs_none kD, hsd] at hb; cases hb
        | some d =>
          simp only
          obtain ⟨hd1, hd2⟩ := bD d hxd
          cases hud : u.compositeType.descriptorIdx with
          | none =>
            refine .ok fun sd hsd => ?_
            rw [optIs_none' kD hud] at hsd; cases hsd
          | some q =>
            obtain ⟨sd, hsd, hq⟩ := optIs_some kD hud
            obtain ⟨v, z, l1, l2, lS, _, _, _, eS, _⟩ := h.opts hd2
            simp only [typeAt, l1, unwrap, ok_bind]
            rw [differs_spec hq (cD sd hsd).1 lS (fun j hj => (eS j hj).1)]
            simp only [ok_bind]
            refine (Res.bailIf _ _).mono fun _ hb sd' hsd' => ?_
            rw [hsd] at hsd'; cases hsd'
            exact ⟨d, z, rfl, l2, by simpa using hb⟩
      · unfold checkSuperDescribes
        cases htd : t.compositeType.describesIdx with
        | none =>
          have hxe := optIs_none' hE htd
          cases hud : u.compositeType.describesIdx with
          | none =>
            have hye := optIs_none' kE hud
            exact .ok ⟨by simp [hye], fun _ => hxe⟩
          | some q => exact (Res.bailIf _ _).mono fun _ hb => by cases hb
        | some a =>
          obtain ⟨d, hxd, ha⟩ := optIs_some hE htd
          obtain ⟨hd1, hd2⟩ := bE d hxd
          cases hud : u.compositeType.describesIdx with
          | none => exact (Res.bailIf _ _).mono fun _ hb => by cases hb
          | some q =>
            obtain ⟨sd, hsd, hq⟩ := optIs_some kE hud
            obtain ⟨v, z, l1, l2, lS, _, _, _, eS, _⟩ := h.opts hd2
            simp only
            rw [atPacked_spec ha hd1]
            simp only [typeAt, l1, unwrap, ok_bind]
            rw [differs_spec hq (cE sd hsd).1 lS (fun j hj => (eS j hj).1)]
            simp only [ok_bind]
            refine (Res.bailIf _ _).mono fun _ hb => ⟨fun sd' hsd' => ?_, by simp [hsd]⟩
            rw [hsd] at hsd'; cases hsd'
            exact ⟨d, z, hxd, l2, by simpa using hb⟩
      · intro j' y' hj' hy'
        rw [hj] at hj'; cases hj'
        rw [k2] at hy'; cases hy'
        exact ⟨q1, q2.1, q2.2⟩
  -- the inverse clauses
  refine Res.bind (P := fun _ => ∀ d, x.descriptor = some d → ∃ y, (flat 0 G)[d]? = some y ∧
    y.describes = some n) ?_ fun _ h2 => Res.mono (P := fun _ => ∀ d, x.describes = some d →
      ∃ y, (flat 0 G)[d]? = some y ∧ y.descriptor = some n) ?_ fun _ h3 => ⟨h0, h2, h3, h1⟩
  · cases hxd : x.descriptor with
    | none => exact .ok (by simp)
    | some d =>
      obtain ⟨v, z, l1, l2, _, _, lE, _, _, _, eE⟩ := h.opts (bD d hxd).2
      unfold checkBack
      simp only [typeAt, l1, unwrap, ok_bind]
      rw [mapCanonical_spec lE fun j hj => (eE j hj).1]
      simp only [ok_bind]
      refine (Res.bailIf _ _).mono fun _ hb d' hd' => ?_
      cases hd'
      exact ⟨z, l2, by simpa using hb⟩
  · cases hxd : x.describes with
    | none => exact .ok (by simp)
    | some d =>
      obtain ⟨v, z, l1, l2, _, lD, _, _, _, eD, _⟩ := h.opts (bE d hxd).2
      unfold checkBack
      simp only [typeAt, l1, unwrap, ok_bind]
      rw [mapCanonical_spec lD fun j hj => (eD j hj).1]
      simp only [ok_bind]
      refine (Res.bailIf _ _).mono fun _ hb d' hd' => ?_
      cases hd'
      exact ⟨z, l2, by simpa using hb⟩

/-- The loop over the types of a new group. -/
theorem addIds_new {n len : Nat} (h : Inv f T G n) (hn : n + len = total G) (m : List Nat)
    (k : Nat) :
    Res sz (addIds f true k (List.range' n len) T m) fun r =>
      Inv f r.1 G (total G) ∧ r.2 = m ++ List.range' n len := by
  induction len generalizing n T m with
  | zero =>
    simp only [Nat.add_zero] at hn
    subst hn
    exact .ok ⟨h, by simp⟩
  | succ len ih =>
    rw [List.range'_succ]
    unfold addIds
    have hlt : n < total G := by omega
    refine (Res.u32 (by have := h.small; omega)).bind fun n' hn' => ?_
    subst n'
    obtain ⟨t, x, h1, h2, h3⟩ := h.at hlt
    refine (Res.assert (by simp [h1])).bind fun _ _ => ?_
    simp only [if_true]
    refine (checkSubtype_spec h hlt _ k h2).bind ?_
    rintro T' ⟨d, hd, rfl, hsub⟩
    have hst := h.toStatic.depth fun i => if i = n then some d else T.coreTypeToDepth i
    refine (checkDescriptors_spec hst hlt _ k h2).bind fun _ hdesc => ?_
    refine (ih (n := n + 1) ⟨hst, ?_, ?_, ?_, ?_⟩ (by omega) _).mono ?_
    · intro i
      simp only
      by_cases hi : i = n
      · simp [hi]
      · rw [if_neg hi, h.depth i]; omega
    · intro i e he
      simp only at he
      split at he
      · cases he; exact hd
      · exact h.depthLe i e he
    · intro i y hi hy
      by_cases hin : i = n
      · subst hin
        rw [h2] at hy; cases hy
        exact hsub
      · have hi' : i < n := by omega
        obtain ⟨q1, q2, q3, q4, q5⟩ := h.sub i y hi' hy
        have hs := (flat_refs h.gok hy).2
        refine ⟨fun e => by simp only; rw [if_neg hin]; exact q1 e, fun j hj => ?_, q3, q4, q5⟩
        obtain ⟨z, d', r1, r2, r3, r4, r5, r6⟩ := q2 j hj
        have := hs j hj
        exact ⟨z, d', r1, r2, r3, r4, by simp only; rw [if_neg (by omega)]; exact r5,
          by simp only; rw [if_neg hin]; exact r6⟩
    · intro i y hi hy
      by_cases hin : i = n
      · subst hin
        rw [h2] at hy; cases hy
        exact hdesc
      · exact h.desc i y (by omega) hy
    · rintro r ⟨r1, r2⟩
      refine ⟨r1, ?_⟩
      rw [r2]; simp

/-- The loop over the types of a known group. -/
theorem addIds_old {n len : Nat} (h : Static f T G) (hn : n + len ≤ total G) (m : List Nat)
    (k : Nat) :
    Res sz (addIds f false k (List.range' n len) T m) fun r =>
      r.1 = T ∧ r.2 = m ++ List.range' n len := by
  induction len generalizing n m with
  | zero => exact .ok ⟨rfl, by simp⟩
  | succ len ih =>
    rw [List.range'_succ]
    unfold addIds
    have hlt : n < total G := by omega
    refine (Res.u32 (by have := h.small; omega)).bind fun n' hn' => ?_
    subst n'
    obtain ⟨t, x, h1, h2, h3⟩ := h.at hlt
    refine (Res.assert (by simp [h1])).bind fun _ _ => ?_
    simp only [Bool.false_eq_true, if_false]
    refine (ih (n := n + 1) (by omega) _).mono ?_
    rintro r ⟨r1, r2⟩
    exact ⟨r1, by rw [r2]; simp⟩

end Verif.TypeList
