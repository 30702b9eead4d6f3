import Verif.TypeList.Check
/-! # Adding a recursion group -/
namespace Verif.TypeList
open Verif.Types
open Spec (SubT Comp Heap Ref Val Storage Field Kind Decls CompSub Comp.kind)

variable {sz : Prop} {f : Features} {T : TypeList} {G : List CGroup}

/-! ## More groups -/

theorem flat_append (G : List CGroup) (c : CGroup) :
    flat 0 (G ++ [c]) = flat 0 G ++ ided (total G) c := by
  rw [flat_snoc, Nat.zero_add]; rfl

theorem flat_old {i : Nat} {x : SubT Nat} (c : CGroup) (h : (flat 0 G)[i]? = some x) :
    (flat 0 (G ++ [c]))[i]? = some x := by
  rw [flat_append, List.getElem?_append_left (by rw [flat_length]; exact flat_lt h)]
  exact h

theorem declsLe (G : List CGroup) (c : CGroup) : DeclsLe (declsG G) (declsG (G ++ [c])) := by
  constructor
  · intro i p h
    simp only [declsG, Option.map_eq_some_iff] at h ⊢
    obtain ⟨x, hx, e⟩ := h
    exact ⟨x, flat_old c hx, e⟩
  · intro i j h
    simp only [declsG, Option.bind_eq_some_iff] at h ⊢
    obtain ⟨x, hx, e⟩ := h
    exact ⟨x, flat_old c hx, e⟩

theorem valShared.mono {D D' : Decls} (h : DeclsLe D D') {v : Val Nat} (hv : valShared D v) :
    valShared D' v := by
  cases v <;> try trivial
  rename_i r
  obtain ⟨n, x⟩ := r
  cases x with
  | abs s t => exact hv
  | concrete i =>
    simp only [valShared, heapShared, Option.map_eq_some_iff] at hv ⊢
    obtain ⟨p, hp, e⟩ := hv
    exact ⟨p, h.1 i p hp, e⟩
  | exact i =>
    simp only [valShared, heapShared, Option.map_eq_some_iff] at hv ⊢
    obtain ⟨p, hp, e⟩ := hv
    exact ⟨p, h.1 i p hp, e⟩

theorem storageShared.mono {D D' : Decls} (h : DeclsLe D D') {v : Storage Nat}
    (hv : storageShared D v) : storageShared D' v := by
  cases v <;> try trivial
  exact valShared.mono h hv

theorem compShared.mono {D D' : Decls} (h : DeclsLe D D') {v : Comp Nat}
    (hv : compShared D v) : compShared D' v := by
  cases v with
  | func ps rs => exact ⟨fun p hp => valShared.mono h (hv.1 p hp), fun p hp => valShared.mono h (hv.2 p hp)⟩
  | array f => exact storageShared.mono h hv
  | struct fs => exact fun f hf => storageShared.mono h (hv f hf)
  | cont i => trivial

theorem SubChecked.mono {depth : Nat → Option Nat} {i : Nat} {x : SubT Nat} (c : CGroup)
    (h : SubChecked f G depth i x) : SubChecked f (G ++ [c]) depth i x := by
  obtain ⟨h1, h2, h3, h4, h5⟩ := h
  have hle := declsLe G c
  refine ⟨h1, fun j hj => ?_, fun e => compShared.mono hle (h3 e), fun j hj => ?_, h5⟩
  · obtain ⟨y, d, k1, k2, k3, k4, k5⟩ := h2 j hj
    exact ⟨y, d, flat_old c k1, k2, k3, CompSub.mono hle k4, k5⟩
  · obtain ⟨s, hs⟩ := h4 j hj
    exact ⟨s, hle.1 _ _ hs⟩

theorem DescChecked.mono {i : Nat} {x : SubT Nat} (c : CGroup) (hG : GroupsOk G)
    (hx : (flat 0 G)[i]? = some x) (h : DescChecked G i x) : DescChecked (G ++ [c]) i x := by
  obtain ⟨h1, h2, h3, h4⟩ := h
  refine ⟨h1, fun d hd => ?_, fun d hd => ?_, fun j y hj hy => ?_⟩
  · obtain ⟨y, k1, k2⟩ := h2 d hd
    exact ⟨y, flat_old c k1, k2⟩
  · obtain ⟨y, k1, k2⟩ := h3 d hd
    exact ⟨y, flat_old c k1, k2⟩
  · have hlt := ((flat_refs hG hx).1 j (by simp [SubT.refs, hj])).2
    have hy' : (flat 0 G)[j]? = some y := by
      rw [flat_append, List.getElem?_append_left (by rwa [flat_length])] at hy
      exact hy
    obtain ⟨k1, k2, k3⟩ := h4 j y hj hy'
    refine ⟨fun sd hsd => ?_, fun sd hsd => ?_, k3⟩
    · obtain ⟨d, z, l1, l2, l3⟩ := k1 sd hsd
      exact ⟨d, z, l1, flat_old c l2, l3⟩
    · obtain ⟨d, z, l1, l2, l3⟩ := k2 sd hsd
      exact ⟨d, z, l1, flat_old c l2, l3⟩

/-! ## Interning -/

theorem count_snoc {c : CGroup} (h : G.length ≤ total G + if [] ∈ G then 1 else 0)
    (hc : c ∉ G ∨ c ≠ []) :
    (G ++ [c]).length ≤ total (G ++ [c]) + if [] ∈ G ++ [c] then 1 else 0 := by
  rw [total_snoc, List.length_append, List.length_singleton]
  cases c with
  | nil =>
    have hn : [] ∉ G := by simpa using hc
    rw [if_neg hn] at h
    rw [if_pos (by simp)]
    simp; omega
  | cons x c =>
    have : ([] ∈ G ++ [x :: c]) ↔ [] ∈ G := by simp
    simp only [this, List.length_cons]
    omega

theorem Static.groupsLt (h : Static f T G) (hz : total G ≤ 2 ^ 20) : G.length < 2 ^ 32 := by
  have := h.count
  split at this <;> omega

theorem internNew_spec (h : Static f T G) {g : List SubType} {c : CGroup}
    (hg : List.Forall₂ (fun t x => DSub t (x.map cpack)) g c)
    (hr : ∀ x ∈ c, ∀ r ∈ x.refs, Small r ∧ (∀ i, r = .inl i → i < c.length) ∧
      ∀ j, r = .inr j → j < total G)
    (hs : ∀ p x, c[p]? = some x → ∀ r ∈ x.supertype, SupOk p r)
    (hnew : f.needsTypeCanonicalization = true → c ∉ G) (hc : c ∉ G ∨ c ≠ [])
    (hz : sz → total G + c.length ≤ 2 ^ 20) :
    Res sz (internNew { T with canonicalRecGroups :=
        fun x => if x = g then some G.length else T.canonicalRecGroups x } G.length g) fun r =>
      r.1 = (true, G.length) ∧ Static f r.2 (G ++ [c]) ∧
        r.2.coreTypeToDepth = T.coreTypeToDepth := by
  unfold internNew
  simp only
  have hlen := h.length
  refine (Res.u32 (by rw [hlen]; exact h.small)).bind ?_
  rintro _ rfl
  rw [hlen]
  refine (internTypes_spec hg (fun x hx r hr' => ⟨(hr x hx r hr').1, fun i e z => ?_⟩) _ ?_ ?_).bind ?_
  · have := (hr x hx r hr').2.1 i e
    have := hz z
    omega
  · simp only; rw [h.supers, hlen, List.length_map, flat_length]
  · simp only; rw [h.groups, hlen, gids_length]
  · rintro T' ⟨tys, rfl, htys, hids⟩
    simp only
    have hl2 : (T.coreTypes ++ tys).length = total G + c.length := by
      rw [List.length_append, hlen, htys.length_eq]; simp [ided]
    rw [hl2]
    refine (Res.u32' fun z => by have := hz z; omega).bind ?_
    rintro _ ⟨rfl, h32⟩
    refine .ok ⟨rfl, ?_, rfl⟩
    have hgok : GroupOk (total G) c := by
      refine ⟨fun x hx r hr' => ?_, hs⟩
      obtain ⟨k1, k2, k3⟩ := hr x hx r hr'
      have := hids x hx r hr'
      cases r with
      | inl i => exact ⟨k2 i rfl, this⟩
      | inr j => exact ⟨k3 j rfl, this⟩
    refine ⟨?_, ?_, ?_, ?_, ?_, .snoc h.gok hgok, ?_, ?_, count_snoc h.count hc⟩
    · rw [flat_append]; exact List.rel_append h.types htys
    · simp only; rw [gids_snoc, h.groups, Nat.zero_add]
    · simp only; rw [flat_append, List.map_append, h.supers]
    · simp only; rw [elems_snoc, h.elems, Nat.zero_add]
    · intro hn g' k
      have hca := h.canon hn
      simp only
      constructor
      · intro hk
        split at hk
        · cases hk
          rename_i e
          exact ⟨c, by simp, e ▸ hg⟩
        · obtain ⟨c', h1, h2⟩ := (hca g' k).1 hk
          exact ⟨c', by rw [List.getElem?_append_left (List.getElem?_eq_some_iff.1 h1).1]; exact h1, h2⟩
      · rintro ⟨c', h1, h2⟩
        by_cases hk : k < G.length
        · rw [List.getElem?_append_left hk] at h1
          have h3 := (hca g' k).2 ⟨c', h1, h2⟩
          split
          · rename_i e
            subst e
            have hcc : c'.map (SubT.map cpack) = c.map (SubT.map cpack) :=
              forall₂_right (D := DSub) (fun _ _ _ => DSub.right)
                (by rw [List.forall₂_map_right_iff]; exact h2)
                (by rw [List.forall₂_map_right_iff]; exact hg)
            exfalso
            apply hnew hn
            have hsm : ∀ r ∈ c'.flatMap SubT.refs, Small r := by
              intro r hr'
              obtain ⟨x, hx, hr'⟩ := List.mem_flatMap.1 hr'
              have := (h.gok.get h1).1 x hx r hr'
              cases r with
              | inl i => have h2 := this.2; simp only [Small]; omega
              | inr j => exact this.2
            have : c' = c := by
              refine Spec.group_map_inj ?_ hcc
              intro r hr' s hs' e
              have h1 := hsm r hr'
              obtain ⟨x, hx, hs'⟩ := List.mem_flatMap.1 hs'
              have h2 := (hr x hx s hs').1
              cases r <;> cases s <;> simp only [cpack, UnpackedIndex.recGroup.injEq,
                UnpackedIndex.id.injEq, reduceCtorEq] at e
              · have := congrArg BitVec.toNat e
                rw [toNat_small h1, toNat_small h2] at this
                rw [this]
              · have := congrArg BitVec.toNat e
                rw [toNat_small h1, toNat_small h2] at this
                rw [this]
            rw [← this]
            exact List.mem_iff_getElem?.2 ⟨k, h1⟩
          · exact h3
        · have : k = G.length := by
            by_contra hne
            rw [List.getElem?_eq_none (by simp; omega)] at h1
            cases h1
          subst this
          simp at h1
          subst h1
          rw [if_pos]
          exact forall₂_left (D := fun (t : SubType) (x : SubT CRef) => DSub t (x.map cpack)) (fun _ _ _ => DSub.left) h2 hg
    · intro hn
      rw [List.nodup_append]
      exact ⟨h.nodup hn, by simp, fun a ha b hb e => hnew hn (by simp at hb; rw [← hb, ← e]; exact ha)⟩
    · rw [total_snoc]; exact h32

/-! ## Canonicalizing validators -/

/-- The groups given to the validator, as read by the parser: `xs` with indices of the
module for references. -/
def Src (g : RecGroup) (xs : List (SubT Nat)) : Prop :=
  List.Forall₂ (fun t x => DSub t (x.map modIdx)) g.types xs ∧
  ∀ x ∈ xs, ∀ r ∈ x.refs, r < 2 ^ 20

/-- What adding a group does. -/
def Added (f : Features) (G : List CGroup) (m : List Nat) (xs : List (SubT Nat))
    (r : TypeList × List Nat) : Prop :=
  ∃ G' k, Inv f r.1 (G ++ G') (total (G ++ G')) ∧
    (G ++ G')[k]? = some (xs.map (SubT.map (canon m))) ∧
    r.2 = m ++ List.range' (startOf (G ++ G') k) xs.length ∧
    ∀ x ∈ xs, ∀ r ∈ x.refs, r < m.length + xs.length

theorem canon_cases {m : List Nat} {r : Nat} :
    (∃ h : r < m.length, canon m r = .inr m[r]) ∨
    (m.length ≤ r ∧ canon m r = .inl (r - m.length)) := by
  unfold canon
  by_cases h : r < m.length
  · left; exact ⟨h, by rw [List.getElem?_eq_getElem h]⟩
  · right; exact ⟨by omega, by rw [List.getElem?_eq_none (by omega)]⟩

theorem startOf_self (c : CGroup) : startOf (G ++ [c]) G.length = total G := by
  rw [startOf_append _ (Nat.le_refl _), startOf_length]

theorem add_slow (hf : f.needsTypeCanonicalization = true) (h : Inv f T G (total G))
    {m : List Nat} (hm : ∀ id ∈ m, id < total G) (hml : m.length ≤ maxWasmTypes)
    {g : RecGroup} {xs : List (SubT Nat)} (hg : Src g xs) (hgl : xs.length ≤ maxWasmTypes)
    (hz : sz → total G + xs.length ≤ 2 ^ 20) :
    Res sz (canonicalizeAndIntern f T m g) (Added f G m xs) := by
  have hlen := hg.1.length_eq
  have hmw : maxWasmTypes = 1000000 := rfl
  unfold canonicalizeAndIntern
  refine (Res.assert (by cases g <;> simp [RecGroup.isExplicit, RecGroup.types])).bind fun _ _ => ?_
  refine Res.reqIf _ _ fun hgc => ?_
  have hgc' : f.gc = true ∨ g.types.length = 1 := by
    cases g with
    | implicit o t => right; rfl
    | explicit l => left; exact hgc rfl
  rw [if_pos hf]
  unfold canonicalizeRecGroup
  rw [hf]
  refine Res.bind (P := fun g' =>
      List.Forall₂ (fun t x => DSub t ((x.map (canon m)).map cpack)) g' xs ∧
      ∀ p x, xs[p]? = some x → CanonOk m g.types.length (m.length + 0 + p) x) ?_ ?_
  · refine (Res.u32 (by omega)).bind ?_
    rintro _ rfl
    refine (Res.u32 (by omega)).bind ?_
    rintro _ rfl
    exact canonicalizeTypes_spec (fun id hid => by have := hm id hid; have := h.small; omega) hgc'
      hg.1 hg.2 0 (by omega)
  rintro g' ⟨hg', hcan⟩
  have hcg : List.Forall₂ (fun t x => DSub t (x.map cpack)) g' (xs.map (SubT.map (canon m))) := by
    rw [List.forall₂_map_right_iff]; exact hg'
  have hxr : ∀ x ∈ xs, ∀ r ∈ x.refs, r < m.length + xs.length ∧ Small (canon m r) := by
    intro x hx r hr
    obtain ⟨p, hp⟩ := List.mem_iff_getElem?.1 hx
    have := (hcan p x hp).1 r hr
    rwa [hlen] at this
  unfold internCanonicalRecGroup
  rw [show T.recGroupElements.length = G.length by rw [h.elems, elems_length]]
  simp only [bind_assoc]
  refine (Res.u32' fun z => h.groupsLt (by have := hz z; omega)).bind ?_
  rintro _ ⟨rfl, _⟩
  rw [if_pos trivial]
  cases hlook : T.canonicalRecGroups g' with
  | some k =>
    obtain ⟨c, hk, hc⟩ := (h.canon hf g' k).1 hlook
    have hcc : xs.map (SubT.map (canon m)) = c := by
      have e : (xs.map (SubT.map (canon m))).map (SubT.map cpack) = c.map (SubT.map cpack) :=
        forall₂_right (D := DSub) (fun _ _ _ => DSub.right)
          (by rw [List.forall₂_map_right_iff]; exact hcg)
          (by rw [List.forall₂_map_right_iff]; exact hc)
      refine Spec.group_map_inj ?_ e
      intro r hr' s hs' e
      have h1 : Small r := by
        obtain ⟨x, hx, hr'⟩ := List.mem_flatMap.1 hr'
        obtain ⟨z, hz, rfl⟩ := List.mem_map.1 hx
        rw [SubT.refs_map] at hr'
        obtain ⟨q, hq, rfl⟩ := List.mem_map.1 hr'
        exact (hxr z hz q hq).2
      have h2 : Small s := by
        obtain ⟨x, hx, hr'⟩ := List.mem_flatMap.1 hs'
        have := (h.gok.get hk).1 x hx s hr'
        cases s with
        | inl i => have h2 := this.2; simp only [Small]; omega
        | inr j => exact this.2
      cases r <;> cases s <;> simp only [cpack, UnpackedIndex.recGroup.injEq,
        UnpackedIndex.id.injEq, reduceCtorEq] at e
      · have := congrArg BitVec.toNat e
        rw [toNat_small h1, toNat_small h2] at this
        rw [this]
      · have := congrArg BitVec.toNat e
        rw [toNat_small h1, toNat_small h2] at this
        rw [this]
    subst hcc
    simp only [pure_ok, ok_bind]
    rw [h.elems, elems_get, hk]
    simp only [Option.map_some, unwrap, ok_bind, Nat.zero_add, Nat.add_sub_cancel_left,
      List.length_map]
    refine (addIds_old h.toStatic (by have := startOf_add_le hk; simpa using this) m k).mono ?_
    rintro ⟨T', m'⟩ ⟨rfl, rfl⟩
    refine ⟨[], k, by simpa using h, by simpa using hk, by simp, fun x hx r hr => (hxr x hx r hr).1⟩
  | none =>
    simp only
    have hnotin : xs.map (SubT.map (canon m)) ∉ G := by
      intro hin
      obtain ⟨k, hk⟩ := List.mem_iff_getElem?.1 hin
      have := (h.canon hf g' k).2 ⟨_, hk, hcg⟩
      rw [hlook] at this; cases this
    refine (internNew_spec h.toStatic hcg ?_ ?_ (fun _ => hnotin) (.inl hnotin)
      (fun z => by simpa using hz z)).bind ?_
    · intro x hx r hr
      obtain ⟨y, hy, rfl⟩ := List.mem_map.1 hx
      rw [SubT.refs_map] at hr
      obtain ⟨q, hq, rfl⟩ := List.mem_map.1 hr
      obtain ⟨h1, h2⟩ := hxr y hy q hq
      refine ⟨h2, ?_, ?_⟩
      · intro i e
        rcases canon_cases (m := m) (r := q) with ⟨_, e'⟩ | ⟨_, e'⟩
        · rw [e'] at e; cases e
        · rw [e'] at e; cases e; simp; omega
      · intro j e
        rcases canon_cases (m := m) (r := q) with ⟨_, e'⟩ | ⟨_, e'⟩
        · rw [e'] at e; cases e; exact hm _ (List.getElem_mem _)
        · rw [e'] at e; cases e
    · intro p x hx r hr
      simp only [List.getElem?_map, Option.map_eq_some_iff] at hx
      obtain ⟨y, hy, rfl⟩ := hx
      simp only [SubT.map, Option.mem_def, Option.map_eq_some_iff] at hr
      obtain ⟨q, hq, rfl⟩ := hr
      have := (hcan p y hy).2.1 q hq
      rcases canon_cases (m := m) (r := q) with ⟨_, e'⟩ | ⟨_, e'⟩
      · rw [e']; trivial
      · rw [e']; simp only [SupOk]; omega
    · rintro ⟨⟨isNew, k⟩, T'⟩ ⟨h1, h2, h3⟩
      simp only [Prod.mk.injEq] at h1
      obtain ⟨rfl, rfl⟩ := h1
      simp only at h2 h3 ⊢
      generalize hc : xs.map (SubT.map (canon m)) = c at h2
      have hcl : c.length = xs.length := by rw [← hc]; simp
      rw [h2.elems, elems_get]
      simp only [List.getElem?_append_right (Nat.le_refl G.length), Nat.sub_self,
        List.getElem?_cons_zero, Option.map_some, unwrap, ok_bind, Nat.zero_add,
        Nat.add_sub_cancel_left, startOf_self]
      have hinv : Inv f T' (G ++ [c]) (total G) := by
        refine ⟨h2, ?_, ?_, ?_, ?_⟩
        · rw [h3]; exact h.depth
        · rw [h3]; exact h.depthLe
        · intro i x hi hx
          rw [flat_append, List.getElem?_append_left (by rwa [flat_length])] at hx
          rw [h3]
          exact (h.sub i x hi hx).mono c
        · intro i x hi hx
          rw [flat_append, List.getElem?_append_left (by rwa [flat_length])] at hx
          exact (h.desc i x hi hx).mono c h.gok hx
      refine (addIds_new hinv (by rw [total_snoc]) m G.length).mono ?_
      rintro ⟨T'', m'⟩ ⟨q1, q2⟩
      simp only at q1 q2
      exact ⟨[c], G.length, q1, by simp [hc], by rw [startOf_self, q2, hcl],
        fun x hx r hr => (hxr x hx r hr).1⟩

/-! ## Validators without canonicalization

Only the features of the first versions are enabled; then types have no references. -/

/-- What is off. -/
theorem fast_features (hf : f.needsTypeCanonicalization = false) :
    f.functionReferences = false ∧ f.gc = false ∧ f.stackSwitching = false ∧
      f.sharedEverythingThreads = false ∧ f.customDescriptors = false := by
  unfold Features.needsTypeCanonicalization at hf
  simp only [Bool.or_eq_false_iff] at hf
  simp [hf]

theorem checkValueType_fast (hf : f.needsTypeCanonicalization = false) {t : ValType}
    {x : Val U} (h : DVal t x) : Res sz (checkValueType f t) fun _ => x.refs = [] := by
  obtain ⟨f1, f2, _, _, f5⟩ := fast_features hf
  cases t <;> cases x <;> simp only [DVal] at h <;> unfold checkValueType <;> first
    | exact .ok rfl
    | exact (Res.require _ _).mono fun _ _ => rfl
    | skip
  rename_i r x
  simp only
  obtain ⟨n, x⟩ := x
  cases x with
  | abs s t => exact (checkRefType_res h).mono fun _ _ => rfl
  | concrete u =>
    unfold checkRefType
    refine (Res.require _ _).bind fun _ _ => (Res.unwrap h.view.2).bind ?_
    rintro _ rfl
    simp only [toHeap]
    rw [f2, if_neg (by simp)]
    exact (Res.require _ _).mono fun _ e => by rw [f1] at e; cases e
  | exact u =>
    unfold checkRefType
    refine (Res.require _ _).bind fun _ _ => (Res.unwrap h.view.2).bind ?_
    rintro _ rfl
    simp only [toHeap]
    exact (Res.require _ _).mono fun _ e => by rw [f5] at e; cases e

theorem checkComposite_fast (hf : f.needsTypeCanonicalization = false) {t : CompositeType}
    {x : Comp U} (h : DComp t.inner x) (T : TypeList) :
    Res sz (checkCompositeType f T t) fun _ => x.refs = [] ∧ t.shared = false ∧
      ∀ j, x ≠ .cont j := by
  obtain ⟨f1, f2, f3, f4, f5⟩ := fast_features hf
  obtain ⟨inner, sh, d, e⟩ := t
  unfold checkCompositeType
  simp only at h ⊢
  refine Res.reqIf _ _ fun hs => ?_
  have hs : sh = false := by
    cases sh
    · rfl
    · rw [f4] at hs; exact absurd (hs rfl) (by decide)
  subst hs
  cases inner <;> cases x <;> simp only [DComp] at h <;> simp only
  · rename_i t ps rs
    have hp := DComp.params (f := t) (ps := ps) (rs := rs) h
    have hall := List.rel_append hp.1 hp.2
    refine (forM'_spec (P := fun x : Val U => x.refs = []) hall fun a y hy ha => ?_).bind
      fun _ hps => ?_
    · unfold checkVal
      refine (checkValueType_fast hf ha).bind fun _ e => ?_
      rw [if_neg (by simp)]
      exact .ok e
    · have : (Comp.func ps rs).refs = [] ∧ True ∧ ∀ j, Comp.func ps rs ≠ .cont j := by
        refine ⟨?_, trivial, nofun⟩
        simp only [Comp.refs, List.append_eq_nil_iff, List.flatMap_eq_nil_iff]
        exact ⟨fun p hp => hps p (by simp [hp]), fun p hp => hps p (by simp [hp])⟩
      exact .ite (fun _ => (Res.require _ _).mono fun _ _ => this) fun _ => .ok this
  · exact (Res.require _ _).bind fun _ e => by rw [f2] at e; cases e
  · exact (Res.require _ _).bind fun _ e => by rw [f2] at e; cases e
  · exact (Res.require _ _).bind fun _ e => by rw [f3] at e; cases e

theorem local_mod {s r : Nat} (hr : r < 2 ^ 20) :
    Res sz (fhat (localToId s) (modIdx r)) fun u => u = modIdx r := by
  obtain ⟨p, hp, hu⟩ := pack_ok (u := modIdx r)
    (by show (BitVec.ofNat 32 r).toNat < _; rw [toNat_small hr]; exact hr)
  unfold fhat
  rw [hp]
  simp only [unwrap, ok_bind]
  unfold localToId
  rw [hu]
  simp only [unwrap, ok_bind, modIdx, pure_ok]
  rw [hu]
  exact .ok rfl

theorem optIs_isSome {α : Type} {g : α → U} {o : Option PackedIndex} {x : Option α}
    (h : OptIs DIdx o (x.map g)) : o.isSome = x.isSome := by
  cases o <;> cases x <;> simp_all [OptIs]

theorem add_fast (hf : f.needsTypeCanonicalization = false) (h : Inv f T G (total G))
    {m : List Nat} {g : RecGroup} {xs : List (SubT Nat)} (hg : Src g xs)
    (hz : sz → total G + xs.length ≤ 2 ^ 20) :
    Res sz (canonicalizeAndIntern f T m g) (Added f G m xs) := by
  obtain ⟨f1, f2, f3, f4, f5⟩ := fast_features hf
  unfold canonicalizeAndIntern
  refine (Res.assert (by cases g <;> simp [RecGroup.isExplicit, RecGroup.types])).bind fun _ _ => ?_
  refine Res.reqIf _ _ fun hgc => ?_
  cases g with
  | explicit l => rw [f2] at hgc; exact absurd (hgc rfl) (by decide)
  | implicit o t =>
  obtain ⟨hg1, hg2⟩ := hg
  simp only [RecGroup.types] at hg1 ⊢
  cases hg1 with
  | @cons _ x _ _ ht hnil =>
  cases hnil
  have hx2 := hg2 x (by simp)
  rw [hf, if_neg (by simp)]
  simp only [pure_ok, ok_bind]
  unfold internCanonicalRecGroup
  rw [show T.recGroupElements.length = G.length by rw [h.elems, elems_length]]
  simp only [bind_assoc]
  refine (Res.u32' fun z => h.groupsLt (by have := hz z; omega)).bind ?_
  rintro _ ⟨rfl, _⟩
  rw [if_neg (by simp)]
  unfold internNew
  simp only [bind_assoc, internTypes]
  have hlen := h.length
  refine (Res.u32 (by rw [hlen]; exact h.small)).bind fun s hs => ?_
  rw [hlen] at hs
  subst s
  refine (Res.assert (by simp [h.supers, hlen, flat_length])).bind fun _ _ => ?_
  refine (Res.assert (by simp [h.groups, hlen, gids_length])).bind fun _ _ => ?_
  obtain ⟨t1, t2, t3, t4, t5, t6⟩ := ht
  simp only [SubT.map] at t1 t2 t3 t4 t5 t6
  refine Res.bind (P := fun y => y = none) ?_ fun y hy => ?_
  · unfold supertypeId
    cases hsx : t.supertypeIdx with
    | none => exact .ok rfl
    | some p =>
      rw [hsx] at t2
      cases hxs : x.supertype with
      | none => rw [hxs] at t2; exact t2.elim
      | some r =>
        rw [hxs] at t2
        simp only
        refine (Res.unwrap (DIdx.unpack t2)).bind ?_
        rintro _ rfl
        exact .ok rfl
  subst hy
  refine (Res.remaps (remapSub_spec (keeps_local (total G))
    (x := x.map modIdx) ⟨t1, t2, t3, t4, t5, t6⟩)
    (Q := fun u u' => u' = u) ?_).bind ?_
  · intro u hu
    rw [SubT.refs_map] at hu
    obtain ⟨r, hr, rfl⟩ := List.mem_map.1 hu
    exact local_mod (hx2 r hr)
  rintro t' ⟨ht', hq⟩
  have ht' : DSub t' (x.map modIdx) := by
    rw [SubT.map_map] at ht'
    rwa [SubT.map_congr (h := modIdx) fun r hr => hq _ (by
      rw [SubT.refs_map]; exact List.mem_map_of_mem hr)] at ht'
  obtain rfl : t = t' := DSub.left (x := x.map modIdx) ⟨t1, t2, t3, t4, t5, t6⟩ ht'
  clear ht' hq
  simp only [pure_ok, ok_bind, List.length_append, List.length_singleton, hlen]
  refine (Res.u32' fun z => by have := hz z; simp at this; omega).bind ?_
  rintro _ ⟨rfl, h32⟩
  have hel : (T.recGroupElements ++ [(total G, total G + 1)])[G.length]? =
      some (total G, total G + 1) := by
    have : T.recGroupElements.length = G.length := by rw [h.elems, elems_length]
    rw [← this]; simp
  simp only [ok_bind, hel, unwrap, Nat.add_sub_cancel_left, List.range'_one]
  unfold addIds
  refine (Res.u32 h.small).bind fun s hs => ?_
  subst s
  have hget : (T.coreTypes ++ [t])[total G]? = some t := by rw [← hlen]; simp
  refine (Res.assert (by simp [hget])).bind fun _ _ => ?_
  simp only [if_true]
  have hdn : T.coreTypeToDepth (total G) = none := by
    have := (h.depth (total G)).not.2 (by omega)
    simpa using this
  -- check_subtype
  refine Res.bind (P := fun T' => x.final = true ∧ x.supertype = none ∧ x.comp.refs = [] ∧
    x.shared = false ∧ (∀ j, x.comp ≠ .cont j) ∧ Spec.SubFeats f x ∧ T' = { T with
      coreTypes := T.coreTypes ++ [t]
      coreTypeToRecGroup := T.coreTypeToRecGroup ++ [G.length]
      coreTypeToSupertype := T.coreTypeToSupertype ++ [none]
      recGroupElements := T.recGroupElements ++ [(total G, total G + 1)]
      coreTypeToDepth := fun i => if i = total G then some 0 else T.coreTypeToDepth i }) ?_ ?_
  · unfold checkSubtype
    simp only [typeAt, hget, unwrap, ok_bind]
    refine Res.reqIf _ _ fun hgc => ?_
    rw [f2] at hgc
    simp only [Bool.or_eq_true, Bool.not_eq_eq_eq_not, Bool.not_true, Bool.false_eq_true,
      imp_false, not_or] at hgc
    have hsn : t.supertypeIdx = none := by simpa using hgc.2
    have hxs : x.supertype = none := by
      have := optIs_isSome t2
      rw [hsn] at this
      simpa using this.symm
    refine ((checkComposite_fast hf t6 _).and (.partly fun _ => checkComposite_feats t6)).bind ?_
    rintro _ ⟨⟨q1, q2, q3⟩, q8⟩
    rw [hsn]
    simp only
    unfold setSubtypingDepth
    refine (Res.assert (by simp)).bind fun _ _ => ?_
    refine (Res.assert (by simp [hdn])).bind fun _ _ => ?_
    refine .ok ⟨?_, hxs, ?_, ?_, ?_, ?_, rfl⟩
    · rw [← t1]; simpa using hgc.1
    · rw [Comp.refs_map] at q1; simpa using q1
    · rw [← t3]; exact q2
    · intro j e; exact q3 (modIdx j) (by rw [e]; rfl)
    · refine ⟨?_, fun e => q8.1 (t3.trans e), (compFeats_map modIdx _).1 q8.2⟩
      rw [hxs, ← t1]
      simp [hgc.1]
  rintro T' ⟨q1, q2, q3, q4, q5, q9, rfl⟩
  -- check_descriptors
  refine Res.bind (P := fun _ => x.descriptor = none ∧ x.describes = none) ?_ ?_
  · unfold checkDescriptors
    simp only [typeAt, hget, unwrap, ok_bind]
    refine Res.bind (P := fun _ => t.compositeType.descriptorIdx = none ∧
      t.compositeType.describesIdx = none) ?_ ?_
    · unfold checkClauses
      refine .ite (fun _ => (Res.require _ _).bind fun _ e => by rw [f5] at e; cases e) fun hc => ?_
      exact .ok (by simpa using hc)
    · rintro _ ⟨e1, e2⟩
      rw [e1, e2]
      have hsn : t.supertypeIdx = none := by
        have := optIs_isSome t2
        rw [q2] at this
        simpa using this
      simp only [mapCanonicalOpt, checkSuperDescriptors, hsn, checkBack, pure_ok, ok_bind]
      refine .ok ⟨?_, ?_⟩
      · have := optIs_isSome t4
        rw [e1] at this
        simpa using this.symm
      · have := optIs_isSome t5
        rw [e2] at this
        simpa using this.symm
  rintro _ ⟨q6, q7⟩
  have hrefs : x.refs = [] := by simp [SubT.refs, q2, q3, q6, q7]
  unfold addIds
  refine .ok ⟨[[x.map (canon m)]], G.length, ?_, by simp, ?_, ?_⟩
  · have hcr : (x.map (canon m)).refs = [] := by rw [SubT.refs_map, hrefs]; rfl
    have hfl : flat 0 (G ++ [[x.map (canon m)]]) =
        flat 0 G ++ [(x.map (canon m)).map (toId (total G))] := by
      rw [flat_append]; rfl
    have hid : ((x.map (canon m)).map (toId (total G))).map idx = x.map modIdx := by
      rw [SubT.map_map, SubT.map_map]
      exact SubT.map_congr (by simp [hrefs])
    have htot : total (G ++ [[x.map (canon m)]]) = total G + 1 := by rw [total_snoc]; rfl
    have hlast : ∀ i z, i < total G + 1 → (flat 0 (G ++ [[x.map (canon m)]]))[i]? = some z →
        (i < total G ∧ (flat 0 G)[i]? = some z) ∨
        (i = total G ∧ z = (x.map (canon m)).map (toId (total G))) := by
      intro i z hi hz'
      rw [hfl] at hz'
      by_cases hlt : i < total G
      · left
        rw [List.getElem?_append_left (by rwa [flat_length])] at hz'
        exact ⟨hlt, hz'⟩
      · right
        have : i = total G := by omega
        subst this
        rw [List.getElem?_append_right (Nat.le_of_eq (flat_length _ _)), flat_length, Nat.sub_self] at hz'
        simp at hz'
        exact ⟨rfl, hz'.symm⟩
    refine ⟨⟨?_, ?_, ?_, ?_, ?_, .snoc h.gok ⟨?_, ?_⟩, ?_, ?_, count_snoc h.count (.inr (by simp))⟩,
      ?_, ?_, ?_, ?_⟩
    · rw [hfl]
      refine List.rel_append h.types (.cons ?_ .nil)
      rw [hid]; exact ⟨t1, t2, t3, t4, t5, t6⟩
    · simp only; rw [gids_snoc, h.groups]; simp
    · simp only; rw [hfl, List.map_append, h.supers]; simp [SubT.map, q2]
    · simp only; rw [elems_snoc, h.elems]; simp
    · intro e; rw [hf] at e; cases e
    · intro y hy r hr
      simp at hy; subst hy
      rw [hcr] at hr; cases hr
    · intro p y hy r hr
      cases p with
      | zero =>
        simp at hy; subst hy
        simp [SubT.map, q2] at hr
      | succ p => simp at hy
    · intro e; rw [hf] at e; cases e
    · rw [htot]; exact h32
    · intro i
      rw [htot]
      simp only
      by_cases hi : i = total G
      · simp [hi]
      · rw [if_neg hi, h.depth i]; omega
    · intro i d hd
      simp only at hd
      split at hd
      · cases hd; exact Nat.zero_le _
      · exact h.depthLe i d hd
    · intro i z hi hz'
      rw [htot] at hi
      rcases hlast i z hi hz' with ⟨hlt, hz'⟩ | ⟨rfl, rfl⟩
      · obtain ⟨r1, r2, r3, r4, r5⟩ := (h.sub i z hlt hz').mono [x.map (canon m)]
        have hs := (flat_refs h.gok hz').2
        refine ⟨fun e => by simp only; rw [if_neg (by omega)]; exact r1 e, fun j hj => ?_, r3, r4, r5⟩
        obtain ⟨y, d, s1, s2, s3, s4, s5, s6⟩ := r2 j hj
        have := hs j hj
        exact ⟨y, d, s1, s2, s3, s4, by simp only; rw [if_neg (by omega)]; exact s5,
          by simp only; rw [if_neg (by omega)]; exact s6⟩
      · refine ⟨fun _ => by simp, ?_, ?_, ?_, (subFeats_map _ _).2 ((subFeats_map _ _).2 q9)⟩
        · simp [SubT.map, q2]
        · simp [SubT.map, q4]
        · intro j hj
          cases hc : x.comp <;> simp [SubT.map, Comp.map, hc] at hj
          exact (q5 _ hc).elim
    · intro i z hi hz'
      rw [htot] at hi
      rcases hlast i z hi hz' with ⟨hlt, hz'⟩ | ⟨rfl, rfl⟩
      · exact (h.desc i z hlt hz').mono _ h.gok hz'
      · refine ⟨?_, ?_, ?_, ?_⟩ <;> simp [SubT.map, q2, q6, q7]
  · simp only; rw [startOf_self]; simp
  · simp only [List.mem_singleton, forall_eq, hrefs]; simp

theorem addTypes_spec (h : Inv f T G (total G)) {m : List Nat} (hm : ∀ id ∈ m, id < total G)
    {g : RecGroup} {xs : List (SubT Nat)} (hg : Src g xs)
    (hz : sz → total G + xs.length ≤ 2 ^ 20) :
    Res sz (addTypes f T m g) (Added f G m xs) := by
  unfold addTypes
  refine (Res.require _ _).bind fun _ hlim => ?_
  simp only [decide_eq_true_eq] at hlim
  have hlen := hg.1.length_eq
  cases hf : f.needsTypeCanonicalization with
  | true => exact add_slow hf h hm hlim.1 hg (by omega) hz
  | false => exact add_fast hf h hg hz

end Verif.TypeList
