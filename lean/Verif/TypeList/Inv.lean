import Verif.TypeList.Feats
import Verif.TypeList.Sub
/-! # The invariant of the list of types -/
namespace Verif.TypeList
open Verif.Types
open Spec (SubT Comp Heap Val Storage Field Kind Decls CompSub Comp.kind)

variable {sz : Prop}

/-! ## Interning new types -/

theorem supertypeId_spec {o : Option PackedIndex} {x : Option CRef} {s : Nat}
    (h : OptIs DIdx o (x.map cpack)) (hx : ∀ r ∈ x, Small r)
    (hl : ∀ i, x = some (.inl i) → sz → s + i < 2 ^ 20) :
    Res sz (supertypeId s o) fun y => y = x.map (toId s) := by
  cases x with
  | none =>
    cases o with
    | none => exact .ok rfl
    | some p => exact h.elim
  | some r =>
    cases o with
    | none => exact h.elim
    | some p =>
      have h : DIdx p (cpack r) := h
      have hr := hx r rfl
      unfold supertypeId
      simp only
      refine (Res.unwrap h.unpack).bind ?_
      rintro _ rfl
      cases r with
      | inl i =>
        have hi : i < 2 ^ 20 := hr
        simp only [cpack]
        rw [toNat_small hi]
        refine (Res.u32' fun hz => by have := hl i rfl hz; omega).bind ?_
        rintro _ ⟨rfl, _⟩
        exact .ok rfl
      | inr j =>
        have hj : j < 2 ^ 20 := hr
        simp only [cpack]
        rw [toNat_small hj]
        exact .ok rfl

/-- The types of a group, with identifiers for references. -/
def ided (s : Nat) (c : CGroup) : List (SubT Nat) := c.map (SubT.map (toId s))

theorem internTypes_spec {s k : Nat} {g : List SubType} {c : CGroup}
    (h : List.Forall₂ (fun t x => DSub t (x.map cpack)) g c)
    (hr : ∀ x ∈ c, ∀ r ∈ x.refs, Small r ∧ ∀ i, r = .inl i → sz → s + i < 2 ^ 20)
    (T : TypeList) (h1 : T.coreTypes.length = T.coreTypeToSupertype.length)
    (h2 : T.coreTypes.length = T.coreTypeToRecGroup.length) :
    Res sz (internTypes s k T g) fun T' => ∃ tys,
      T' = { T with
        coreTypeToSupertype := T.coreTypeToSupertype ++ (ided s c).map (·.supertype)
        coreTypes := T.coreTypes ++ tys
        coreTypeToRecGroup := T.coreTypeToRecGroup ++ List.replicate c.length k } ∧
      List.Forall₂ (fun t x => DSub t (x.map idx)) tys (ided s c) ∧
      ∀ x ∈ c, ∀ r ∈ x.refs, toId s r < 2 ^ 20 := by
  induction h generalizing T with
  | nil => exact .ok ⟨[], by simp [ided], .nil, by simp⟩
  | @cons t x g c ht _ ih =>
    have hrx := hr x (by simp)
    unfold internTypes
    refine (Res.assert (by simpa using h1)).bind fun _ _ => ?_
    refine (Res.assert (by simpa using h2)).bind fun _ _ => ?_
    refine (supertypeId_spec (x := x.supertype) (s := s) ht.2.1
      (fun r h => (hrx r (by simp [SubT.refs, Option.mem_def.1 h])).1)
      (fun i h => (hrx (.inl i) (by simp [SubT.refs, h])).2 i rfl)).bind ?_
    rintro _ rfl
    refine (Res.remaps (remapSub_spec (keeps_local s) ht) (Q := fun u u' =>
      ∀ r, u = cpack r → Small r → u' = idx (toId s r) ∧ toId s r < 2 ^ 20) ?_).bind ?_
    · intro u hu
      rw [SubT.refs_map] at hu
      obtain ⟨r, hr', rfl⟩ := List.mem_map.1 hu
      obtain ⟨hs, hl⟩ := hrx r hr'
      refine (local_ref (len := 0) hs hl).mono fun u' h r' e hs' => ?_
      have : r = r' := by
        cases r <;> cases r' <;> simp only [cpack, UnpackedIndex.recGroup.injEq,
          UnpackedIndex.id.injEq, reduceCtorEq] at e
        · have := congrArg BitVec.toNat e
          rw [toNat_small hs, toNat_small hs'] at this
          rw [this]
        · have := congrArg BitVec.toNat e
          rw [toNat_small hs, toNat_small hs'] at this
          rw [this]
      subst this
      exact h
    · rintro t' ⟨ht', hq⟩
      have hq' : ∀ r ∈ x.refs, ghat (localToId s) (cpack r) = idx (toId s r) ∧
          toId s r < 2 ^ 20 := fun r hr' =>
        hq _ (by rw [SubT.refs_map]; exact List.mem_map_of_mem hr') r rfl (hrx r hr').1
      refine (ih (fun y hy => hr y (by simp [hy])) _ (by simp [h1]) (by simp [h2])).mono ?_
      rintro T' ⟨tys, rfl, htys, hrs⟩
      refine ⟨t' :: tys, ?_, ?_, ?_⟩
      · simp [ided, List.replicate_succ]
        rfl
      · refine .cons ?_ htys
        rw [SubT.map_map] at ht' ⊢
        rwa [SubT.map_congr fun r hr' => (hq' r hr').1] at ht'
      · intro y hy
        rcases List.mem_cons.1 hy with rfl | hy
        · exact fun r hr' => (hq' r hr').2
        · exact hrs y hy

/-! ## The invariant -/

/-- The declarations made by canonical groups. -/
def declsG (G : List CGroup) : Decls where
  info i := ((flat 0 G)[i]?).map fun x => (x.shared, x.comp.kind)
  super i := ((flat 0 G)[i]?).bind (·.supertype)

/-- Sharedness of a heap type. -/
def heapShared (D : Decls) : Heap Nat → Option Bool
  | .abs s _ => some s
  | .concrete i | .exact i => (D.info i).map (·.1)

def valShared (D : Decls) : Val Nat → Prop
  | .ref r => heapShared D r.heap = some true
  | _ => True

def storageShared (D : Decls) : Storage Nat → Prop
  | .val v => valShared D v
  | _ => True

/-- Everything in a composite type is shared. -/
def compShared (D : Decls) : Comp Nat → Prop
  | .func ps rs => (∀ p ∈ ps, valShared D p) ∧ ∀ r ∈ rs, valShared D r
  | .array f => storageShared D f.storage
  | .struct fs => ∀ f ∈ fs, storageShared D f.storage
  | .cont _ => True

/-- What `check_subtype` establishes for one type. -/
def SubChecked (f : Features) (G : List CGroup) (depth : Nat → Option Nat) (i : Nat) (x : SubT Nat) : Prop :=
  (x.supertype = none → depth i = some 0) ∧
  (∀ j, x.supertype = some j → ∃ y d, (flat 0 G)[j]? = some y ∧ y.final = false ∧
    x.shared = y.shared ∧ CompSub (declsG G) x.comp y.comp ∧ depth j = some d ∧
    depth i = some (d + 1)) ∧
  (x.shared = true → compShared (declsG G) x.comp) ∧
  (∀ j, x.comp = .cont j → ∃ s, (declsG G).info j = some (s, .func)) ∧
  Spec.SubFeats f x

/-- What `check_descriptors` establishes for one type. -/
def DescChecked (G : List CGroup) (i : Nat) (x : SubT Nat) : Prop :=
  (x.descriptor.isSome ∨ x.describes.isSome → x.comp.kind = .struct) ∧
  (∀ d, x.descriptor = some d → ∃ y, (flat 0 G)[d]? = some y ∧ y.describes = some i) ∧
  (∀ d, x.describes = some d → ∃ y, (flat 0 G)[d]? = some y ∧ y.descriptor = some i) ∧
  (∀ j y, x.supertype = some j → (flat 0 G)[j]? = some y →
    (∀ sd, y.descriptor = some sd → ∃ d z, x.descriptor = some d ∧
      (flat 0 G)[d]? = some z ∧ z.supertype = some sd) ∧
    (∀ sd, y.describes = some sd → ∃ d z, x.describes = some d ∧
      (flat 0 G)[d]? = some z ∧ z.supertype = some sd) ∧
    (y.describes = none → x.describes = none))

/-- What holds between checks. -/
structure Static (f : Features) (T : TypeList) (G : List CGroup) : Prop where
  types : List.Forall₂ (fun t x => DSub t (x.map idx)) T.coreTypes (flat 0 G)
  groups : T.coreTypeToRecGroup = gids 0 G
  supers : T.coreTypeToSupertype = (flat 0 G).map (·.supertype)
  elems : T.recGroupElements = elems 0 G
  canon : f.needsTypeCanonicalization = true → ∀ g k, T.canonicalRecGroups g = some k ↔
    ∃ c, G[k]? = some c ∧ List.Forall₂ (fun t x => DSub t (x.map cpack)) g c
  gok : GroupsOk G
  nodup : f.needsTypeCanonicalization = true → G.Nodup
  small : total G < 2 ^ 32
  count : G.length ≤ total G + if [] ∈ G then 1 else 0

/-- The first `n` types have been checked. -/
structure Inv (f : Features) (T : TypeList) (G : List CGroup) (n : Nat) : Prop extends
    Static f T G where
  depth : ∀ i, (T.coreTypeToDepth i).isSome ↔ i < n
  depthLe : ∀ i d, T.coreTypeToDepth i = some d → d ≤ maxSubtypingDepth
  sub : ∀ i x, i < n → (flat 0 G)[i]? = some x → SubChecked f G T.coreTypeToDepth i x
  desc : ∀ i x, i < n → (flat 0 G)[i]? = some x → DescChecked G i x

theorem Inv.init (f : Features) : Inv f .default [] 0 where
  types := .nil
  groups := rfl
  supers := rfl
  elems := rfl
  canon := by intro _ g k; simp [TypeList.default]
  gok := .nil
  nodup := by simp
  small := by simp [total]
  count := by simp [total]
  depth := by simp [TypeList.default]
  depthLe := by simp [TypeList.default]
  sub := by simp
  desc := by simp [flat]

/-! ## Looking things up -/

section lookup
variable {f : Features} {T : TypeList} {G : List CGroup}

theorem forall₂_get {α β : Type} {R : α → β → Prop} {l : List α} {m : List β}
    (h : List.Forall₂ R l m) (i : Nat) :
    (l[i]? = none ∧ m[i]? = none) ∨ ∃ a b, l[i]? = some a ∧ m[i]? = some b ∧ R a b := by
  induction h generalizing i with
  | nil => left; simp
  | cons h _ ih =>
    cases i with
    | zero => right; exact ⟨_, _, rfl, rfl, h⟩
    | succ i => simpa using ih i

theorem Static.at (h : Static f T G) {i : Nat} (hi : i < total G) :
    ∃ t x, T.coreTypes[i]? = some t ∧ (flat 0 G)[i]? = some x ∧ DSub t (x.map idx) := by
  rcases forall₂_get h.types i with ⟨_, h2⟩ | h
  · rw [List.getElem?_eq_none_iff, flat_length] at h2; omega
  · exact h

theorem flat_lt {i : Nat} {x : SubT Nat} (h : (flat 0 G)[i]? = some x) : i < total G := by
  have := (List.getElem?_eq_some_iff.1 h).1
  rwa [flat_length] at this

theorem Static.length (h : Static f T G) : T.coreTypes.length = total G := by
  rw [h.types.length_eq, flat_length]

/-- The references of a type are to other types, and supertypes come first. -/
theorem flat_refs (hG : GroupsOk G) {i : Nat} {x : SubT Nat} (h : (flat 0 G)[i]? = some x) :
    (∀ r ∈ x.refs, r < 2 ^ 20 ∧ r < total G) ∧ ∀ j, x.supertype = some j → j < i := by
  obtain ⟨k, c, p, hk, hp, rfl⟩ := locate (flat_lt h)
  rw [flat_get hk 0 p hp] at h
  obtain ⟨y, hy⟩ : ∃ y, c[p]? = some y := ⟨_, List.getElem?_eq_getElem hp⟩
  rw [hy] at h
  simp only [Option.map_some, Option.some.injEq, Nat.zero_add] at h
  subst h
  have hok := hG.get hk
  have hle := startOf_add_le hk
  refine ⟨?_, ?_⟩
  · intro r hr
    rw [SubT.refs_map] at hr
    obtain ⟨q, hq, rfl⟩ := List.mem_map.1 hr
    have := hok.1 y (List.mem_iff_getElem?.2 ⟨p, hy⟩) q hq
    cases q with
    | inl i => exact ⟨this.2, by have := this.1; simp only [toId]; omega⟩
    | inr j => exact ⟨this.2, by have := this.1; simp only [toId]; omega⟩
  · intro j hj
    simp only [SubT.map, Option.map_eq_some_iff] at hj
    obtain ⟨q, hq, rfl⟩ := hj
    have h1 := hok.1 y (List.mem_iff_getElem?.2 ⟨p, hy⟩) q (by simp [SubT.refs, hq])
    have h2 := hok.2 p y hy q hq
    cases q with
    | inl i => simp only [toId, SupOk] at h2 ⊢; omega
    | inr j => have := h1.1; simp only [toId]; omega

end lookup

end Verif.TypeList
