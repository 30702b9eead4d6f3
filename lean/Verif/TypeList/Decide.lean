import Verif.TypeList.Inv
/-! # The subtyping functions decide subtyping -/
namespace Verif.TypeList
open Verif.Types
open Spec (SubT Comp Heap Ref Val Storage Field Kind Decls CompSub Comp.kind HeapSub RefSub ValSub
  StorageSub FieldSub)

/-- The computation decides `P`: soundly, and completely when `ok`. -/
def Decides (ok : Prop) (r : M Bool) (P : Prop) : Prop :=
  ∃ b, r = .ok b ∧ (b = true → P) ∧ (ok → P → b = true)

variable {ok : Prop}

theorem Decides.of_iff {r : M Bool} {b : Bool} {P : Prop} (h : r = .ok b) (hb : b = true ↔ P) :
    Decides ok r P := ⟨b, h, hb.1, fun _ => hb.2⟩

theorem Decides.congr {r : M Bool} {P Q : Prop} (h : Decides ok r P) (hpq : P ↔ Q) :
    Decides ok r Q := by
  obtain ⟨b, h1, h2, h3⟩ := h
  exact ⟨b, h1, fun e => hpq.1 (h2 e), fun o q => h3 o (hpq.2 q)⟩

theorem Decides.yes {P : Prop} (h : P) : Decides ok (pure true) P := ⟨true, rfl, fun _ => h, fun _ _ => rfl⟩

theorem Decides.no {P : Prop} (h : ok → ¬ P) : Decides ok (pure false) P :=
  ⟨false, rfl, nofun, fun o p => (h o p).elim⟩

theorem Decides.and {r s : M Bool} {P Q : Prop} (h : Decides ok r P) (h' : Decides ok s Q) :
    Decides ok (andM r s) (P ∧ Q) := by
  obtain ⟨b, rfl, h2, h3⟩ := h
  obtain ⟨c, rfl, h5, h6⟩ := h'
  unfold andM
  cases b with
  | true => exact ⟨c, rfl, fun e => ⟨h2 rfl, h5 e⟩, fun o e => h6 o e.2⟩
  | false => exact ⟨_, rfl, nofun, fun o e => absurd (h3 o e.1) (by decide)⟩

theorem Decides.all {α : Type} {p : α → M Bool} {P : α → Prop} {l : List α}
    (h : ∀ a ∈ l, Decides ok (p a) (P a)) : Decides ok (allM p l) (∀ a ∈ l, P a) := by
  induction l with
  | nil => exact .yes (by simp)
  | cons a l ih =>
    refine Decides.congr ((h a (by simp)).and (ih fun b hb => h b (by simp [hb]))) ?_
    simp

section
variable {f : Features} {T : TypeList} {G : List CGroup}

theorem kind_of {t : CompositeInnerType} {x : Comp Nat} (h : DComp t (x.map idx)) :
    (∀ a, concreteBelow t a = below x.kind a) ∧
    (∀ a, concreteAbove t a = true ↔ a = x.kind.bot) := by
  cases t <;> cases x <;> simp only [Comp.map, DComp] at h <;>
    exact ⟨fun a => by cases a <;> rfl, fun a => by
      cases a <;> simp [concreteAbove, Comp.kind, Kind.bot]⟩

theorem superLoop {hG : GroupsOk G}
    (hs : T.coreTypeToSupertype = (flat 0 G).map (·.supertype)) (b : Nat) :
    ∀ fuel a, a < fuel → a < total G → ∃ r, idIsSubtypeLoop T b fuel a = .ok r ∧
      (r = true ↔ Chain (declsG G) a b) := by
  intro fuel
  induction fuel with
  | zero => intro a h; omega
  | succ n ih =>
    intro a hn ha
    unfold idIsSubtypeLoop
    by_cases hab : a = b
    · rw [if_pos hab]; subst hab; exact ⟨true, rfl, by simp; exact .refl⟩
    · rw [if_neg hab]
      obtain ⟨x, hx⟩ : ∃ x, (flat 0 G)[a]? = some x :=
        ⟨_, List.getElem?_eq_getElem (by rwa [flat_length])⟩
      have hsup : supertypeOf T a = .ok x.supertype := by
        unfold supertypeOf; rw [hs, List.getElem?_map, hx]; rfl
      rw [hsup]
      simp only [ok_bind]
      have hD : (declsG G).super a = x.supertype := by simp [declsG, hx]
      cases hsx : x.supertype with
      | none =>
        refine ⟨false, rfl, ?_⟩
        constructor
        · simp
        · intro h
          exfalso
          rcases Relation.ReflTransGen.cases_head h with rfl | ⟨c, hc, _⟩
          · exact hab rfl
          · rw [hD, hsx] at hc; cases hc
      | some j =>
        have hj := (flat_refs hG hx).2 j hsx
        obtain ⟨r, hr, hr'⟩ := ih j (by omega) (by omega)
        refine ⟨r, hr, hr'.trans ⟨fun h => .head (by rw [hD, hsx]) h, fun h => ?_⟩⟩
        rcases Relation.ReflTransGen.cases_head h with rfl | ⟨c, hc, h⟩
        · exact (hab rfl).elim
        · rw [hD, hsx] at hc; cases hc; exact h

theorem idIsSubtype_spec (h : Static f T G) {a b : Nat} (ha : a < total G) :
    ∃ r, idIsSubtype T a b = .ok r ∧ (r = true ↔ Chain (declsG G) a b) := by
  unfold idIsSubtype
  exact superLoop (hG := h.gok) h.supers b _ a (by rw [h.length]; omega) ha

/-- References in range. -/
def In (G : List CGroup) (l : List Nat) : Prop := ∀ r ∈ l, r < 2 ^ 20 ∧ r < total G

theorem compositeOf_spec (h : Static f T G) {i : Nat} (hi : i < 2 ^ 20 ∧ i < total G)
    (g : Option Nat) : ∃ t x, compositeOf T g (idx i) = .ok t.compositeType ∧
      T.coreTypes[i]? = some t ∧ (flat 0 G)[i]? = some x ∧ DSub t (x.map idx) := by
  obtain ⟨t, x, h1, h2, h3⟩ := h.at hi.2
  refine ⟨t, x, ?_, h1, h2, h3⟩
  simp only [compositeOf, idx, coreTypeId, pure_ok, ok_bind, toNat_small hi.1, typeAt, h1, unwrap]

theorem idx_inj {i j : Nat} (hi : i < 2 ^ 20) (hj : j < 2 ^ 20) (h : idx i = idx j) : i = j := by
  simp only [idx, UnpackedIndex.id.injEq] at h
  have := congrArg BitVec.toNat h
  rwa [toNat_small hi, toNat_small hj] at this

theorem alg_info (D : Decls) {i : Nat} {s : Bool} {t : AbsHeap} {q : Bool × Kind}
    (h : D.info i = some q) :
    (∃ k, D.info i = some (s, k) ∧ below k t = true) ↔ q.1 = s ∧ below q.2 t = true := by
  rw [h]
  obtain ⟨a, b⟩ := q
  constructor
  · rintro ⟨k, e, h⟩; cases e; exact ⟨rfl, h⟩
  · rintro ⟨rfl, h⟩; exact ⟨b, rfl, h⟩

theorem ite_ok {c : Prop} [Decidable c] {a b : Bool} :
    (if c then (pure a : M Bool) else pure b) = .ok (if c then a else b) := by split <;> rfl

theorem reftypeIsSubtypeImpl_spec (h : Static f T G) {a b : RefType} {x y : Ref Nat}
    (ha : DRef a (x.map idx)) (hb : DRef b (y.map idx)) (hx : In G x.heap.refs)
    (hy : In G y.heap.refs) (ga gb : Option Nat) :
    ∃ r, reftypeIsSubtypeImpl T a ga b gb = .ok r ∧
      (r = true ↔ (x.nullable = true → y.nullable = true) ∧ Alg (declsG G) x.heap y.heap) := by
  obtain ⟨na, hha⟩ := ha.view
  obtain ⟨nb, hhb⟩ := hb.view
  have hinj : x.heap.map idx = y.heap.map idx → x.heap = y.heap := fun e =>
    Spec.Heap.map_inj (fun r hr s hs e => idx_inj (hx r hr).1 (hy s hs).1 e) e
  unfold reftypeIsSubtypeImpl
  split
  · rename_i hab
    obtain ⟨rfl, _⟩ := hab
    have := ha.right hb
    refine ⟨true, rfl, (iff_of_true rfl ?_)⟩
    simp only [Ref.map, Spec.Ref.mk.injEq] at this
    rw [hinj this.2, this.1]
    exact ⟨id, .refl _ _⟩
  · split
    · rename_i hn
      rw [na, nb] at hn
      refine ⟨false, rfl, ?_⟩
      simp only [Ref.map, Bool.and_eq_true, Bool.not_eq_eq_eq_not, Bool.not_true] at hn
      simp [hn.1, hn.2]
    · rename_i hn
      have hnull : x.nullable = true → y.nullable = true := by
        rw [na, nb] at hn
        simp only [Ref.map, Bool.and_eq_true, Bool.not_eq_eq_eq_not, Bool.not_true] at hn
        intro h
        cases hy' : y.nullable
        · exact (hn ⟨h, hy'⟩).elim
        · rfl
      rw [hha, hhb]
      simp only [unwrap, ok_bind]
      have fin : ∀ {m : M Bool}, (∃ r, m = .ok r ∧ (r = true ↔ Alg (declsG G) x.heap y.heap)) →
          ∃ r, m = .ok r ∧ (r = true ↔ (x.nullable = true → y.nullable = true) ∧
            Alg (declsG G) x.heap y.heap) := by
        rintro m ⟨r, h1, h2⟩
        exact ⟨r, h1, h2.trans ⟨fun h => ⟨hnull, h⟩, And.right⟩⟩
      refine fin ?_
      clear fin
      split
      · rename_i he
        have := congrArg ofHeap he
        simp only [ofHeap_toHeap, Ref.map] at this
        rw [hinj this]
        exact ⟨true, rfl, by simp; exact .refl _ _⟩
      · rename_i hne
        obtain ⟨nx, hx'⟩ := x
        obtain ⟨ny, hy'⟩ := y
        cases hx' with
        | abs s t =>
          cases hy' with
          | abs s' t' =>
            simp only [Ref.map, Heap.map, toHeap]
            exact ⟨_, rfl, by simp [Alg]⟩
          | concrete j =>
            obtain ⟨t', z, h1, _, h2, h3⟩ := compositeOf_spec h (hy j (by simp [Heap.refs])) gb
            simp only [Ref.map, Heap.map, toHeap, h1, ok_bind]
            have hi : (declsG G).info j = some (z.shared, z.comp.kind) := by simp [declsG, h2]
            refine ⟨_, ite_ok, ?_⟩
            rw [h3.2.2.1]
            have hk := (kind_of h3.2.2.2.2.2).2 t
            simp only [Alg, hi, SubT.map, Option.some.injEq, Prod.mk.injEq]
            by_cases e : s = z.shared
            · simp [e, hk]
            · simp [e, Ne.symm e]
          | exact j =>
            obtain ⟨t', z, h1, _, h2, h3⟩ := compositeOf_spec h (hy j (by simp [Heap.refs])) gb
            simp only [Ref.map, Heap.map, toHeap, h1, ok_bind]
            have hi : (declsG G).info j = some (z.shared, z.comp.kind) := by simp [declsG, h2]
            refine ⟨_, ite_ok, ?_⟩
            rw [h3.2.2.1]
            have hk := (kind_of h3.2.2.2.2.2).2 t
            simp only [Alg, hi, SubT.map, Option.some.injEq, Prod.mk.injEq]
            by_cases e : s = z.shared
            · simp [e, hk]
            · simp [e, Ne.symm e]
        | concrete i =>
          cases hy' with
          | abs s t =>
            obtain ⟨t', z, h1, _, h2, h3⟩ := compositeOf_spec h (hx i (by simp [Heap.refs])) ga
            simp only [Ref.map, Heap.map, toHeap, h1, ok_bind]
            have hi : (declsG G).info i = some (z.shared, z.comp.kind) := by simp [declsG, h2]
            refine ⟨_, ite_ok, ?_⟩
            rw [h3.2.2.1]
            have hk := (kind_of h3.2.2.2.2.2).1 t
            simp only [Alg, hi, SubT.map, Option.some.injEq, Prod.mk.injEq, hk]
            by_cases e : z.shared = s
            · simp [e]
            · simp [e]
          | concrete j =>
            have hi := hx i (by simp [Heap.refs])
            have hj := hy j (by simp [Heap.refs])
            simp only [Ref.map, Heap.map, toHeap, idx, coreTypeId, pure_ok, ok_bind,
              toNat_small hi.1, toNat_small hj.1]
            exact idIsSubtype_spec h hi.2
          | exact j => exact ⟨false, rfl, by simp [Alg]⟩
        | exact i =>
          cases hy' with
          | abs s t =>
            obtain ⟨t', z, h1, _, h2, h3⟩ := compositeOf_spec h (hx i (by simp [Heap.refs])) ga
            simp only [Ref.map, Heap.map, toHeap, h1, ok_bind]
            have hi : (declsG G).info i = some (z.shared, z.comp.kind) := by simp [declsG, h2]
            refine ⟨_, ite_ok, ?_⟩
            rw [h3.2.2.1]
            have hk := (kind_of h3.2.2.2.2.2).1 t
            simp only [Alg, hi, SubT.map, Option.some.injEq, Prod.mk.injEq, hk]
            by_cases e : z.shared = s
            · simp [e]
            · simp [e]
          | concrete j =>
            have hi := hx i (by simp [Heap.refs])
            have hj := hy j (by simp [Heap.refs])
            simp only [Ref.map, Heap.map, toHeap, idx, coreTypeId, pure_ok, ok_bind,
              toNat_small hi.1, toNat_small hj.1]
            exact idIsSubtype_spec h hi.2
          | exact j =>
            have hi := hx i (by simp [Heap.refs])
            have hj := hy j (by simp [Heap.refs])
            simp only [Ref.map, Heap.map, toHeap, idx, coreTypeId, pure_ok, ok_bind,
              toNat_small hi.1, toNat_small hj.1]
            exact ⟨_, rfl, by simp [Alg]⟩

theorem In.heapIn {h : Heap Nat} (hi : In G h.refs) : HeapIn (declsG G) h := by
  intro i hi'
  have := (hi i hi').2
  simp only [declsG, Option.isSome_map]
  rw [List.getElem?_eq_getElem (by rwa [flat_length])]
  rfl

/-- Subtyping of references. -/
theorem refDecides (h : Static f T G) {a b : RefType} {x y : Ref Nat}
    (ha : DRef a (x.map idx)) (hb : DRef b (y.map idx)) (hx : In G x.heap.refs)
    (hy : In G y.heap.refs) (ga gb : Option Nat) :
    Decides (DeclsOk (declsG G)) (reftypeIsSubtypeImpl T a ga b gb) (RefSub (declsG G) x y) := by
  obtain ⟨r, h1, h2⟩ := reftypeIsSubtypeImpl_spec h ha hb hx hy ga gb
  exact ⟨r, h1, fun e => ⟨(h2.1 e).1, (h2.1 e).2.sound hx.heapIn⟩,
    fun o s => h2.2 ⟨s.1, .complete o s.2⟩⟩

theorem ValSub.ref_iff {D : Decls} {a b : Ref Nat} : ValSub D (.ref a) (.ref b) ↔ RefSub D a b := by
  constructor
  · intro h
    cases h with
    | refl => exact ⟨id, .refl⟩
    | ref h => exact h
  · exact .ref

theorem matchVal_spec (h : Static f T G) {a b : ValType} {x y : Val Nat}
    (ha : DVal a (x.map idx)) (hb : DVal b (y.map idx)) (hx : In G x.refs)
    (hy : In G y.refs) (ga gb : Nat) :
    Decides (DeclsOk (declsG G)) (matchVal T a ga b gb) (ValSub (declsG G) x y) := by
  cases a <;> cases x <;> simp only [Val.map, DVal] at ha <;>
    cases b <;> cases y <;> simp only [Val.map, DVal] at hb <;>
    first
    | exact .yes .refl
    | exact .no fun _ h => by cases h
    | exact (refDecides h ha hb hx hy (some ga) (some gb)).congr ValSub.ref_iff.symm

theorem matchStorage_spec (h : Static f T G) {a b : StorageType} {x y : Storage Nat}
    (ha : DStorage a (x.map idx)) (hb : DStorage b (y.map idx)) (hx : In G x.refs)
    (hy : In G y.refs) (ga gb : Nat) :
    Decides (DeclsOk (declsG G)) (matchStorage T a ga b gb) (StorageSub (declsG G) x y) := by
  cases a <;> cases x <;> simp only [Storage.map, DStorage] at ha <;>
    cases b <;> cases y <;> simp only [Storage.map, DStorage] at hb <;>
    first
    | exact .yes .i8
    | exact .yes .i16
    | exact .no fun _ h => by cases h
    | exact (matchVal_spec h ha hb hx hy ga gb).congr ⟨.val, fun h => by cases h; assumption⟩

theorem matchField_spec (h : Static f T G) {a b : FieldType} {x y : Field Nat}
    (ha : DField a (x.map idx)) (hb : DField b (y.map idx)) (hx : In G x.refs)
    (hy : In G y.refs) (ga gb : Nat) :
    Decides (DeclsOk (declsG G)) (matchField T a ga b gb) (FieldSub (declsG G) x y) := by
  obtain ⟨ea, ma⟩ := a
  obtain ⟨eb, mb⟩ := b
  obtain ⟨mx, sx⟩ := x
  obtain ⟨my, sy⟩ := y
  obtain ⟨ha1, ha2⟩ := ha
  obtain ⟨hb1, hb2⟩ := hb
  simp only [Field.map] at ha1 ha2 hb1 hb2
  subst ha1 hb1
  obtain ⟨r, h1, h2, h3⟩ := matchStorage_spec h ha2 hb2 hx hy ga gb
  unfold matchField
  simp only
  rw [h1]
  simp only [ok_bind]
  cases r with
  | false =>
    refine .no fun o hs => ?_
    have : StorageSub (declsG G) sx sy := by cases hs <;> assumption
    exact absurd (h3 o this) (by decide)
  | true =>
    have h2 := h2 rfl
    cases ma <;> cases mb
    · exact .yes (.const h2)
    · exact .no fun _ h => by cases h
    · exact .no fun _ h => by cases h
    · exact (matchStorage_spec h hb2 ha2 hy hx gb ga).congr
        ⟨fun h => .var h2 h, fun h => by cases h; assumption⟩

theorem zip_decides {α β : Type} {D : α → β → Prop} {R : β → β → Prop} {p : α × α → M Bool}
    {l l' : List α} {m m' : List β} (h : List.Forall₂ D l m) (h' : List.Forall₂ D l' m')
    (hp : ∀ a a' b b', a ∈ l → a' ∈ l' → b ∈ m → b' ∈ m' → D a b → D a' b' →
      Decides ok (p (a, a')) (R b b')) (hl : m'.length ≤ m.length) :
    Decides ok (allM p (l.zip l')) (List.Forall₂ R (m.take m'.length) m') := by
  induction h' generalizing l m with
  | nil => simp only [List.zip_nil_right, List.length_nil, List.take_zero]; exact .yes .nil
  | cons h1 _ ih =>
    cases h with
    | nil => simp at hl
    | cons h2 h3 =>
      simp only [List.zip_cons_cons, List.length_cons, List.take_succ_cons]
      refine Decides.congr ((hp _ _ _ _ (by simp) (by simp) (by simp) (by simp) h2 h1).and
        (ih h3 (fun a a' b b' h h' k k' => hp a a' b b' (by simp [h]) (by simp [h'])
          (by simp [k]) (by simp [k'])) (by simpa using hl))) ?_
      simp

theorem matchComp_spec (h : Static f T G) {a b : CompositeType} {x y : Comp Nat}
    (ha : DComp a.inner (x.map idx)) (hb : DComp b.inner (y.map idx)) (hx : In G x.refs)
    (hy : In G y.refs) (ga gb : Nat) :
    Decides (DeclsOk (declsG G)) (matchComposite T a ga b gb)
      (a.shared = b.shared ∧ CompSub (declsG G) x y) := by
  obtain ⟨ia, sa, da, ea⟩ := a
  obtain ⟨ib, sb, db, eb⟩ := b
  unfold matchComposite
  simp only at ha hb ⊢
  by_cases hs : sa = sb
  swap
  · rw [if_pos hs]; exact .no fun _ h => hs h.1
  rw [if_neg (by simpa using hs)]
  refine Decides.congr (P := CompSub (declsG G) x y) ?_ (by simp [hs])
  cases ia <;> cases x <;> simp only [Comp.map, DComp] at ha <;>
    cases ib <;> cases y <;> simp only [Comp.map, DComp] at hb <;>
    try exact .no fun _ h => by cases h
  · -- functions
    rename_i fa ps rs fb ps' rs'
    have ha := DComp.params (f := fa) (ps := ps.map (Val.map idx)) (rs := rs.map (Val.map idx)) ha
    have hb := DComp.params (f := fb) (ps := ps'.map (Val.map idx)) (rs := rs'.map (Val.map idx)) hb
    rw [List.forall₂_map_right_iff, List.forall₂_map_right_iff] at ha hb
    have l1 := ha.1.length_eq
    have l2 := ha.2.length_eq
    have l3 := hb.1.length_eq
    have l4 := hb.2.length_eq
    simp only [matchFunc]
    by_cases hl : ps.length = ps'.length ∧ rs.length = rs'.length
    swap
    · rw [if_pos (by rw [l1, l2, l3, l4]; exact not_and_or.1 hl)]
      refine .no fun _ h => ?_
      cases h with | func h1 h2 => exact hl ⟨h1.length_eq, h2.length_eq⟩
    rw [if_neg (by rw [l1, l2, l3, l4]; simp [hl])]
    have inx : ∀ v ∈ ps ++ rs, In G v.refs := fun v hv r hr => hx r (by
      simp only [Comp.refs, List.mem_append, List.mem_flatMap] at hv ⊢
      rcases hv with hv | hv
      · exact .inl ⟨v, hv, hr⟩
      · exact .inr ⟨v, hv, hr⟩)
    have iny : ∀ v ∈ ps' ++ rs', In G v.refs := fun v hv r hr => hy r (by
      simp only [Comp.refs, List.mem_append, List.mem_flatMap] at hv ⊢
      rcases hv with hv | hv
      · exact .inl ⟨v, hv, hr⟩
      · exact .inr ⟨v, hv, hr⟩)
    have d1 := zip_decides (ok := DeclsOk (declsG G)) (R := fun p p' => ValSub (declsG G) p' p)
      (p := fun p => matchVal T p.2 gb p.1 ga) ha.1 hb.1
      (fun a a' b b' _ _ hb hb' h1 h2 => matchVal_spec h h2 h1 (iny b' (by simp [hb']))
        (inx b (by simp [hb])) gb ga) (by omega)
    have d2 := zip_decides (ok := DeclsOk (declsG G)) (R := ValSub (declsG G))
      (p := fun p => matchVal T p.1 ga p.2 gb) ha.2 hb.2
      (fun a a' b b' _ _ hb hb' h1 h2 => matchVal_spec h h1 h2 (inx b (by simp [hb]))
        (iny b' (by simp [hb'])) ga gb) (by omega)
    refine (d1.and d2).congr ?_
    rw [← hl.1, ← hl.2, List.take_length, List.take_length]
    exact ⟨fun h => .func h.1 h.2, fun h => by cases h; exact ⟨‹_›, ‹_›⟩⟩
  · exact (matchField_spec h ha hb hx hy ga gb).congr ⟨.array, fun h => by cases h; assumption⟩
  · rename_i fa xs fb ys
    rw [List.forall₂_map_right_iff] at ha hb
    have l1 := ha.length_eq
    have l2 := hb.length_eq
    simp only [matchStruct]
    by_cases hl : ys.length ≤ xs.length
    swap
    · rw [if_neg (by rw [l1, l2]; exact hl)]
      refine .no fun _ h => ?_
      cases h with
      | struct h1 => have := h1.length_eq; simp at hl; omega
    rw [if_pos (by rw [l1, l2]; exact hl)]
    have inx : ∀ v ∈ xs, In G v.refs := fun v hv r hr => hx r (by
      simp only [Comp.refs, List.mem_flatMap]; exact ⟨v, hv, hr⟩)
    have iny : ∀ v ∈ ys, In G v.refs := fun v hv r hr => hy r (by
      simp only [Comp.refs, List.mem_flatMap]; exact ⟨v, hv, hr⟩)
    have d := zip_decides (ok := DeclsOk (declsG G)) (R := FieldSub (declsG G))
      (p := fun p => matchField T p.1 ga p.2 gb) ha hb
      (fun a a' b b' _ _ hb hb' h1 h2 => matchField_spec h h1 h2 (inx b hb)
        (iny b' hb') ga gb) hl
    refine d.congr ⟨fun h => ?_, fun h => ?_⟩
    · have := CompSub.struct (extra := xs.drop ys.length) h
      rwa [List.take_append_drop] at this
    · generalize hz : Comp.struct xs = z at h
      cases h with
      | @struct fs extra _ h1 =>
        injection hz with hz
        rw [hz, ← h1.length_eq, List.take_left]
        exact h1
  · rename_i pa i pb j
    simp only [matchCont]
    have hi := hx i (by simp [Comp.refs])
    have hj := hy j (by simp [Comp.refs])
    have hia : (idx i).pack = some pa := ha
    have hjb : (idx j).pack = some pb := hb
    split
    · rename_i e
      subst e
      have : idx i = idx j := DIdx.right ha hb
      rw [idx_inj hi.1 hj.1 this]
      exact .yes (.cont .refl)
    · refine (refDecides (x := ⟨false, .concrete i⟩) (y := ⟨false, .concrete j⟩) h ?_ ?_ ?_ ?_ _ _).congr
        ⟨fun h => .cont h.2, fun h => by cases h; exact ⟨id, ‹_›⟩⟩
      · simp [DRef, Ref.map, Heap.map, toHeap, RefType.new, hia]
      · simp [DRef, Ref.map, Heap.map, toHeap, RefType.new, hjb]
      · simpa [In, Heap.refs] using hi
      · simpa [In, Heap.refs] using hj

end

end Verif.TypeList
