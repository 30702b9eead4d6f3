import Verif.TypeList.AcceptSpec
import Verif.TypeList.Hist
/-! # Recursion groups that can be added are added -/
namespace Verif.TypeList.Accept
open Verif.Types
open Spec (SubT Comp Heap Ref Val Storage Field Kind Decls CompSub Comp.kind RefFeats ValFeats
  StorageFeats CompFeats SubFeats)

variable {f : Features} {T : TypeList} {G : List CGroup}

/-- A computation succeeds. -/
def Okay {α : Type} (r : M α) : Prop := ∃ a, r = .ok a

theorem Okay.mk {α : Type} (a : α) : Okay (.ok a : M α) := ⟨a, rfl⟩

theorem Okay.pure {α : Type} (a : α) : Okay (Pure.pure a : M α) := ⟨a, rfl⟩

/-- What a success establishes is known from elsewhere. -/
theorem Okay.bind {α β : Type} {r : M α} {k : α → M β} {P : α → Prop} (h : Okay r)
    (hp : Res False r P) (h' : ∀ a, P a → Okay (k a)) : Okay (r >>= k) := by
  obtain ⟨a, rfl⟩ := h
  exact h' a (hp.1 a rfl)

theorem Okay.then {β : Type} {r : M Unit} {k : Unit → M β} (h : Okay r)
    (h' : Okay (k ())) : Okay (r >>= k) := by
  obtain ⟨a, rfl⟩ := h
  exact h'

theorem Okay.eq {α β : Type} {r : M α} {a : α} {k : α → M β} (h : r = .ok a) (h' : Okay (k a)) :
    Okay (r >>= k) := by
  subst h; exact h'

theorem Okay.require {b : Bool} {msg : String} (h : b = true) : Okay (require b msg) :=
  ⟨(), by rw [TypeList.require, if_pos h]⟩

theorem Okay.assert {b : Bool} (h : b = true) : Okay (TypeList.assert b) :=
  ⟨(), by rw [TypeList.assert, if_pos h]⟩

theorem Okay.reqIf {c : Prop} [Decidable c] {b : Bool} {msg : String} {α : Type} {k : M α}
    (h : c → b = true) (hk : Okay k) :
    Okay (if c then (do TypeList.require b msg; k) else k) := by
  split
  · next hc => exact (Okay.require (h hc)).then hk
  · exact hk

theorem u32_ok {n : Nat} (h : n < 2 ^ 32) : u32 n = .ok n := by
  unfold u32; rw [if_pos h]

theorem Okay.remaps {α β : Type} {g : PackedIndex → M PackedIndex} {r : M α} {D : α → β → Prop}
    {x : β} {refs : List U} (h : Remaps g r D x refs) (hr : ∀ u ∈ refs, Okay (fhat g u)) :
    Okay r := by
  rcases h with ⟨a, rfl, _⟩ | ⟨e, rfl, u, hu, he⟩
  · exact ⟨a, rfl⟩
  · obtain ⟨a, ha⟩ := hr u hu
    rw [ha] at he; cases he

/-! ## Canonicalizing -/

theorem canon_ref_ok (hf : f.gc = true) {m : List Nat} {len r : Nat} (hr : r < 2 ^ 20)
    (hm : ∀ id ∈ m, id < 2 ^ 20) (hl : r < m.length + len) :
    Okay (fhat (canonicalizeTypeIndex f m m.length len) (modIdx r)) := by
  have hr' := toNat_small hr
  obtain ⟨p, hp, hu⟩ := pack_ok (u := modIdx r) (by show (BitVec.ofNat 32 r).toNat < _; omega)
  unfold fhat
  rw [hp]
  simp only [unwrap, ok_bind]
  unfold canonicalizeTypeIndex
  rw [hu]
  simp only [unwrap, ok_bind, modIdx, hr']
  split
  · next hlt =>
    unfold typeIdAt
    rw [List.getElem?_eq_getElem hlt]
    simp only [pure_ok, ok_bind]
    have hid := hm _ (List.getElem_mem hlt)
    obtain ⟨q, hq, hqu⟩ := pack_ok (u := .id (BitVec.ofNat 32 m[r]))
        (by show (BitVec.ofNat 32 m[r]).toNat < _; rw [toNat_small hid]; exact hid)
    have hq' : PackedIndex.fromId (BitVec.ofNat 32 m[r]) = some q := hq
    rw [hq']
    simp only [ok_bind, hqu]
    exact .mk _
  · next hge =>
    unfold assert
    rw [hf]
    simp only [Bool.true_or, if_true, ok_bind]
    rw [if_pos (by omega)]
    have hs : r - m.length < 2 ^ 20 := by omega
    obtain ⟨q, hq, hqu⟩ := pack_ok (u := .recGroup (BitVec.ofNat 32 (r - m.length)))
      (by show (BitVec.ofNat 32 (r - m.length)).toNat < _; rw [toNat_small hs]; exact hs)
    have hq' : PackedIndex.fromRecGroupIndex (BitVec.ofNat 32 (r - m.length)) = some q := hq
    rw [hq']
    simp only [pure_ok, ok_bind, hqu]
    exact .mk _

theorem isForward_ok {o : Option PackedIndex} {x : Option Nat} (n : Nat)
    (h : OptIs DIdx o (x.map modIdx)) (hx : ∀ r, x = some r → r < 2 ^ 20 ∧ r < n) :
    isForward n o = .ok false := by
  cases x with
  | none =>
    cases o with
    | none => rfl
    | some p => exact h.elim
  | some r =>
    cases o with
    | none => exact h.elim
    | some p =>
      have h : DIdx p (modIdx r) := h
      obtain ⟨hr, hn⟩ := hx r rfl
      unfold isForward
      simp only [h.unpack, unwrap, ok_bind, modIdx, toNat_small hr]
      rw [decide_eq_false (by omega)]
      rfl

theorem canonicalizeTypes_ok (hf : f.gc = true) {m : List Nat} {len : Nat}
    (hm : ∀ id ∈ m, id < 2 ^ 20) {g : List SubType}
    {xs : List (SubT Nat)} (h : List.Forall₂ (fun t x => DSub t (x.map modIdx)) g xs)
    (hr : ∀ x ∈ xs, ∀ r ∈ x.refs, r < 2 ^ 20 ∧ r < m.length + len) (n : Nat)
    (hn : m.length + n + xs.length < 2 ^ 32)
    (he : ∀ p x, xs[p]? = some x → ∀ r, x.supertype = some r ∨ x.describes = some r →
      r < m.length + n + p) :
    Okay (canonicalizeTypes f m m.length len n g) := by
  induction h generalizing n with
  | nil => exact .mk _
  | @cons t x g xs ht _ ih =>
    simp only [List.length_cons] at hn
    have hrx := hr x (by simp)
    have hex := he 0 x rfl
    unfold canonicalizeTypes
    refine .eq (u32_ok (by omega)) ?_
    refine .eq (isForward_ok _ ht.2.1 fun r e => ⟨(hrx r (by simp [SubT.refs, e])).1,
      by simpa using hex r (.inl e)⟩) ?_
    simp only [Bool.false_eq_true, if_false]
    refine .eq (isForward_ok _ ht.2.2.2.2.1 fun r e => ⟨(hrx r (by simp [SubT.refs, e])).1,
      by simpa using hex r (.inr e)⟩) ?_
    simp only [Bool.false_eq_true, if_false]
    obtain ⟨t', ht'⟩ := Okay.remaps (remapSub_spec (keeps_canon f m m.length len) ht) (by
      intro u hu
      rw [SubT.refs_map] at hu
      obtain ⟨r, hr', rfl⟩ := List.mem_map.1 hu
      exact canon_ref_ok hf (hrx r hr').1 hm (hrx r hr').2)
    refine .eq ht' ?_
    obtain ⟨g', hg'⟩ := ih (fun y hy => hr y (by simp [hy])) (n + 1) (by omega) (by
      intro p y hy r hr
      have := he (p + 1) y (by simpa using hy) r hr
      omega)
    exact .eq hg' (.pure _)

/-! ## The checks -/

theorem valtypeIsShared_ok (h : Static f T G) {t : ValType} {x : Val Nat}
    (ht : DVal t (x.map idx)) (hx : In G x.refs) (hs : valShared (declsG G) x) :
    valtypeIsShared T t = .ok true := by
  cases t <;> cases x <;> simp only [Val.map, DVal] at ht <;> unfold valtypeIsShared <;>
    try rfl
  rename_i r x
  simp only
  unfold reftypeIsShared
  rw [ht.view.2]
  obtain ⟨n, x⟩ := x
  cases x with
  | abs s t =>
    simp only [valShared, heapShared, Option.some.injEq] at hs
    subst hs
    rfl
  | concrete i =>
    have hi := hx i (by simp [Val.refs, Heap.refs])
    obtain ⟨t, x, h1, h2, h3⟩ := h.at hi.2
    simp only [Ref.map, Heap.map, toHeap, idx, toNat_small hi.1, typeAt, h1, unwrap, ok_bind]
    simp only [valShared, heapShared, declsG, h2, Option.map_some, Option.some.injEq] at hs
    rw [h3.2.2.1]
    exact congrArg _ hs
  | exact i =>
    have hi := hx i (by simp [Val.refs, Heap.refs])
    obtain ⟨t, x, h1, h2, h3⟩ := h.at hi.2
    simp only [Ref.map, Heap.map, toHeap, idx, toNat_small hi.1, typeAt, h1, unwrap, ok_bind]
    simp only [valShared, heapShared, declsG, h2, Option.map_some, Option.some.injEq] at hs
    rw [h3.2.2.1]
    exact congrArg _ hs

theorem checkVal_ok (h : Static f T G) {t : ValType} {x : Val Nat}
    (ht : DVal t (x.map idx)) (hx : In G x.refs) {shared : Bool}
    (hs : shared = true → valShared (declsG G) x) (hfe : ValFeats f x) :
    Okay (checkVal f T shared t) := by
  unfold checkVal
  refine Okay.eq ((checkValueType_iff ht (u := ())).2 ((valFeats_map idx x).2 hfe)) ?_
  cases shared with
  | false => exact .mk _
  | true =>
    rw [if_pos rfl, valtypeIsShared_ok h ht hx (hs rfl)]
    exact .mk _

theorem checkStorage_ok (h : Static f T G) {t : StorageType} {x : Storage Nat}
    (ht : DStorage t (x.map idx)) (hx : In G x.refs) {shared : Bool}
    (hs : shared = true → storageShared (declsG G) x) (hfe : StorageFeats f x) :
    Okay (checkStorage f T shared t) := by
  cases t <;> cases x <;> simp only [Storage.map, DStorage] at ht <;> unfold checkStorage
  · exact .mk _
  · exact .mk _
  · exact checkVal_ok h ht hx hs hfe

theorem forM'_okay {α β : Type} {D : α → β → Prop} {g : α → M Unit} {l : List α}
    {xs : List β} (h : List.Forall₂ D l xs) (hg : ∀ a x, x ∈ xs → D a x → Okay (g a)) :
    Okay (forM' g l) := by
  induction h with
  | nil => exact .mk _
  | cons h1 _ ih =>
    unfold forM'
    exact (hg _ _ (by simp) h1).then (ih fun a x hx => hg a x (by simp [hx]))

theorem checkComposite_ok (h : Static f T G) {t : CompositeType} {x : Comp Nat}
    (ht : DComp t.inner (x.map idx)) (hx : In G x.refs)
    (hs : t.shared = true → compShared (declsG G) x)
    (hc : ∀ j, x = .cont j → ∃ y, (flat 0 G)[j]? = some y ∧ y.comp.kind = .func)
    (hsf : t.shared = true → f.sharedEverythingThreads = true) (hfe : CompFeats f x) :
    Okay (checkCompositeType f T t) := by
  obtain ⟨inner, sh, d, e⟩ := t
  unfold checkCompositeType
  simp only at ht hs hsf ⊢
  refine .reqIf hsf ?_
  cases inner <;> cases x <;> simp only [Comp.map, DComp] at ht <;> simp only
  · rename_i t ps rs
    have hp := DComp.params (f := t) (ps := ps.map (Val.map idx)) (rs := rs.map (Val.map idx)) ht
    rw [List.forall₂_map_right_iff, List.forall₂_map_right_iff] at hp
    have hall := List.rel_append hp.1 hp.2
    have inx : ∀ v ∈ ps ++ rs, In G v.refs := fun v hv r hr => hx r (by
      simp only [Comp.refs, List.mem_append, List.mem_flatMap] at hv ⊢
      rcases hv with hv | hv
      · exact .inl ⟨v, hv, hr⟩
      · exact .inr ⟨v, hv, hr⟩)
    refine (forM'_okay hall fun a y hy ha => checkVal_ok h ha (inx y hy) (fun e => ?_)
      (hfe.1 y hy)).then ?_
    · rcases List.mem_append.1 hy with hy | hy
      · exact (hs e).1 y hy
      · exact (hs e).2 y hy
    · split
      · next hl => exact .require (hfe.2 (by rw [← hp.2.length_eq]; exact hl))
      · exact .pure _
  · exact (Okay.require hfe.1).then ((Okay.require hfe.2.1).then
      (checkStorage_ok h ht.2 hx hs hfe.2.2))
  · rename_i fs xs
    rw [List.forall₂_map_right_iff] at ht
    refine (Okay.require hfe.1).then ((Okay.require hfe.2.1).then ?_)
    exact forM'_okay ht fun a y hy ha => checkStorage_ok h ha.2
      (fun r hr => hx r (by simp only [Comp.refs, List.mem_flatMap]; exact ⟨y, hy, hr⟩))
      (fun e => hs e y hy) (hfe.2.2 y hy)
  · rename_i p j
    refine (Okay.require hfe.1).then ((Okay.require hfe.2).then ?_)
    have hj := hx j (by simp [Comp.refs])
    obtain ⟨t, x, h1, h2, h3⟩ := h.at hj.2
    rw [DIdx.unpack ht]
    simp only [idx, toNat_small hj.1, typeAt, h1, unwrap, ok_bind]
    have h6 := h3.2.2.2.2.2
    obtain ⟨y, k1, k2⟩ := hc j rfl
    rw [h2] at k1
    cases k1
    cases hti : t.compositeType.inner <;> rw [hti] at h6 <;> simp only
    · exact .pure _
    all_goals
      exfalso
      cases hxc : x.comp <;> simp [SubT.map, hxc, Comp.map, DComp, Comp.kind] at h6 k2

/-- `check_subtype` on a type that is well formed. -/
theorem checkSubtype_ok {n : Nat} (h : Inv f T G n) (hD : DeclsOk (declsG G)) (hn : n < total G)
    (m : List Nat) (k : Nat) {x : SubT Nat} (hx : (flat 0 G)[n]? = some x)
    (hv : TypeOk f (flat 0 G) n x)
    (hd : ∀ j d, x.supertype = some j → T.coreTypeToDepth j = some d → d + 1 ≤ 63) :
    Okay (checkSubtype f m T k n) := by
  obtain ⟨t, x', h1, h2, h3⟩ := h.at hn
  rw [hx] at h2
  cases h2
  obtain ⟨hin, hsup⟩ := flat_refs h.gok hx
  have hnone : T.coreTypeToDepth n = none := by
    have := (h.depth n).not.2 (by omega)
    simpa using this
  have hsh : t.compositeType.shared = x.shared := h3.2.2.1
  unfold checkSubtype
  simp only [typeAt, h1, unwrap, ok_bind]
  refine .reqIf (fun e => hv.feats.1 ?_) ?_
  · rw [h3.1, optIs_none h3.2.1] at e
    simp only [SubT.map] at e
    cases hfin : x.final
    · exact .inl rfl
    · right; simpa [hfin] using e
  refine (checkComposite_ok h.toStatic h3.2.2.2.2.2
    (fun r hr => hin r (by simp [SubT.refs, hr])) (fun e => hv.shared (hsh ▸ e)) hv.cont
    (fun e => hv.feats.2.1 (hsh ▸ e)) hv.feats.2.2).then ?_
  have hopt := h3.2.1
  cases hs : x.supertype with
  | none =>
    cases hts : t.supertypeIdx with
    | some p => rw [hts] at hopt; simp [SubT.map, hs, OptIs] at hopt
    | none =>
      simp only
      unfold setSubtypingDepth
      exact (Okay.assert (by simp)).then ((Okay.assert (by simp [hnone])).then (.pure _))
  | some j =>
    cases hts : t.supertypeIdx with
    | none => rw [hts] at hopt; simp [SubT.map, hs, OptIs] at hopt
    | some p =>
      have hp : DIdx p (idx j) := by rw [hts] at hopt; simpa [SubT.map, hs, OptIs] using hopt
      simp only
      have hj := hin j (by simp [SubT.refs, hs])
      have hjn := hsup j hs
      rw [canonical_idx hp]
      simp only [ok_bind]
      refine (Okay.assert rfl).then ?_
      rw [atPacked_spec hp hj.1]
      simp only [ok_bind]
      obtain ⟨u, y, k1, k2, k3⟩ := h.at hj.2
      obtain ⟨y', l1, l2, l3, l4⟩ := hv.super j hs
      rw [k2] at l1
      cases l1
      simp only [k1, ok_bind]
      have hfin : u.isFinal = false := k3.1.trans l2
      rw [hfin]
      simp only [Bool.false_eq_true, if_false]
      obtain ⟨ga, hga⟩ := h.group hn
      obtain ⟨gb, hgb⟩ := h.group hj.2
      have hm : matchIds T n j = .ok true := by
        unfold matchIds
        rw [hga, hgb]
        simp only [typeAt, h1, k1, unwrap, ok_bind]
        obtain ⟨b, e, _, hb⟩ := matchComp_spec h.toStatic h3.2.2.2.2.2 k3.2.2.2.2.2
          (fun r hr => hin r (by simp [SubT.refs, hr]))
          (fun r hr => (flat_refs h.gok k2).1 r (by simp [SubT.refs, hr])) ga gb
        rw [e, hb hD ⟨by rw [hsh, l3]; exact k3.2.2.1.symm, l4⟩]
      rw [hm]
      simp only [ok_bind, Bool.not_true, Bool.false_eq_true, if_false]
      obtain ⟨d, hd'⟩ := Option.isSome_iff_exists.1 ((h.depth j).2 hjn)
      have hdl := h.depthLe j d hd'
      have hd1 := hd j d hs hd'
      unfold getSubtypingDepth
      rw [hd']
      simp only [unwrap, ok_bind]
      obtain ⟨u1, e1⟩ := Okay.assert (b := decide (d ≤ maxSubtypingDepth)) (by simpa using hdl)
      rw [e1]
      simp only [ok_bind, pure_ok]
      have hmx : maxSubtypingDepth = 63 := rfl
      rw [if_neg (by omega)]
      unfold setSubtypingDepth
      exact (Okay.assert (by simp; omega)).then ((Okay.assert (by simp [hnone])).then (.pure _))

theorem bailIf_ok {b : Bool} {msg : String} (h : b = false) : Okay (bailIf b msg) :=
  .require (by simp [h])

/-- `check_descriptors` on a type that is well formed. -/
theorem checkDescriptors_ok (h : Static f T G) {n : Nat} (hn : n < total G) (m : List Nat)
    (k : Nat) {x : SubT Nat} (hx : (flat 0 G)[n]? = some x) (hv : TypeOk f (flat 0 G) n x) :
    Okay (checkDescriptors f m T k n) := by
  obtain ⟨t, x', h1, h2, hS, hD, hE, hI, bS, bD, bE⟩ := h.opts hn
  rw [hx] at h2
  cases h2
  obtain ⟨v0, v1, v2, v3⟩ := hv.clauses
  unfold checkDescriptors
  simp only [typeAt, h1, unwrap, ok_bind]
  rw [mapCanonical_spec hD (fun j hj => (bD j hj).1),
    mapCanonical_spec hE (fun j hj => (bE j hj).1)]
  simp only [ok_bind]
  refine Okay.then ?_ (Okay.then ?_ (Okay.then ?_ ?_))
  · unfold checkClauses
    rw [optIs_none hD, optIs_none hE]
    split
    · next hc =>
      have hc : x.descriptor.isSome ∨ x.describes.isSome := by simpa using hc
      refine (Okay.require (hv.descFeats hc)).then ?_
      have := v0 hc
      cases hti : t.compositeType.inner with
      | struct fs => exact .pure _
      | func _ =>
        rw [hti] at hI
        cases hcc : x.comp <;> simp [hcc, Comp.map, DComp, Comp.kind] at hI this
      | array _ =>
        rw [hti] at hI
        cases hcc : x.comp <;> simp [hcc, Comp.map, DComp, Comp.kind] at hI this
      | cont _ =>
        rw [hti] at hI
        cases hcc : x.comp <;> simp [hcc, Comp.map, DComp, Comp.kind] at hI this
    · exact .pure _
  · unfold checkSuperDescriptors
    cases hts : t.supertypeIdx with
    | none => exact .pure _
    | some p =>
      obtain ⟨j, hj, hp⟩ := optIs_some hS hts
      obtain ⟨hj1, hj2⟩ := bS j hj
      simp only
      rw [canonical_idx hp]
      simp only [unwrap, ok_bind]
      refine (Okay.assert rfl).then ?_
      rw [atPacked_spec hp hj1]
      obtain ⟨u, y, k1, k2, kS, kD, kE, kI, cS, cD, cE⟩ := h.opts hj2
      obtain ⟨w1, w2, w3⟩ := v3 j y hj k2
      simp only [ok_bind, typeAt, k1, unwrap]
      refine Okay.then ?_ ?_
      · unfold checkSuperDescriptor
        cases hxd : x.descriptor with
        | none =>
          refine bailIf_ok ?_
          rw [optIs_none kD]
          cases hyd : y.descriptor with
          | none => rfl
          | some sd => obtain ⟨d, _, e, _⟩ := w1 sd hyd; rw [hxd] at e; cases e
        | some d =>
          simp only
          cases hud : u.compositeType.descriptorIdx with
          | none => exact .pure _
          | some q =>
            obtain ⟨sd, hsd, hq⟩ := optIs_some kD hud
            obtain ⟨v, z, l1, l2, lS, _, _, _, eS, _⟩ := h.opts (bD d hxd).2
            simp only [typeAt, l1, unwrap, ok_bind]
            rw [differs_spec hq (cD sd hsd).1 lS (fun j hj => (eS j hj).1)]
            simp only [ok_bind]
            obtain ⟨d', z', e1, e2, e3⟩ := w1 sd hsd
            rw [hxd] at e1
            cases e1
            rw [l2] at e2
            cases e2
            exact bailIf_ok (by simp [e3])
      · unfold checkSuperDescribes
        cases htd : t.compositeType.describesIdx with
        | none =>
          have hxe := optIs_none' hE htd
          cases hud : u.compositeType.describesIdx with
          | none => exact .pure _
          | some q =>
            obtain ⟨sd, hsd, _⟩ := optIs_some kE hud
            obtain ⟨d, _, e, _⟩ := w2 sd hsd
            rw [hxe] at e; cases e
        | some a =>
          obtain ⟨d, hxd, ha⟩ := optIs_some hE htd
          obtain ⟨hd1, hd2⟩ := bE d hxd
          cases hud : u.compositeType.describesIdx with
          | none => have := w3 (optIs_none' kE hud); rw [hxd] at this; cases this
          | some q =>
            obtain ⟨sd, hsd, hq⟩ := optIs_some kE hud
            obtain ⟨v, z, l1, l2, lS, _, _, _, eS, _⟩ := h.opts hd2
            simp only
            rw [atPacked_spec ha hd1]
            simp only [typeAt, l1, unwrap, ok_bind]
            rw [differs_spec hq (cE sd hsd).1 lS (fun j hj => (eS j hj).1)]
            simp only [ok_bind]
            obtain ⟨d', z', e1, e2, e3⟩ := w2 sd hsd
            rw [hxd] at e1
            cases e1
            rw [l2] at e2
            cases e2
            exact bailIf_ok (by simp [e3])
  · cases hxd : x.descriptor with
    | none => exact .pure _
    | some d =>
      obtain ⟨v, z, l1, l2, _, _, lE, _, _, _, eE⟩ := h.opts (bD d hxd).2
      unfold checkBack
      simp only [typeAt, l1, unwrap, ok_bind]
      rw [mapCanonical_spec lE fun j hj => (eE j hj).1]
      simp only [ok_bind]
      obtain ⟨y, e1, e2⟩ := v1 d hxd
      rw [l2] at e1
      cases e1
      exact bailIf_ok (by simp [e2])
  · cases hxd : x.describes with
    | none => exact .pure _
    | some d =>
      obtain ⟨v, z, l1, l2, _, lD, _, _, _, eD, _⟩ := h.opts (bE d hxd).2
      unfold checkBack
      simp only [typeAt, l1, unwrap, ok_bind]
      rw [mapCanonical_spec lD fun j hj => (eD j hj).1]
      simp only [ok_bind]
      obtain ⟨y, e1, e2⟩ := v2 d hxd
      rw [l2] at e1
      cases e1
      exact bailIf_ok (by simp [e2])

/-! ## Depths -/

theorem Depth.unique {L : List (SubT Nat)} {i d d' : Nat} (h : Depth L i d) (h' : Depth L i d') :
    d = d' := by
  induction h generalizing d' with
  | top h1 h2 =>
    cases h' with
    | top => rfl
    | sub k1 k2 => rw [h1] at k1; cases k1; rw [h2] at k2; cases k2
  | sub h1 h2 _ ih =>
    cases h' with
    | top k1 k2 => rw [h1] at k1; cases k1; rw [h2] at k2; cases k2
    | sub k1 k2 k3 =>
      rw [h1] at k1; cases k1; rw [h2] at k2; cases k2
      rw [ih k3]

/-- The recorded depths are right. -/
theorem Inv.depthIs {n : Nat} (h : Inv f T G n) (hn : n ≤ total G) : ∀ i d, T.coreTypeToDepth i = some d →
    Depth (flat 0 G) i d := by
  intro i
  induction i using Nat.strongRecOn with
  | ind i ih =>
    intro d hd
    have hi : i < n := (h.depth i).1 (by rw [hd]; rfl)
    cases hx : (flat 0 G)[i]? with
    | none =>
      rw [List.getElem?_eq_none_iff, flat_length] at hx
      omega
    | some x =>
      obtain ⟨h1, h2, _⟩ := h.sub i x hi hx
      cases hs : x.supertype with
      | none =>
        have := h1 hs
        rw [hd] at this
        cases this
        exact .top hx hs
      | some j =>
        obtain ⟨y, d', _, _, _, _, e1, e2⟩ := h2 j hs
        rw [hd] at e2
        cases e2
        exact .sub hx hs (ih j ((flat_refs h.gok hx).2 j hs) d' e1)

/-! ## Adding the group -/

theorem addIds_new_ok {n len : Nat} (h : Inv f T G n) (hn : n + len = total G) (m : List Nat)
    (k : Nat) (hD : DeclsOk (declsG G))
    (hv : ∀ i x, n ≤ i → (flat 0 G)[i]? = some x → TypeOk f (flat 0 G) i x)
    (hd : ∀ i, n ≤ i → i < total G → ∃ d, d ≤ 63 ∧ Depth (flat 0 G) i d) :
    Okay (addIds f true k (List.range' n len) T m) := by
  induction len generalizing n T m with
  | zero => exact .mk _
  | succ len ih =>
    rw [List.range'_succ]
    unfold addIds
    have hlt : n < total G := by omega
    refine .eq (u32_ok (by have := h.small; omega)) ?_
    obtain ⟨t, x, h1, h2, h3⟩ := h.at hlt
    refine (Okay.assert (by simp [h1])).then ?_
    simp only [if_true]
    have hvx := hv n x (Nat.le_refl _) h2
    have hsubok := checkSubtype_ok h hD hlt (m ++ [n]) k h2 hvx (by
      intro j d hj hdj
      obtain ⟨d', h63, hd'⟩ := hd n (Nat.le_refl _) hlt
      have := Depth.unique (.sub h2 hj (Inv.depthIs h (by omega) j d hdj)) hd'
      omega)
    refine hsubok.bind (checkSubtype_spec h hlt _ k h2) ?_
    rintro T' ⟨d, hd63, rfl, hsub⟩
    have hst := h.toStatic.depth fun i => if i = n then some d else T.coreTypeToDepth i
    refine (checkDescriptors_ok hst hlt (m ++ [n]) k h2 hvx).bind
      (checkDescriptors_spec hst hlt _ k h2) fun _ hdesc => ?_
    refine ih (n := n + 1) ⟨hst, ?_, ?_, ?_, ?_⟩ (by omega) _ (fun i x hi => hv i x (by omega))
      fun i hi => hd i (by omega)
    · intro i
      simp only
      by_cases hi : i = n
      · simp [hi]
      · rw [if_neg hi, h.depth i]; omega
    · intro i e he
      simp only at he
      split at he
      · cases he; exact hd63
      · exact h.depthLe i e he
    · intro i y hi hy
      by_cases hin : i = n
      · subst hin
        rw [h2] at hy; cases hy
        exact hsub
      · have hi' : i < n := by omega
        obtain ⟨q1, q2, q3, q4, q5⟩ := h.sub i y hi' hy
        have hs := (flat_refs h.gok hy).2
        refine ⟨fun e => by simp only; rw [if_neg hin]; exact q1 e, fun j hj => ?_, q3, q4, q5⟩
        obtain ⟨z, d', r1, r2, r3, r4, r5, r6⟩ := q2 j hj
        have := hs j hj
        exact ⟨z, d', r1, r2, r3, r4, by simp only; rw [if_neg (by omega)]; exact r5,
          by simp only; rw [if_neg hin]; exact r6⟩
    · intro i y hi hy
      by_cases hin : i = n
      · subst hin
        rw [h2] at hy; cases hy
        exact hdesc
      · exact h.desc i y (by omega) hy

theorem addIds_old_ok {n len : Nat} (h : Static f T G) (hn : n + len ≤ total G) (m : List Nat)
    (k : Nat) : Okay (addIds f false k (List.range' n len) T m) := by
  induction len generalizing n m with
  | zero => exact .mk _
  | succ len ih =>
    rw [List.range'_succ]
    unfold addIds
    have hlt : n < total G := by omega
    refine .eq (u32_ok (by have := h.small; omega)) ?_
    obtain ⟨t, x, h1, h2, h3⟩ := h.at hlt
    refine (Okay.assert (by simp [h1])).then ?_
    simp only [Bool.false_eq_true, if_false]
    exact ih (n := n + 1) (by omega) _

theorem supertypeId_ok {o : Option PackedIndex} {x : Option CRef} {s : Nat}
    (h : OptIs DIdx o (x.map cpack)) (hx : ∀ r ∈ x, Small r)
    (hl : ∀ i, x = some (.inl i) → s + i < 2 ^ 20) : Okay (supertypeId s o) := by
  cases x with
  | none =>
    cases o with
    | none => exact .mk _
    | some p => exact h.elim
  | some r =>
    cases o with
    | none => exact h.elim
    | some p =>
      have h : DIdx p (cpack r) := h
      have hr := hx r rfl
      unfold supertypeId
      simp only [h.unpack, unwrap, ok_bind]
      cases r with
      | inl i =>
        have hi : i < 2 ^ 20 := hr
        have := hl i rfl
        simp only [cpack]
        rw [toNat_small hi]
        exact .eq (u32_ok (by omega)) (.pure _)
      | inr j => exact .pure _

theorem local_ref_ok {s : Nat} {r : CRef} (hr : Small r) (hl : ∀ i, r = .inl i → s + i < 2 ^ 20) :
    Okay (fhat (localToId s) (cpack r)) := by
  unfold fhat
  cases r with
  | inr j =>
    have hj : j < 2 ^ 20 := hr
    obtain ⟨p, hp, hu⟩ := pack_ok (u := cpack (.inr j))
      (by show (BitVec.ofNat 32 j).toNat < _; rw [toNat_small hj]; exact hj)
    rw [hp]
    simp only [unwrap, ok_bind]
    unfold localToId
    rw [hu]
    simp only [unwrap, ok_bind, cpack, pure_ok, hu]
    exact .mk _
  | inl i =>
    have hi : i < 2 ^ 20 := hr
    have hl := hl i rfl
    obtain ⟨p, hp, hu⟩ := pack_ok (u := cpack (.inl i))
      (by show (BitVec.ofNat 32 i).toNat < _; rw [toNat_small hi]; exact hi)
    rw [hp]
    simp only [unwrap, ok_bind]
    unfold localToId
    rw [hu]
    simp only [unwrap, ok_bind, cpack]
    rw [toNat_small hi, u32_ok (by omega)]
    simp only [ok_bind]
    obtain ⟨q, hq, hqu⟩ := pack_ok (u := .id (BitVec.ofNat 32 (s + i)))
      (by show (BitVec.ofNat 32 (s + i)).toNat < _; rw [toNat_small hl]; exact hl)
    rw [hq]
    simp only [ok_bind, hqu]
    exact .mk _

theorem internTypes_ok {s k : Nat} {g : List SubType} {c : CGroup}
    (h : List.Forall₂ (fun t x => DSub t (x.map cpack)) g c)
    (hr : ∀ x ∈ c, ∀ r ∈ x.refs, Small r ∧ ∀ i, r = .inl i → s + i < 2 ^ 20)
    (T : TypeList) (h1 : T.coreTypes.length = T.coreTypeToSupertype.length)
    (h2 : T.coreTypes.length = T.coreTypeToRecGroup.length) : Okay (internTypes s k T g) := by
  induction h generalizing T with
  | nil => exact .mk _
  | @cons t x g c ht _ ih =>
    have hrx := hr x (by simp)
    unfold internTypes
    refine (Okay.assert (by simpa using h1)).then ?_
    refine (Okay.assert (by simpa using h2)).then ?_
    obtain ⟨y, hy⟩ := supertypeId_ok (x := x.supertype) (s := s) ht.2.1
      (fun r h => (hrx r (by simp [SubT.refs, Option.mem_def.1 h])).1)
      (fun i h => (hrx (.inl i) (by simp [SubT.refs, h])).2 i rfl)
    refine .eq hy ?_
    obtain ⟨t', ht'⟩ := Okay.remaps (remapSub_spec (keeps_local s) ht) (by
      intro u hu
      rw [SubT.refs_map] at hu
      obtain ⟨r, hr', rfl⟩ := List.mem_map.1 hu
      exact local_ref_ok (hrx r hr').1 (hrx r hr').2)
    refine .eq ht' ?_
    exact ih (fun y hy => hr y (by simp [hy])) _ (by simp [h1]) (by simp [h2])

theorem internNew_ok (h : Static f T G) {g : List SubType} {c : CGroup}
    (hg : List.Forall₂ (fun t x => DSub t (x.map cpack)) g c)
    (hr : ∀ x ∈ c, ∀ r ∈ x.refs, Small r ∧ (∀ i, r = .inl i → i < c.length))
    (hz : total G + c.length ≤ 2 ^ 20) (cr : List SubType → Option Nat) :
    Okay (internNew { T with canonicalRecGroups := cr } G.length g) := by
  unfold internNew
  simp only
  have hlen := h.length
  refine .eq (u32_ok (by rw [hlen]; exact h.small)) ?_
  rw [hlen]
  have hr' : ∀ x ∈ c, ∀ r ∈ x.refs, Small r ∧ ∀ i, r = .inl i → total G + i < 2 ^ 20 :=
    fun x hx r hr' => ⟨(hr x hx r hr').1, fun i e => by have := (hr x hx r hr').2 i e; omega⟩
  have l1 : T.coreTypes.length = T.coreTypeToSupertype.length := by
    rw [h.supers, hlen, List.length_map, flat_length]
  have l2 : T.coreTypes.length = T.coreTypeToRecGroup.length := by rw [h.groups, hlen, gids_length]
  refine (internTypes_ok hg hr' { T with canonicalRecGroups := cr } l1 l2).bind
    (internTypes_spec hg (fun x hx r hr => ⟨(hr' x hx r hr).1, fun i e z => z.elim⟩) _ l1 l2) ?_
  rintro T' ⟨tys, rfl, htys, hids⟩
  simp only
  have hl2 : (T.coreTypes ++ tys).length = total G + c.length := by
    rw [List.length_append, hlen, htys.length_eq]; simp [ided]
  rw [hl2]
  exact .eq (u32_ok (by omega)) (.pure _)

/-- The list with the new group. -/
theorem withGroup_flat {m : List Nat} {xs : List (SubT Nat)}
    (hs : ∀ x ∈ xs, ∀ r ∈ x.refs, r < m.length + xs.length) :
    withGroup (flat 0 G) m xs = flat 0 (G ++ [xs.map (SubT.map (canon m))]) := by
  rw [flat_append]
  unfold withGroup ided
  congr 1
  rw [List.map_map]
  refine List.map_congr_left fun x hx => ?_
  rw [Function.comp, SubT.map_map]
  refine SubT.map_congr fun r hr => ?_
  unfold idsAfter
  rw [flat_length]
  have := hs x hx r hr
  rcases canon_cases (m := m) (r := r) with ⟨h1, h2⟩ | ⟨h1, h2⟩
  · rw [h2, List.getElem?_append_left h1, List.getElem?_eq_getElem h1]; rfl
  · rw [h2, List.getElem?_append_right h1, List.getElem?_range' (by omega)]
    simp [toId]

/-- Only new groups have to satisfy the rules for their types. -/
theorem add_ok' (hf : f.gc = true) (h : Inv f T G (total G)) {m : List Nat}
    (hm : ∀ id ∈ m, id < total G) {g : RecGroup} {xs : List (SubT Nat)} (hg : Src g xs)
    (hz : total G + xs.length ≤ 2 ^ 20) (hl : m.length + xs.length ≤ maxWasmTypes)
    (hscope : ∀ x ∈ xs, ∀ r ∈ x.refs, r < m.length + xs.length)
    (hearlier : ∀ p x, xs[p]? = some x → ∀ r, x.supertype = some r ∨ x.describes = some r →
      r < m.length + p)
    (ha : xs.map (SubT.map (canon m)) ∉ G → Addable f (flat 0 G) m xs) :
    Okay (addTypes f T m g) := by
  have hlen := hg.1.length_eq
  have hmw : maxWasmTypes = 1000000 := rfl
  have hcf : f.needsTypeCanonicalization = true := by
    unfold Features.needsTypeCanonicalization; simp [hf]
  unfold addTypes
  refine (Okay.require (by simp; omega)).then ?_
  unfold canonicalizeAndIntern
  refine (Okay.assert (by cases g <;> simp [RecGroup.isExplicit, RecGroup.types])).then ?_
  refine .reqIf (fun _ => hf) ?_
  rw [if_pos hcf]
  have hm20 : ∀ id ∈ m, id < 2 ^ 20 := fun id hid => by have := hm id hid; omega
  unfold canonicalizeRecGroup
  rw [hcf]
  have hcs := canonicalizeTypes_spec (sz := False) (f := f) (m := m) (len := g.types.length)
    (fun id hid => by have := hm20 id hid; omega) (.inl hf) hg.1 hg.2 0 (by omega)
  obtain ⟨g', hg'⟩ := canonicalizeTypes_ok hf (len := g.types.length) hm20 hg.1
    (fun x hx r hr => ⟨hg.2 x hx r hr, by rw [hlen]; exact hscope x hx r hr⟩) 0 (by omega)
    (fun p x hp r hr => by simpa using hearlier p x hp r hr)
  obtain ⟨hg2, hcan⟩ := hcs.1 g' hg'
  refine .eq (a := g') ?_ ?_
  · rw [u32_ok (by omega), u32_ok (by omega)]
    exact hg'
  have hcg : List.Forall₂ (fun t x => DSub t (x.map cpack)) g' (xs.map (SubT.map (canon m))) := by
    rw [List.forall₂_map_right_iff]; exact hg2
  have hxr : ∀ x ∈ xs, ∀ r ∈ x.refs, r < m.length + xs.length ∧ Small (canon m r) := by
    intro x hx r hr
    obtain ⟨p, hp⟩ := List.mem_iff_getElem?.1 hx
    have := (hcan p x hp).1 r hr
    rwa [hlen] at this
  have hcr : ∀ x ∈ xs.map (SubT.map (canon m)), ∀ r ∈ x.refs, Small r ∧
      (∀ i, r = .inl i → i < (xs.map (SubT.map (canon m))).length) ∧
      ∀ j, r = .inr j → j < total G := by
    intro x hx r hr
    obtain ⟨y, hy, rfl⟩ := List.mem_map.1 hx
    rw [SubT.refs_map] at hr
    obtain ⟨q, hq, rfl⟩ := List.mem_map.1 hr
    obtain ⟨h1, h2⟩ := hxr y hy q hq
    refine ⟨h2, ?_, ?_⟩
    · intro i e
      rcases canon_cases (m := m) (r := q) with ⟨_, e'⟩ | ⟨_, e'⟩
      · rw [e'] at e; cases e
      · rw [e'] at e; cases e; simp; omega
    · intro j e
      rcases canon_cases (m := m) (r := q) with ⟨_, e'⟩ | ⟨_, e'⟩
      · rw [e'] at e; cases e; exact hm _ (List.getElem_mem _)
      · rw [e'] at e; cases e
  have hcs' : ∀ p x, (xs.map (SubT.map (canon m)))[p]? = some x → ∀ r ∈ x.supertype, SupOk p r := by
    intro p x hx r hr
    simp only [List.getElem?_map, Option.map_eq_some_iff] at hx
    obtain ⟨y, hy, rfl⟩ := hx
    simp only [SubT.map, Option.mem_def, Option.map_eq_some_iff] at hr
    obtain ⟨q, hq, rfl⟩ := hr
    have := (hcan p y hy).2.1 q hq
    rcases canon_cases (m := m) (r := q) with ⟨_, e'⟩ | ⟨_, e'⟩
    · rw [e']; trivial
    · rw [e']; simp only [SupOk]; omega
  unfold internCanonicalRecGroup
  rw [show T.recGroupElements.length = G.length by rw [h.elems, elems_length]]
  simp only [bind_assoc]
  refine .eq (u32_ok (h.groupsLt (by omega))) ?_
  rw [if_pos trivial]
  cases hlook : T.canonicalRecGroups g' with
  | some k =>
    obtain ⟨c, hk, hc⟩ := (h.canon hcf g' k).1 hlook
    simp only [pure_ok, ok_bind]
    rw [h.elems, elems_get, hk]
    simp only [Option.map_some, unwrap, ok_bind, Nat.zero_add, Nat.add_sub_cancel_left]
    exact addIds_old_ok h.toStatic (by have := startOf_add_le hk; simpa using this) m k
  | none =>
    simp only
    have hnotin : xs.map (SubT.map (canon m)) ∉ G := by
      intro hin
      obtain ⟨k, hk⟩ := List.mem_iff_getElem?.1 hin
      have := (h.canon hcf g' k).2 ⟨_, hk, hcg⟩
      rw [hlook] at this; cases this
    refine (internNew_ok h.toStatic hcg (fun x hx r hr => ⟨(hcr x hx r hr).1, (hcr x hx r hr).2.1⟩)
      (by simpa using hz) _).bind
      (internNew_spec h.toStatic hcg hcr hcs' (fun _ => hnotin) (.inl hnotin) nofun) ?_
    rintro ⟨⟨isNew, k⟩, T'⟩ ⟨h1, h2, h3⟩
    simp only [Prod.mk.injEq] at h1
    obtain ⟨rfl, rfl⟩ := h1
    simp only at h2 h3 ⊢
    have ha := ha hnotin
    have hwg := withGroup_flat (G := G) ha.scope
    have hadd := ha.types
    have hdep := ha.depth
    rw [hwg, flat_length] at hadd
    rw [hwg, flat_length] at hdep
    have hclen : (xs.map (SubT.map (canon m))).length = xs.length := by simp
    generalize hc : xs.map (SubT.map (canon m)) = c at h2 hadd hdep hclen
    rw [h2.elems, elems_get]
    simp only [List.getElem?_append_right (Nat.le_refl G.length), Nat.sub_self,
      List.getElem?_cons_zero, Option.map_some, unwrap, ok_bind, Nat.zero_add,
      Nat.add_sub_cancel_left, startOf_self]
    have hinv : Inv f T' (G ++ [c]) (total G) := by
      refine ⟨h2, ?_, ?_, ?_, ?_⟩
      · rw [h3]; exact h.depth
      · rw [h3]; exact h.depthLe
      · intro i x hi hx
        rw [flat_append, List.getElem?_append_left (by rwa [flat_length])] at hx
        rw [h3]
        exact (h.sub i x hi hx).mono c
      · intro i x hi hx
        rw [flat_append, List.getElem?_append_left (by rwa [flat_length])] at hx
        exact (h.desc i x hi hx).mono c h.gok hx
    refine addIds_new_ok hinv (by rw [total_snoc]) m G.length ?_ hadd (by
      rw [total_snoc, hclen]; exact hdep)
    intro i j hij
    simp only [declsG, Option.bind_eq_some_iff] at hij
    obtain ⟨x, hx, hj⟩ := hij
    refine ⟨(flat_refs h2.gok hx).2 j hj, (x.shared, x.comp.kind), ?_, ?_⟩
    · simp [declsG, hx]
    · have : ∃ y, (flat 0 (G ++ [c]))[j]? = some y ∧ x.shared = y.shared ∧
          CompSub (declsG (G ++ [c])) x.comp y.comp := by
        by_cases hi : i < total G
        · obtain ⟨y, d, hy, _, k3, k4, _⟩ := (hinv.sub i x hi hx).2.1 j hj
          exact ⟨y, hy, k3, k4⟩
        · obtain ⟨y, hy, _, k3, k4⟩ := (hadd i x (by omega) hx).super j hj
          exact ⟨y, hy, k3, k4⟩
      obtain ⟨y, hy, k3, k4⟩ := this
      simp [declsG, hy, k3, compSub_kind k4]

theorem add_ok (hf : f.gc = true) (h : Inv f T G (total G)) {m : List Nat}
    (hm : ∀ id ∈ m, id < total G) {g : RecGroup} {xs : List (SubT Nat)} (hg : Src g xs)
    (hz : total G + xs.length ≤ 2 ^ 20) (hl : m.length + xs.length ≤ maxWasmTypes)
    (ha : Addable f (flat 0 G) m xs) : Okay (addTypes f T m g) :=
  add_ok' hf h hm hg hz hl ha.scope ha.earlier fun _ => ha

end Verif.TypeList.Accept
