import Verif.Op.CalmBody
import Verif.Valid.Final
/-! # The answers of a module are in its list of types -/
namespace Verif.Valid
open Verif.Reader Verif.Items
open Verif.Op.Calm
open Verif.Op.Typing Verif.Op.View
open Verif.Std (BSearch)
open Verif.TypeList (TypeList)
open Verif.TypeList.Spec (SubT)
open Verif.Types (RefType ValType HeapType)

variable {f : Feats} {bs : BSearch} {T : TypeList} {m : Op.Module}

/-- The items of a module have identifiers in the list of types, and its functions have function
types. -/
structure ItemsIn (L : List (SubT Nat)) (m : Op.Module) : Prop where
  globals : ∀ g ∈ m.globals, ValIn L.length g.content
  tables : ∀ t ∈ m.tables, RefIn L.length t.elem
  elems : ∀ r ∈ m.elementTypes, RefIn L.length r
  funcs : ∀ i ∈ m.functions, ∃ id x ps rs, m.types[i.toNat]? = some id ∧ L[id]? = some x ∧
    x.comp = .func ps rs

theorem Hist.len (h : Hist f T m) : (listOf T).length ≤ 2 ^ 20 := by
  rw [listOf_length]
  exact h.room

theorem Hist.type_lt (h : Hist f T m) {i id : Nat} (hi : m.types[i]? = some id) :
    id < (listOf T).length := by
  have := (h.ctxOk.types id (List.mem_of_getElem? hi)).1
  have : ((listOf T)[id]?).isSome = true := this
  simpa using this

theorem Hist.subFine (h : Hist f T m) {c : Nat} {s : SubT Nat} (hs : (listOf T)[c]? = some s) :
    SubFine (m.resources T (listOf T)) (listOf T).length s where
  refs i hi := (h.view.2 s (List.mem_of_getElem? hs) i hi).2
  cont j hj := by
    have hv := h.view
    obtain ⟨ops, os, st, n, h1, rfl, -⟩ := h.reaches
    obtain ⟨y, ps, rs, h2, h3⟩ := (TypeList.c43_shared h1 hv hs).2 j hj
    exact ⟨y, ps, rs, h2, h3⟩

theorem mem_refs_params {s : SubT Nat} {ps rs : List V} (hc : s.comp = .func ps rs) {n : Nat}
    (h : ∀ i ∈ s.refs, i < n) : FuncIn n ⟨ps, rs⟩ := by
  have key : ∀ i ∈ s.comp.refs, i < n := fun i hi => h i (by
    unfold TypeList.Spec.SubT.refs
    simp [hi])
  rw [hc] at key
  constructor
  · intro v hv i hi
    exact key i (by
      unfold TypeList.Spec.Comp.refs
      simp only [List.mem_append, List.mem_flatMap]
      exact .inl ⟨v, hv, hi⟩)
  · intro v hv i hi
    exact key i (by
      unfold TypeList.Spec.Comp.refs
      simp only [List.mem_append, List.mem_flatMap]
      exact .inr ⟨v, hv, hi⟩)

theorem Hist.fine (h : Hist f T m) (hi : ItemsIn (listOf T) m) :
    Fine (m.resources T (listOf T)) (listOf T).length where
  small := h.len
  sub i s hs := by
    have hs : (m.types[i.toNat]?.bind fun id => (listOf T)[id]?) = some s := hs
    obtain ⟨id, -, h2⟩ := Option.bind_eq_some_iff.1 hs
    exact h.subFine h2
  subId c s hs := h.subFine hs
  defined c hc := by
    show ((listOf T)[c]?).isSome = true
    simpa using hc
  tag i t ht := by
    have ht : (m.tags[i.toNat]?.bind fun id => (listOf T)[id]?.bind fun t =>
      match t.comp with
      | .func ps rs => some (Op.FuncTy.mk ps rs)
      | _ => none) = some t := ht
    obtain ⟨id, -, h2⟩ := Option.bind_eq_some_iff.1 ht
    obtain ⟨s, h3, h4⟩ := Option.bind_eq_some_iff.1 h2
    split at h4
    · next ps rs hc =>
      cases h4
      exact mem_refs_params hc (h.subFine h3).refs
    · cases h4
  global i g hg := hi.globals g (List.mem_of_getElem? hg)
  table i t ht := hi.tables t (List.mem_of_getElem? ht)
  elem i r hr := hi.elems r (List.mem_of_getElem? hr)
  func i id hf := by
    have hf : (m.functions[i.toNat]?.bind fun t => m.types[t.toNat]?) = some id := hf
    obtain ⟨t, -, h2⟩ := Option.bind_eq_some_iff.1 hf
    exact h.type_lt h2
  abs s a := rfl
  concrete i := by
    rw [show (m.resources T (listOf T)).checkHeapType = m.checkHeapType from rfl]
    unfold Op.Module.checkHeapType
    dsimp only
    cases ht : m.types[i.toNat]? with
    | none => exact .inl rfl
    | some id => exact .inr ⟨id, h.type_lt ht, rfl⟩
  exact i := by
    rw [show (m.resources T (listOf T)).checkHeapType = m.checkHeapType from rfl]
    unfold Op.Module.checkHeapType
    dsimp only
    cases ht : m.types[i.toNat]? with
    | none => exact .inl rfl
    | some id => exact .inr ⟨id, h.type_lt ht, rfl⟩
  top x hx := (h.faithful.top x (heapIn_inList.2 (by
    unfold Op.inList
    rw [List.all_eq_true]
    exact fun i hi => decide_eq_true (hx i hi)))).1

/-! ## Questions about the list of types -/

theorem inList_of {L : List (SubT Nat)} {rs : List Nat} (h : ∀ i ∈ rs, i < L.length) :
    Op.inList L rs = true := by
  unfold Op.inList
  rw [List.all_eq_true]
  exact fun i hi => decide_eq_true (h i hi)

theorem Hist.ask_sub (h : Hist f T m) {a b : Op.Val} (ha : ValIn (listOf T).length a)
    (hb : ValIn (listOf T).length b) : ∃ x y, Op.encVal a = some x ∧ Op.encVal b = some y ∧
      TypeList.valtypeIsSubtype T x y = .ok (Op.subtypeAnswer T (listOf T) a b) := by
  have hv := h.view
  have hl := h.len
  obtain ⟨ops, os, st, n, h1, rfl, -⟩ := h.reaches
  obtain ⟨x, h2, h3⟩ := valIs_enc hl (inList_of ha)
  obtain ⟨y, h4, h5⟩ := valIs_enc hl (inList_of hb)
  obtain ⟨r, h6, -⟩ := TypeList.c13_val h1 hv h3 h5
  refine ⟨x, y, h2, h4, ?_⟩
  unfold Op.subtypeAnswer
  rw [inList_of ha, inList_of hb, h2, h4]
  show _ = Except.ok ((Op.answer (some (TypeList.valtypeIsSubtype st.types x y))).getD false)
  rw [h6]
  rfl

theorem Hist.ask_refSub (h : Hist f T m) {a b : Op.Ref} (ha : RefIn (listOf T).length a)
    (hb : RefIn (listOf T).length b) : ∃ x y r, Op.encRef a = some x ∧ Op.encRef b = some y ∧
      TypeList.reftypeIsSubtype T x y = .ok r := by
  have hv := h.view
  have hl := h.len
  obtain ⟨ops, os, st, n, h1, rfl, -⟩ := h.reaches
  obtain ⟨x, h2, h3⟩ := refIs_enc hl (inList_of ha)
  obtain ⟨y, h4, h5⟩ := refIs_enc hl (inList_of hb)
  obtain ⟨r, h6, -⟩ := TypeList.c13_ref h1 hv h3 h5
  exact ⟨x, y, r, h2, h4, h6⟩

theorem Hist.ask_shared (h : Hist f T m) {a : Op.Ref} (ha : RefIn (listOf T).length a) :
    ∃ x, Op.encRef a = some x ∧
      TypeList.reftypeIsShared T x = .ok (Op.sharedAnswer T (listOf T) a) := by
  have hv := h.view
  have hl := h.len
  obtain ⟨ops, os, st, n, h1, rfl, -⟩ := h.reaches
  obtain ⟨x, h2, h3⟩ := refIs_enc hl (inList_of ha)
  obtain ⟨r, h6, -⟩ := TypeList.c13_ref h1 hv h3 h3
  refine ⟨x, h2, ?_⟩
  have hr : r = true := by
    have := TypeList.c13_ref h1 hv h3 h3
    obtain ⟨r', h7, h8⟩ := this
    rw [h6] at h7
    cases h7
    exact h8.2 ⟨id, .refl⟩
  subst hr
  obtain ⟨⟨r, h7, -⟩, -⟩ := TypeList.c13_related h1 hv h3 h3 h6
  unfold Op.sharedAnswer
  rw [inList_of ha, h2]
  show _ = Except.ok ((Op.answer (some (TypeList.reftypeIsShared st.types x))).getD false)
  rw [h7]
  rfl

theorem Hist.ask_top (h : Hist f T m) {a : Op.Heap} (ha : HeapIn (listOf T).length a) :
    ∃ s t, TypeList.topType T (TypeList.toHeap (a.map TypeList.idx)) = .ok (.abstract s t) ∧
      Op.topAnswer T (listOf T) a = .abs s t := by
  have hv := h.view
  have hl := h.len
  obtain ⟨ops, os, st, n, h1, rfl, -⟩ := h.reaches
  obtain ⟨x, -, h3⟩ := refIs_enc hl (r := ⟨true, a⟩) (inList_of ha)
  obtain ⟨ah, sh, t, h4, h5, -⟩ := TypeList.c13_top h1 hv h3
  rw [h3.1.view.2] at h4
  cases h4
  refine ⟨sh, t, h5, ?_⟩
  unfold Op.topAnswer
  rw [show TypeList.topType st.types (TypeList.toHeap (a.map TypeList.idx)) = _ from h5]
  rfl

end Verif.Valid
