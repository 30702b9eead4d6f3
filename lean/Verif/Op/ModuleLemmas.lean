import Verif.Op.Module
import Verif.Op.View
import Verif.TypeList.Props
/-! The answers of a module are those of the context that it stands for. -/
namespace Verif.Op.View
open Verif.Op.Typing
open Verif.Types (AbsHeap HeapType UnpackedIndex RefType ValType)
open Verif.TypeList.Spec (Field Storage Comp SubT Decls HeapSub RefSub ValSub StorageSub)
open Verif.TypeList (TypeList DeclsOk HeapIn Reaches State SrcOp declsOf RefIs ValIs DRef DVal idx)

/-- The function type of a tag. -/
def tagType (L : List (SubT Nat)) (id : Nat) : List V × List V :=
  match L[id]? with
  | some x => match x.comp with
    | .func ps rs => (ps, rs)
    | _ => ([], [])
  | none => ([], [])

/-- The context that a module stands for. -/
def ctxOf (L : List (SubT Nat)) (m : Module) : Ctx where
  types := m.types
  defs i := L[i]?
  funcs := m.functions
  tables := m.tables.map fun t => ⟨t.elem, t.table64, t.shared⟩
  mems := m.memories
  tags := m.tags.map (tagType L)
  globals := m.globals.map fun g => ⟨g.content, g.mutable, g.shared⟩
  elems := m.elementTypes
  datas := (m.dataCount.map (·.toNat)).getD 0
  refs := m.functionReferences

/-- The tags of a module have function types. -/
def TagsOk (L : List (SubT Nat)) (m : Module) : Prop :=
  ∀ id ∈ m.tags, ∃ x ps rs, L[id]? = some x ∧ x.comp = .func ps rs

variable {f : TypeList.Features} {ops : List TypeList.Op} {os : List SrcOp} {s : State}
  {L : List (SubT Nat)}

theorem decls_ctxOf {m : Module} : (ctxOf L m).decls = declsOf L := rfl

theorem refIs_enc (hl : L.length ≤ 2 ^ 20) {r : Ref} (h : inList L r.heap.refs = true) :
    ∃ t, encRef r = some t ∧ RefIs L t r := by
  have hr : ∀ i ∈ r.heap.refs, i < 2 ^ 20 ∧ i < L.length := by
    intro i hi
    have := List.all_eq_true.1 h i hi
    simp only [decide_eq_true_eq] at this
    omega
  clear h
  obtain ⟨n, x⟩ := r
  have hf : (TypeList.toHeap (x.map idx)).Fits := by
    cases x with
    | abs => trivial
    | concrete i =>
      show (BitVec.ofNat 32 i).toNat < 2 ^ 20
      have := (hr i (by simp [Verif.TypeList.Spec.Heap.refs])).1
      simp only [BitVec.toNat_ofNat]
      omega
    | exact i =>
      show (BitVec.ofNat 32 i).toNat < 2 ^ 20
      have := (hr i (by simp [Verif.TypeList.Spec.Heap.refs])).1
      simp only [BitVec.toNat_ofNat]
      omega
  obtain ⟨t, h1, -⟩ := (Types.new_spec n _).1 hf
  exact ⟨t, h1, h1, hr⟩

theorem valIs_enc (hl : L.length ≤ 2 ^ 20) {v : Val} (h : inList L v.refs = true) :
    ∃ t, encVal v = some t ∧ ValIs L t v := by
  cases v with
  | ref r =>
    obtain ⟨t, h1, h2⟩ := refIs_enc hl (r := r) h
    refine ⟨.ref t, ?_, h2.1, h2.2⟩
    show (encRef r).map _ = _
    rw [h1]
    rfl
  | _ => exact ⟨_, rfl, trivial, nofun⟩

theorem heapStep_in {D : Decls} {a b : Heap} (h : TypeList.Spec.HeapStep D a b)
    (hD : DeclsOk D) : HeapIn D a ∧ HeapIn D b := by
  cases h with
  | abs => exact ⟨nofun, nofun⟩
  | @top i s k h =>
    refine ⟨fun j hj => ?_, nofun⟩
    rw [List.mem_singleton.1 hj, h]
    rfl
  | @super i j h =>
    obtain ⟨-, p, h1, h2⟩ := hD _ _ h
    refine ⟨fun j hj => ?_, fun j hj => ?_⟩
    · rw [List.mem_singleton.1 hj, h1]
      rfl
    · rw [List.mem_singleton.1 hj, h2]
      rfl
  | @exact i s k h =>
    refine ⟨fun j hj => ?_, fun j hj => ?_⟩ <;>
    · rw [List.mem_singleton.1 hj, h]
      rfl
  | @bot i s k h =>
    refine ⟨nofun, fun j hj => ?_⟩
    rw [List.mem_singleton.1 hj, h]
    rfl

theorem heapSub_in {D : Decls} (hD : DeclsOk D) {a b : Heap} (h : HeapSub D a b) :
    a = b ∨ (HeapIn D a ∧ HeapIn D b) := by
  induction h with
  | refl => exact .inl rfl
  | tail h1 h2 ih =>
    obtain ⟨h3, h4⟩ := heapStep_in h2 hD
    rcases ih with rfl | ih
    · exact .inr ⟨h3, h4⟩
    · exact .inr ⟨ih.1, h4⟩

theorem heapIn_inList {h : Heap} : HeapIn (declsOf L) h ↔ inList L h.refs = true := by
  unfold HeapIn inList
  rw [List.all_eq_true]
  refine forall₂_congr fun i _ => ?_
  show ((L[i]?).map _).isSome = true ↔ _
  simp

theorem declsOk_of (h : Reaches f ops os s) (hL : TypeList.View s.types L) :
    DeclsOk (declsOf L) := by
  obtain ⟨G, ⟨hi, _⟩, e⟩ := h.view hL
  subst e
  exact hi.declsOk

theorem subtypeAnswer_iff (h : Reaches f ops os s) (hL : TypeList.View s.types L)
    (hl : L.length ≤ 2 ^ 20) (a b : Val) :
    subtypeAnswer s.types L a b = true ↔ ValSub (declsOf L) a b := by
  unfold subtypeAnswer
  split
  · next hin =>
    rw [Bool.and_eq_true] at hin
    obtain ⟨x, h1, h2⟩ := valIs_enc hl hin.1
    obtain ⟨y, h3, h4⟩ := valIs_enc hl hin.2
    obtain ⟨r, h5, h6⟩ := TypeList.c13_val h hL h2 h4
    rw [h1, h3]
    show (answer (some (TypeList.valtypeIsSubtype s.types x y))).getD false = true ↔ _
    rw [h5]
    exact h6
  · next hin =>
    have hD := declsOk_of h hL
    constructor
    · intro hs
      split at hs
      · next r r' =>
        rw [Bool.and_eq_true, beq_iff_eq] at hs
        refine .ref ⟨?_, by rw [hs.2]; exact .refl⟩
        intro hn
        have := hs.1
        rw [hn] at this
        exact this
      · cases hs
    · intro hs
      have num : ∀ v : Val, inList L v.refs = true → ¬ (inList L a.refs && inList L b.refs) = true →
          a = v → b = v → False := by
        intro v hv hn e1 e2
        subst e1
        subst e2
        rw [hv] at hn
        exact hn rfl
      cases hs with
      | refl =>
        cases a with
        | ref r => simp
        | _ => exact (num _ rfl hin rfl rfl).elim
      | @ref r r' hs =>
        obtain ⟨h1, h2⟩ := hs
        have e : r.heap = r'.heap := by
          rcases heapSub_in hD h2 with e | ⟨e1, e2⟩
          · exact e
          · exfalso
            apply hin
            rw [Bool.and_eq_true]
            exact ⟨heapIn_inList.1 e1, heapIn_inList.1 e2⟩
        show ((!r.nullable || r'.nullable) && r.heap == r'.heap) = true
        rw [e]
        cases hn : r.nullable with
        | false => simp
        | true => rw [h1 hn]; simp

theorem sharedAnswer_eq (h : Reaches f ops os s) (hL : TypeList.View s.types L)
    (hl : L.length ≤ 2 ^ 20) {m : Module} (r : Ref) :
    sharedAnswer s.types L r = (ctxOf L m).sharedHeap r.heap := by
  unfold sharedAnswer
  obtain ⟨G, ⟨hi, _⟩, e⟩ := h.view hL
  split
  · next hin =>
    obtain ⟨t, h1, h2⟩ := refIs_enc hl hin
    rw [h1]
    obtain ⟨_, hv⟩ := h2.1.view
    have hg := TypeList.view_in e h2.2
    obtain ⟨n, x⟩ := r
    have conc : ∀ i : Nat, x.refs = [i] →
        ∃ z, L[i]? = some z ∧ ∀ hh, (hh = HeapType.concrete (idx i) ∨ hh = HeapType.exact (idx i)) →
          t.heapType = some hh → TypeList.reftypeIsShared s.types t = .ok z.shared := by
      intro i hx
      have hi' := hg i (by rw [show (TypeList.Spec.Ref.heap ⟨n, x⟩) = x from rfl, hx]; simp)
      obtain ⟨t', z, h2, h3, h4⟩ := hi.toStatic.at hi'.2
      refine ⟨z, by rw [e]; exact h3, ?_⟩
      rintro hh (rfl | rfl) hv <;>
      · unfold TypeList.reftypeIsShared
        rw [hv]
        simp only [idx, TypeList.toNat_small hi'.1, TypeList.typeAt, h2, TypeList.unwrap,
          TypeList.ok_bind]
        have := h4.2.2.1
        rw [this]; rfl
    cases x with
    | abs sh a =>
      show (answer (some (TypeList.reftypeIsShared s.types t))).getD false = sh
      unfold TypeList.reftypeIsShared
      rw [hv]
      rfl
    | concrete i =>
      obtain ⟨z, h3, h4⟩ := conc i rfl
      show (answer (some (TypeList.reftypeIsShared s.types t))).getD false =
        (L[i]?).any (·.shared)
      rw [h4 _ (.inl rfl) hv, h3]
      rfl
    | exact i =>
      obtain ⟨z, h3, h4⟩ := conc i rfl
      show (answer (some (TypeList.reftypeIsShared s.types t))).getD false =
        (L[i]?).any (·.shared)
      rw [h4 _ (.inr rfl) hv, h3]
      rfl
  · next hin =>
    obtain ⟨n, x⟩ := r
    have junk : ∀ i : Nat, x.refs = [i] → L[i]? = none := by
      intro i hx
      unfold inList at hin
      rw [show (TypeList.Spec.Ref.heap ⟨n, x⟩) = x from rfl, hx] at hin
      simpa using hin
    cases x with
    | abs sh a => exact absurd rfl hin
    | concrete i =>
      show false = (L[i]?).any (·.shared)
      rw [junk i rfl]
      rfl
    | exact i =>
      show false = (L[i]?).any (·.shared)
      rw [junk i rfl]
      rfl

/-- The answers of a module are those of its context, while the list has at most 2^20 types. -/
theorem faithful_of (h : Reaches f ops os s) (hL : TypeList.View s.types L)
    (hl : L.length ≤ 2 ^ 20) {m : Module} (ht : TagsOk L m) :
    Faithful (m.resources s.types L) (ctxOf L m) where
  table i := by
    show m.tables[i.toNat]? = _
    simp only [ctxOf, List.getElem?_map, Option.map_map]
    cases m.tables[i.toNat]? <;> rfl
  memory i := rfl
  tag i := by
    show (do
      let id ← m.tags[i.toNat]?
      let t ← L[id]?
      match t.comp with
      | .func ps rs => some (FuncTy.mk ps rs)
      | _ => none) = _
    simp only [ctxOf, List.getElem?_map, Option.map_map]
    cases hi : m.tags[i.toNat]? with
    | none => rfl
    | some id =>
      obtain ⟨x, ps, rs, h1, h2⟩ := ht id (List.mem_of_getElem? hi)
      simp [tagType, h1, h2]
  global i := by
    show m.globals[i.toNat]? = _
    simp only [ctxOf, List.getElem?_map, Option.map_map]
    cases m.globals[i.toNat]? <;> rfl
  subType i := rfl
  subTypeId c := rfl
  funcId i := rfl
  funcIdx i := rfl
  elem i := rfl
  sub a b := subtypeAnswer_iff h hL hl a b
  shared r := sharedAnswer_eq h hL hl r
  heap x y := by
    show m.checkHeapType x = .ok y ↔ (ctxOf L m).HeapTy x y
    unfold Module.checkHeapType Ctx.HeapTy
    cases x with
    | abstract sh a => simp [eq_comm]
    | concrete u =>
      cases u with
      | module i =>
        dsimp only [ctxOf]
        cases m.types[i.toNat]? <;> simp [eq_comm]
      | recGroup i => simp
      | id i => simp
    | exact u =>
      cases u with
      | module i =>
        dsimp only [ctxOf]
        cases m.types[i.toNat]? <;> simp [eq_comm]
      | recGroup i => simp
      | id i => simp
  top x hx := by
    have hin := heapIn_inList.1 (show HeapIn (declsOf L) x from hx)
    obtain ⟨t, -, h2⟩ := refIs_enc hl (r := ⟨true, x⟩) hin
    obtain ⟨ah, sh, a, h3, h4, h5⟩ := TypeList.c13_top h hL h2
    rw [h2.1.view.2] at h3
    cases h3
    have e : topAnswer s.types L x = .abs sh a := by
      unfold topAnswer
      rw [show TypeList.topType s.types (TypeList.toHeap (x.map idx)) = _ from h4]
      rfl
    show (∃ s' a', topAnswer s.types L x = .abs s' a') ∧ HeapSub _ x (topAnswer s.types L x) ∧
      ∀ y, HeapSub _ x y → HeapSub _ y (topAnswer s.types L x)
    rw [e]
    exact ⟨⟨sh, a, rfl⟩, h5 _ .refl, h5⟩
  data i := by
    show (∃ n, m.dataCount = some n ∧ i < n) ↔ i.toNat < (m.dataCount.map (·.toNat)).getD 0
    cases m.dataCount with
    | none => simp
    | some n => simp [BitVec.lt_def]
  refs i := by
    show m.functionReferences.contains i = true ↔ i ∈ m.functionReferences
    simp

/-- The types of a module are declared properly. -/
theorem ctxOk_of (h : Reaches f ops os s) (hL : TypeList.View s.types L)
    (hl : L.length ≤ 2 ^ 20) {m : Module} {n : Nat} (hm : s.modules[n]? = some m.types) :
    CtxOk (ctxOf L m) where
  decls := declsOk_of h hL
  types id hid := by
    obtain ⟨G, ⟨hi, hms⟩, e⟩ := h.view hL
    have hlt : id < L.length := by
      rcases TypeList.forall₂_get hms n with ⟨h3, _⟩ | ⟨m', gs', h3, h4, h5⟩
      · rw [hm] at h3; cases h3
      · rw [hm] at h3
        cases h3
        rw [e, TypeList.flat_length]
        exact h5.lt id hid
    refine ⟨?_, by omega⟩
    show (L[id]?).isSome = true
    simp [hlt]

end Verif.Op.View
