import Verif.Valid.Along
import Verif.Items.Codec
/-! # What the validator does with the items of sections -/
namespace Verif.Valid
open Verif.Reader Verif.Items
open Verif.Valid.Spec
open Verif.Op.Typing Verif.Op.View
open Verif.Op (Fail St Env TableTy GlobalTy)
open Verif.Std (BSearch)
open Verif.TypeList (TypeList)
open Verif.TypeList.Spec (SubT RefSub)
open Verif.Instr (Operator)
open Verif.Types (RefType ValType HeapType)

variable {f : Feats} {bs : BSearch} {T : TypeList}

/-! ## Loops -/

theorem collectFrom_mem {α : Type} {item : R α} : ∀ {n : Nat} {r : Reader} {xs : List α},
    collectFrom item n r = .ok xs → xs.length = n ∧ ∀ x ∈ xs, ∃ r r', item r = .ok (x, r')
  | 0, r, xs, h => by
    unfold collectFrom at h
    split at h
    · cases h; exact ⟨rfl, nofun⟩
    · cases h
  | n + 1, r, xs, h => by
    unfold collectFrom at h
    split at h
    · cases h
    · next a r' hi =>
      split at h
      · cases h
      · next as has =>
        cases h
        obtain ⟨h1, h2⟩ := collectFrom_mem has
        refine ⟨by rw [List.length_cons, h1], fun x hx => ?_⟩
        rcases List.mem_cons.1 hx with rfl | hx
        · exact ⟨r, r', hi⟩
        · exact h2 x hx

theorem collect_mem {α : Type} {item : R α} {sec : SectionLimited} {xs : List α}
    (h : sec.collect item = .ok xs) : ∀ x ∈ xs, ∃ r r', item r = .ok (x, r') :=
  (collectFrom_mem h).2

theorem collect_length {α : Type} {item : R α} {sec : SectionLimited} {xs : List α}
    (h : sec.collect item = .ok xs) : xs.length = sec.count.toNat := (collectFrom_mem h).1

theorem fold_cons {α σ : Type} {g : σ → α → X σ} {a : α} {as : List α} {s s' : σ}
    (h : fold g (a :: as) s = .ok s') : ∃ s1, g s a = .ok s1 ∧ fold g as s1 = .ok s' := bind_ok h

theorem fold_append {α σ : Type} {g : σ → α → X σ} {as bs : List α} {s s1 s2 : σ}
    (h : fold g as s = .ok s1) (h' : fold g bs s1 = .ok s2) : fold g (as ++ bs) s = .ok s2 := by
  induction as generalizing s with
  | nil => cases h; exact h'
  | cons a as ih =>
    obtain ⟨s3, h1, h2⟩ := fold_cons h
    show (g s a >>= fun s => fold g (as ++ bs) s) = _
    rw [h1]
    exact ih h2

theorem orErr_ok {α : Type} {o : Option α} {a : α} (h : orErr o = .ok a) : o = some a := by
  cases o with
  | none => cases h
  | some b => cases h; rfl

theorem orPanic_ok {α : Type} {o : Option α} {a : α} (h : orPanic o = .ok a) : o = some a := by
  cases o with
  | none => cases h
  | some b => cases h; rfl

theorem ofList_ok {α : Type} {x : TypeList.M α} {a : α} (h : ofList x = .ok a) : x = .ok a := by
  unfold ofList at h
  split at h <;> cases h
  rfl

theorem reqIf {c b : Bool} {u : Unit} (h : (if c then need b else pure ()) = .ok u) :
    c = true → b = true := by
  rintro rfl
  exact need_ok h

/-! ## Types -/

/-- A context with nothing but types. -/
def tctx (L : List (SubT Nat)) (ts : List Nat) : Ctx :=
  ⟨ts, fun i => L[i]?, [], [], [], [], [], [], 0, []⟩

theorem Hist.of {m m' : Op.Module} (h : Hist f T m) (h1 : m'.types = m.types)
    (h2 : TagsOk (listOf T) m') : Hist f T m' := ⟨h1 ▸ h.reaches, h.room, h2⟩

theorem Hist.list {m : Op.Module} (h : Hist f T m) : (listOf T).length ≤ 2 ^ 20 := by
  rw [listOf_length]
  exact h.room

theorem checkRefType_ok {m : Op.Module} (hh : Hist f T m) {r : RefType} {x : Op.Ref}
    (h : checkRefType f m r = .ok x) : (tctx (listOf T) m.types).RefTy r x := by
  obtain ⟨_, h1, h2⟩ := bind_ok h
  obtain ⟨a, h3, h4⟩ := bind_ok h2
  obtain ⟨b, h5, h6⟩ := bind_ok h4
  have h7 := (hh.faithful.heap a b).1 h5
  have h8 := heapTy_mkRef hh.ctxOk h7 r.isNullable
  rw [h8] at h6
  cases h6
  exact ⟨a, orPanic_ok h3, h7, rfl⟩

theorem checkValueType_ok {m : Op.Module} (hh : Hist f T m) {t : ValType} {x : Op.Val}
    (h : checkValueType f m t = .ok x) : (tctx (listOf T) m.types).ValTy t x := by
  cases t with
  | ref r =>
    obtain ⟨y, h1, h2⟩ := bind_ok h
    cases h2
    exact ⟨y, checkRefType_ok hh h1, rfl⟩
  | _ =>
    obtain ⟨y, h1, h2⟩ := bind_ok h
    cases h2
    rfl

/-- The identifiers of a checked type are in the list. -/
theorem refTy_in {m : Op.Module} (hh : Hist f T m) {r : RefType} {x : Op.Ref}
    (h : (tctx (listOf T) m.types).RefTy r x) : Op.inList (listOf T) x.heap.refs = true := by
  obtain ⟨a, h1, h2, h3⟩ := h
  obtain ⟨n, y⟩ := x
  have key : ∀ {i : BitVec 32} {id : Nat}, m.types[i.toNat]? = some id →
      Op.inList (listOf T) [id] = true := by
    intro i id hi
    have := (hh.ctxOk.types id (List.mem_iff_getElem?.2 ⟨_, hi⟩)).1
    have : ((listOf T)[id]?).isSome = true := this
    simp only [Option.isSome_iff_exists] at this
    obtain ⟨z, hz⟩ := this
    simp [Op.inList, (List.getElem?_eq_some_iff.1 hz).1]
  cases a with
  | abstract s t => cases h2; rfl
  | concrete u =>
    cases u with
    | module i => obtain ⟨id, h4, h5⟩ := h2; cases h5; exact key h4
    | _ => exact h2.elim
  | exact u =>
    cases u with
    | module i => obtain ⟨id, h4, h5⟩ := h2; cases h5; exact key h4
    | _ => exact h2.elim

theorem refIsShared_ok {m : Op.Module} (hh : Hist f T m) {r : RefType} {x : Op.Ref} {b : Bool}
    (hx : (tctx (listOf T) m.types).RefTy r x) (h : refIsShared T x = .ok b) :
    (tctx (listOf T) m.types).sharedHeap x.heap = b := by
  have hin := refTy_in hh hx
  have hv := hh.view
  have hl := hh.list
  obtain ⟨ops, os, s, n, h1, rfl, -⟩ := hh.reaches
  have h2 := sharedAnswer_eq h1 hv hl (m := m) x
  unfold Op.sharedAnswer at h2
  rw [if_pos hin] at h2
  obtain ⟨t, h3, h4⟩ := bind_ok h
  rw [orPanic_ok h3] at h2
  have h4 := ofList_ok h4
  simp only [Option.map_some, h4] at h2
  exact h2.symm

theorem valIsShared_ok {m : Op.Module} (hh : Hist f T m) {t : ValType} {x : Op.Val}
    (hx : (tctx (listOf T) m.types).ValTy t x) (h : valIsShared T x = .ok true) :
    sharedVal (tctx (listOf T) m.types) x := by
  cases x with
  | ref r =>
    cases t with
    | ref r' =>
      obtain ⟨y, h1, h2⟩ := hx
      cases h2
      refine refIsShared_ok hh h1 ?_
      obtain ⟨t, h3, h4⟩ := bind_ok h
      have h3 := orPanic_ok h3
      unfold refIsShared
      cases he : Op.encRef r with
      | none =>
        have : Op.encVal (.ref r) = none := by
          show (Op.encRef r).map _ = none
          rw [he]
          rfl
        rw [this] at h3
        cases h3
      | some t' =>
        have : Op.encVal (.ref r) = some (.ref t') := by
          show (Op.encRef r).map _ = _
          rw [he]
          rfl
        rw [this] at h3
        cases h3
        exact h4
    | _ => cases hx
  | _ => trivial

theorem refIsSubtype_ok {m : Op.Module} (hh : Hist f T m) {x y : Op.Ref}
    (hx : Op.inList (listOf T) x.heap.refs = true) (hy : Op.inList (listOf T) y.heap.refs = true)
    (h : refIsSubtype T x y = .ok true) : RefSub (tctx (listOf T) m.types).decls x y := by
  have hv := hh.view
  obtain ⟨t, h1, h2⟩ := refIs_enc hh.list hx
  obtain ⟨t', h3, h4⟩ := refIs_enc hh.list hy
  obtain ⟨a, h5, h6⟩ := bind_ok h
  obtain ⟨b, h7, h8⟩ := bind_ok h6
  rw [h1] at h5
  rw [h3] at h7
  cases h5
  cases h7
  obtain ⟨ops, os, s, n, h9, rfl, -⟩ := hh.reaches
  obtain ⟨r, h10, h11⟩ := TypeList.c13_ref h9 hv h2 h4
  rw [h10] at h8
  cases h8
  exact h11.1 rfl

theorem subTypeAt_ok {m : Op.Module} {i : BitVec 32} {x : SubT Nat}
    (h : subTypeAt T m i = .ok x) : (tctx (listOf T) m.types).type i = some x := by
  obtain ⟨id, h1, h2⟩ := bind_ok h
  unfold Ctx.type
  show (m.types[i.toNat]?).bind _ = _
  rw [orErr_ok h1]
  exact orPanic_ok h2

theorem funcTypeAt_ok {m : Op.Module} {i : BitVec 32} {ps rs : List V}
    (h : funcTypeAt T m i = .ok (ps, rs)) :
    ∃ x, FuncAt (tctx (listOf T) m.types) i x ps rs := by
  obtain ⟨x, h1, h2⟩ := bind_ok h
  split at h2
  · next hc =>
    cases h2
    exact ⟨x, subTypeAt_ok h1, hc⟩
  · cases h2

/-! ## Types of items -/

theorem checkLimits_ok {a : BitVec 64} {b : Option (BitVec 64)} {u u' : Unit} {n : Nat}
    (h : checkLimits a b = .ok u) (h' : checkAtMost a b n = .ok u') : LimitsOk a b n := by
  obtain ⟨_, h1, h2⟩ := bind_ok h'
  refine ⟨of_decide_eq_true (need_ok h1), ?_⟩
  rintro m rfl
  have h3 := of_decide_eq_true (need_ok h2)
  have h4 : a ≤ m := of_decide_eq_true (need_ok h)
  exact ⟨BitVec.le_def.1 h4, h3⟩

/-- What a table type stands for. -/
def toTableT (t : TableTy) : TableT := ⟨t.elem, t.table64, t.shared⟩

def toGlobalT (g : GlobalTy) : GlobalT := ⟨g.content, g.mutable, g.shared⟩

theorem funcref_heap : (RefType.new true (.abstract false .func)).bind
    (fun r => r.heapType.map fun h => (h, r.isNullable)) = some (.abstract false .func, true) := by
  decide +kernel

theorem isFuncref_ok {r : RefType} (h : isFuncref r = true) {C : Ctx} :
    C.RefTy r ⟨true, .abs false .func⟩ := by
  have := funcref_heap
  rw [eq_of_beq h] at this
  simp only [Option.bind_some, Option.map_eq_some_iff, Prod.mk.injEq] at this
  obtain ⟨a, h1, rfl, h2⟩ := this
  exact ⟨_, h1, rfl, h2.symm⟩

theorem checkTableType_ok {m : Op.Module} (hh : Hist f T m) {t : TableType} {ty : TableTy}
    (h : checkTableType f T m t = .ok ty) : TableOk (tctx (listOf T) m.types) t (toTableT ty) := by
  obtain ⟨e, h1, h⟩ := bind_ok h
  obtain ⟨_, h2, h⟩ := bind_ok h
  obtain ⟨_, h3, h⟩ := bind_ok h
  obtain ⟨_, h4, h⟩ := bind_ok h
  obtain ⟨_, h5, h⟩ := bind_ok h
  obtain ⟨_, h6, h⟩ := bind_ok h
  cases h
  have he : (tctx (listOf T) m.types).RefTy t.elementType e := by
    split at h1
    · next hf => cases h1; exact isFuncref_ok hf
    · exact checkRefType_ok hh h1
  refine ⟨he, rfl, rfl, ?_, fun hs => ?_⟩
  · refine checkLimits_ok h2 (u' := ()) ?_
    rw [← h5]
    unfold addrBits
    split <;> rfl
  · rw [hs] at h6
    obtain ⟨b, h7, h8⟩ := bind_ok h6
    cases need_ok h8
    exact refIsShared_ok hh he h7

theorem checkMemoryType_ok {t : MemoryType} {u : Unit} (h : checkMemoryType f t = .ok u) :
    MemOk t t.memory64 := by
  obtain ⟨_, h1, h⟩ := bind_ok h
  obtain ⟨_, h2, h⟩ := bind_ok h
  obtain ⟨_, h3, h⟩ := bind_ok h
  obtain ⟨size, h4, h⟩ := bind_ok h
  obtain ⟨_, h5, h⟩ := bind_ok h
  have hp : (∀ p, t.pageSizeLog2 = some p → p = 0 ∨ p = 16) ∧
      size = 2 ^ (t.pageSizeLog2.getD 16).toNat := by
    unfold pageSize at h4
    split at h4
    · next hn =>
      cases h4
      rw [hn]
      exact ⟨nofun, rfl⟩
    · next n hn =>
      obtain ⟨_, h6, h7⟩ := bind_ok h4
      rw [hn]
      split at h7
      · cases h7
      · next hc =>
        cases h7
        refine ⟨?_, rfl⟩
        rintro p ⟨⟩
        by_cases h0 : n = 0
        · exact .inl h0
        · exact .inr (by by_contra h16; exact hc ⟨h0, h16⟩)
  refine ⟨rfl, hp.1, ?_, reqIf h⟩
  refine checkLimits_ok h1 (u' := ()) ?_
  rw [← h5, hp.2]
  unfold maxPages addrBits
  split <;> rfl

/-- The identifier of the type of a tag. -/
def TagId (L : List (SubT Nat)) (ts : List Nat) (t : TagType) (id : Nat) : Prop :=
  ts[t.funcTypeIdx.toNat]? = some id ∧ ∃ x ps rs, L[id]? = some x ∧ x.comp = .func ps rs

theorem checkTagType_ok {m : Op.Module} {t : TagType} {u : Unit} {id : Nat}
    (h : checkTagType f T m t = .ok u) (hid : orPanic m.types[t.funcTypeIdx.toNat]? = .ok id) :
    TagId (listOf T) m.types t id := by
  obtain ⟨_, h1, h⟩ := bind_ok h
  obtain ⟨⟨ps, rs⟩, h2, h⟩ := bind_ok h
  obtain ⟨x, h3, h4⟩ := funcTypeAt_ok h2
  have hid := orPanic_ok hid
  refine ⟨hid, x, ps, rs, ?_, h4⟩
  unfold Ctx.type at h3
  have : (m.types[t.funcTypeIdx.toNat]?).bind (fun i => (listOf T)[i]?) = some x := h3
  rw [hid] at this
  exact this

theorem TagId.ok {L : List (SubT Nat)} {ts : List Nat} {t : TagType} {id : Nat}
    (h : TagId L ts t id) : TagOk (tctx L ts) t (Op.View.tagType L id) := by
  obtain ⟨h1, x, ps, rs, h2, h3⟩ := h
  have : Op.View.tagType L id = (ps, rs) := by
    unfold Op.View.tagType
    rw [h2]
    simp only [h3]
  rw [this]
  refine ⟨x, ?_, h3⟩
  show (ts[t.funcTypeIdx.toNat]?).bind _ = _
  rw [h1]
  exact h2

theorem checkGlobalType_ok {m : Op.Module} (hh : Hist f T m) {t : GlobalType} {ty : GlobalTy}
    (h : checkGlobalType f T m t = .ok ty) :
    GlobalOk (tctx (listOf T) m.types) t (toGlobalT ty) := by
  obtain ⟨v, h1, h⟩ := bind_ok h
  obtain ⟨_, h2, h⟩ := bind_ok h
  obtain ⟨_, h3, h⟩ := bind_ok h
  cases h
  have hv := checkValueType_ok hh h1
  refine ⟨hv, rfl, rfl, fun hs => ?_⟩
  rw [hs] at h3
  obtain ⟨b, h7, h8⟩ := bind_ok h3
  cases need_ok h8
  exact valIsShared_ok hh hv h7

end Verif.Valid
