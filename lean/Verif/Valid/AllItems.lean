import Verif.Valid.AllNarrow
import Verif.Valid.AllTypes
import Verif.Valid.Loops
import Verif.Valid.ConstComplete
import Verif.Valid.CalmFine
/-! # Items of valid modules are accepted -/
namespace Verif.Valid
open Verif.Reader Verif.Items
open Spec
open Verif.Op.Typing Verif.Op.View
open Verif.Op (TableTy GlobalTy)
open Verif.Op.Calm (RefIn)
open Verif.Std (BSearch)
open Verif.TypeList (TypeList)
open Verif.TypeList.Spec (SubT RefSub)
open Verif.Instr (Operator)
open Verif.Types (RefType ValType HeapType)

variable {f : Feats} {bs : BSearch} {T : TypeList} {C : Ctx}

/-! ## Small steps -/

theorem need_go {b : Bool} (h : b = true) : need b = .ok () := by
  unfold need
  rw [if_pos h]

theorem reqIf_go {c b : Bool} (h : c = true → b = true) :
    (if c then need b else pure ()) = .ok () := by
  split
  · next hc => exact need_go (h hc)
  · rfl

theorem bind_go {α β : Type} {x : X α} {g : α → X β} {a : α} (h : x = .ok a) :
    (x >>= g) = g a := by
  rw [h]; rfl

theorem fold_at {α σ : Type} {g : σ → α → X σ} {P : Nat → σ → Prop} :
    ∀ {xs : List α} {s : σ}, (∀ (k : Nat) x s, xs[k]? = some x → P k s →
      ∃ s', g s x = .ok s' ∧ P (k + 1) s') → P 0 s → ∃ s', fold g xs s = .ok s' ∧ P xs.length s'
  | [], s, _, h0 => ⟨s, rfl, h0⟩
  | x :: xs, s, h, h0 => by
    obtain ⟨s1, h1, h2⟩ := h 0 x s rfl h0
    obtain ⟨s', h3, h4⟩ := fold_at (P := fun k => P (k + 1)) (xs := xs) (s := s1)
      (fun k y t hk => h (k + 1) y t hk) h2
    refine ⟨s', ?_, h4⟩
    show (g s x >>= fun s => fold g xs s) = _
    rw [h1]
    exact h3

theorem forall₂_at {α β : Type} {R : α → β → Prop} {xs : List α} {ys : List β}
    (h : List.Forall₂ R xs ys) {k : Nat} {x : α} (hx : xs[k]? = some x) :
    ∃ y, ys[k]? = some y ∧ R x y := by
  induction h generalizing k with
  | nil => simp at hx
  | @cons a b as bs h1 _ ih =>
    cases k with
    | zero => cases hx; exact ⟨b, rfl, h1⟩
    | succ k => exact ih hx

theorem take_snoc {α : Type} {l : List α} {n : Nat} {a : α} (h : l[n]? = some a) :
    l.take (n + 1) = l.take n ++ [a] := by
  rw [List.take_add_one, h]
  rfl

theorem map_at {α β : Type} {g : α → β} {l : List α} {ys : List β} {n k : Nat} {y : β}
    (h : l.map g = ys.take n) (hk : k < n) (hy : ys[k]? = some y) : ∃ a, l[k]? = some a ∧ g a = y := by
  have : (l.map g)[k]? = some y := by rw [h, List.getElem?_take_of_lt hk]; exact hy
  rw [List.getElem?_map] at this
  exact Option.map_eq_some_iff.1 this

/-! ## Types -/

/-- The context and the list of types belong together. -/
structure Same (f : Feats) (T : TypeList) (C : Ctx) (m : Op.Module) : Prop where
  hist : Hist f T m
  types : m.types = C.types
  defs : ∀ i, C.defs i = (listOf T)[i]?

theorem Same.ext {m : Op.Module} (h : Same f T C m) : Ext (tctx (listOf T) m.types) C :=
  ⟨h.types.symm, funext h.defs, List.nil_prefix, List.nil_prefix, nofun⟩

theorem checkRefType_go (ha : AllFeats f) {m : Op.Module} (h : Same f T C m) {r : RefType}
    {x : Op.Ref} (hr : C.RefTy r x) (hn : NoExactVal (.ref r)) : checkRefType f m r = .ok x := by
  obtain ⟨a, h1, h2, h3⟩ := hr
  obtain ⟨u, h4⟩ := features_ref r a h1 (hn a h1)
  have h5 : (ctxOf (listOf T) m).HeapTy a x.heap := by
    unfold Ctx.HeapTy at h2 ⊢
    dsimp only [ctxOf]
    rw [h.types]
    exact h2
  have h6 := (h.hist.faithful.heap a x.heap).2 h5
  have h7 := heapTy_mkRef h.hist.ctxOk h5 r.isNullable
  unfold checkRefType
  rw [show f.types = fullFeatures.types from congrArg Op.Features.types ha.ops, h4, h1]
  show (m.checkHeapType a >>= fun h => orPanic (Op.mkRef r.isNullable h)) = _
  rw [show m.checkHeapType a = _ from h6]
  show orPanic (Op.mkRef r.isNullable x.heap) = _
  rw [h7]
  show Except.ok _ = _
  rw [← h3]

theorem checkValueType_go (ha : AllFeats f) {m : Op.Module} (h : Same f T C m) {t : ValType}
    {x : Op.Val} (ht : C.ValTy t x) (hn : NoExactVal t) : checkValueType f m t = .ok x := by
  have hf : f.types = fullFeatures.types := congrArg Op.Features.types ha.ops
  cases t with
  | ref r =>
    obtain ⟨y, h1, rfl⟩ := ht
    show (checkRefType f m r >>= fun a => pure (.ref a : Op.Val)) = .ok (.ref y)
    rw [checkRefType_go ha h h1 hn]
    rfl
  | _ =>
    cases ht
    show (ofList (TypeList.checkValueType f.types _) >>= _) = _
    rw [hf]
    rfl

theorem refIn {m : Op.Module} (h : Same f T C m) {r : RefType} {x : Op.Ref} (hr : C.RefTy r x) :
    Op.inList (listOf T) x.heap.refs = true := by
  rw [h.ext.refTy] at hr
  exact refTy_in h.hist hr

theorem refIn_of {x : Op.Ref} (h : Op.inList (listOf T) x.heap.refs = true) :
    RefIn (listOf T).length x := by
  intro i hi
  unfold Op.inList at h
  exact of_decide_eq_true (List.all_eq_true.1 h i hi)

theorem shared_go {m : Op.Module} (h : Same f T C m) {x : Op.Ref}
    (hi : Op.inList (listOf T) x.heap.refs = true) :
    refIsShared T x = .ok (C.sharedHeap x.heap) := by
  obtain ⟨t, h1, h2⟩ := h.hist.ask_shared (refIn_of hi)
  unfold refIsShared
  rw [h1]
  show ofList _ = _
  rw [h2]
  show Except.ok _ = _
  congr 1
  have := h.hist.faithful.shared x
  rw [show Op.sharedAnswer T (listOf T) x = _ from this]
  unfold Ctx.sharedHeap
  dsimp only [ctxOf]
  cases x.heap with
  | abs => rfl
  | concrete i => dsimp only; rw [h.defs]
  | exact i => dsimp only; rw [h.defs]

theorem sharedVal_go {m : Op.Module} (h : Same f T C m) {t : ValType} {x : Op.Val}
    (ht : C.ValTy t x) (hs : sharedVal C x) : valIsShared T x = .ok true := by
  cases t with
  | ref r =>
    obtain ⟨y, h1, rfl⟩ := ht
    have h2 := shared_go h (refIn h h1)
    rw [show C.sharedHeap y.heap = true from hs] at h2
    obtain ⟨t, h3, h4⟩ := bind_ok h2
    unfold valIsShared
    have : Op.encVal (.ref y) = some (.ref t) := by
      show (Op.encRef y).map _ = _
      rw [orPanic_ok h3]
      rfl
    rw [this]
    exact h4
  | _ => cases ht; rfl

theorem checkLimits_go {a : BitVec 64} {b : Option (BitVec 64)} {n : Nat} (h : LimitsOk a b n) :
    checkLimits a b = .ok () ∧ checkAtMost a b n = .ok () := by
  obtain ⟨h1, h2⟩ := h
  unfold checkLimits checkAtMost
  rw [need_go (decide_eq_true h1)]
  cases b with
  | none => exact ⟨rfl, rfl⟩
  | some m =>
    obtain ⟨h3, h4⟩ := h2 m rfl
    exact ⟨need_go (decide_eq_true (BitVec.le_def.2 h3)), need_go (decide_eq_true h4)⟩

theorem refTy_unique {r : RefType} {x y : Op.Ref} (hx : C.RefTy r x) (hy : C.RefTy r y) : x = y := by
  obtain ⟨a, h1, h2, h3⟩ := hx
  obtain ⟨b, h4, h5, h6⟩ := hy
  rw [h1] at h4
  cases h4
  obtain ⟨n, x⟩ := x
  obtain ⟨n', y⟩ := y
  cases h3
  cases h6
  congr 1
  unfold Ctx.HeapTy at h2 h5
  dsimp only at h2 h5
  split at h2
  · exact h2.trans h5.symm
  · obtain ⟨i, h7, rfl⟩ := h2
    obtain ⟨j, h8, rfl⟩ := h5
    rw [h7] at h8; cases h8; rfl
  · obtain ⟨i, h7, rfl⟩ := h2
    obtain ⟨j, h8, rfl⟩ := h5
    rw [h7] at h8; cases h8; rfl
  · exact h2.elim

theorem checkTableType_go (ha : AllFeats f) {m : Op.Module} (h : Same f T C m) {t : TableType}
    {tt : TableT} (ht : TableOk C t tt) (hn : NoExactVal (.ref t.elementType)) :
    checkTableType f T m t = .ok ⟨tt.elem, tt.is64, tt.shared⟩ := by
  obtain ⟨h1, h2, h3, h4, h5⟩ := ht
  have he : (if isFuncref t.elementType then pure ⟨true, .abs false .func⟩
      else checkRefType f m t.elementType : X Op.Ref) = .ok tt.elem := by
    split
    · next hf => rw [refTy_unique h1 (isFuncref_ok hf)]; rfl
    · exact checkRefType_go ha h h1 hn
  have hs : f.sharedEverythingThreads = true := by rw [ha.ops]; rfl
  unfold checkTableType
  rw [he]
  show (checkLimits _ _ >>= _) = _
  rw [(checkLimits_go h4).1]
  show ((if t.table64 then need f.memory64 else pure ()) >>= _) = _
  rw [reqIf_go fun _ => ha.memory64]
  show ((if t.shared then need f.sharedEverythingThreads else pure ()) >>= _) = _
  rw [reqIf_go fun _ => hs]
  show (checkAtMost _ _ _ >>= _) = _
  have : (if t.table64 then 2 ^ 64 - 1 else 2 ^ 32 - 1 : Nat) = 2 ^ addrBits t.table64 - 1 := by
    unfold addrBits; split <;> rfl
  rw [this, (checkLimits_go h4).2]
  show ((if t.shared then refIsShared T tt.elem >>= need else pure ()) >>= fun _ => _) = _
  have : (if t.shared then refIsShared T tt.elem >>= need else pure ()) = .ok () := by
    split
    · next hc =>
      rw [shared_go h (refIn h h1), h5 hc]
      rfl
    · rfl
  rw [this, h2, h3]
  rfl

theorem checkMemoryType_go (ha : AllFeats f) {t : MemoryType} {b : Bool} (h : MemOk t b) :
    checkMemoryType f t = .ok () ∧ b = t.memory64 := by
  obtain ⟨rfl, h2, h3, h4⟩ := h
  refine ⟨?_, rfl⟩
  have ht : f.threads = true := by rw [ha.ops]; rfl
  have hp : pageSize f t.pageSizeLog2 = .ok (2 ^ (t.pageSizeLog2.getD 16).toNat) := by
    unfold pageSize
    split
    · next hn => rw [hn]; rfl
    · next n hn =>
      rw [need_go ha.customPageSizes, hn]
      show (if n ≠ 0 ∧ n ≠ 16 then _ else _) = _
      rw [if_neg (by rintro ⟨a, b⟩; rcases h2 n hn with h | h <;> contradiction)]
      rfl
  unfold checkMemoryType
  rw [(checkLimits_go h3).1]
  show ((if t.memory64 then need f.memory64 else pure ()) >>= _) = _
  rw [reqIf_go fun _ => ha.memory64]
  show ((if t.shared then need f.threads else pure ()) >>= _) = _
  rw [reqIf_go fun _ => ht]
  show (pageSize f t.pageSizeLog2 >>= _) = _
  rw [hp]
  show (checkAtMost _ _ _ >>= _) = _
  have : maxPages t.memory64 (2 ^ (t.pageSizeLog2.getD 16).toNat) =
      min (2 ^ addrBits t.memory64 / 2 ^ (t.pageSizeLog2.getD 16).toNat)
        (2 ^ addrBits t.memory64 - 1) := by
    unfold maxPages addrBits
    split <;> rfl
  rw [this, (checkLimits_go h3).2]
  exact reqIf_go h4

theorem funcType_go {m : Op.Module} (h : Same f T C m) {i : BitVec 32} {x : SubT Nat}
    {ps rs : List V} (hx : FuncAt C i x ps rs) : ∃ id, m.types[i.toNat]? = some id ∧
      (listOf T)[id]? = some x ∧ funcTypeAt T m i = .ok (ps, rs) := by
  obtain ⟨h1, h2⟩ := hx
  unfold Ctx.type at h1
  obtain ⟨id, h3, h4⟩ := Option.bind_eq_some_iff.1 h1
  rw [h.defs] at h4
  rw [← h.types] at h3
  refine ⟨id, h3, h4, ?_⟩
  unfold funcTypeAt subTypeAt
  rw [h3]
  show (orPanic (listOf T)[id]? >>= _) = _
  rw [h4]
  show (match x.comp with | .func ps rs => _ | _ => _) = _
  rw [h2]
  rfl

theorem checkTagType_go (ha : AllFeats f) {m : Op.Module} (h : Same f T C m) {t : TagType}
    {ty : List V × List V} (ht : TagOk C t ty) : checkTagType f T m t = .ok () ∧
    ∃ id, m.types[t.funcTypeIdx.toNat]? = some id ∧ tagType (listOf T) id = ty ∧
      TagId (listOf T) m.types t id := by
  obtain ⟨x, hx⟩ := ht
  obtain ⟨id, h1, h2, h3⟩ := funcType_go h hx
  constructor
  · unfold checkTagType
    rw [need_go (show f.exceptions = true by rw [ha.ops]; rfl)]
    show (funcTypeAt T m t.funcTypeIdx >>= _) = _
    rw [h3]
    exact reqIf_go fun _ => by rw [ha.ops]; rfl
  · refine ⟨id, h1, ?_, h1, x, _, _, h2, hx.2⟩
    unfold tagType
    rw [h2]
    dsimp only
    rw [hx.2]

theorem checkGlobalType_go (ha : AllFeats f) {m : Op.Module} (h : Same f T C m) {t : GlobalType}
    {g : GlobalT} (hg : GlobalOk C t g) (hn : NoExactVal t.contentType) :
    checkGlobalType f T m t = .ok ⟨g.content, g.mutable, g.shared⟩ := by
  obtain ⟨h1, h2, h3, h4⟩ := hg
  unfold checkGlobalType
  rw [checkValueType_go ha h h1 hn]
  show ((if t.shared then need f.sharedEverythingThreads else pure ()) >>= _) = _
  rw [reqIf_go fun _ => by rw [ha.ops]; rfl]
  have : (if t.shared then valIsShared T g.content >>= need else pure ()) = .ok () := by
    split
    · next hc =>
      rw [sharedVal_go h h1 (h4 hc)]
      rfl
    · rfl
  show ((if t.shared then valIsShared T g.content >>= need else pure ()) >>= _) = _
  rw [this, h2, h3]
  rfl

theorem subtype_go {m : Op.Module} (h : Same f T C m) {x y : Op.Ref}
    (hx : Op.inList (listOf T) x.heap.refs = true) (hy : Op.inList (listOf T) y.heap.refs = true)
    (hs : RefSub C.decls x y) : refIsSubtype T x y = .ok true := by
  have hv := h.hist.view
  obtain ⟨t, h1, h2⟩ := refIs_enc h.hist.list hx
  obtain ⟨t', h3, h4⟩ := refIs_enc h.hist.list hy
  rw [h.ext.decls] at hs
  obtain ⟨ops, os, s, n, h9, rfl, -⟩ := h.hist.reaches
  obtain ⟨r, h10, h11⟩ := TypeList.c13_ref h9 hv h2 h4
  unfold refIsSubtype
  rw [h1, h3]
  show ofList _ = _
  rw [h10]
  cases h11.2 hs
  rfl

/-! ## Constant expressions -/

theorem const_go (ha : AllFeats f) {s : ModuleState} (h : Same f T C s.m)
    (hfu : s.m.functions = C.funcs) {n : Nat} (hgl : s.m.globals.map toGlobalT = C.globals.take n)
    {e : ConstExpr} {ty : V} {os : List Operator} (ho : ConstOps f.reader.toFeatures e os)
    (hn : Plainly os) (hown : s.owned = true ∨ ∀ i, ¬ Refs os i)
    (hc : ConstTy { C with globals := C.globals.take n } os ty) :
    ∃ s', checkConstExpr f bs T s e ty = .ok s' ∧ Grows s s' (Refs os) := by
  have hcd : f.customDescriptors = false := by rw [ha.ops]; rfl
  obtain ⟨rs, hrs⟩ : ∃ rs, ∀ i, i ∈ rs ↔ i ∈ s.m.functionReferences ∨ Operator.idx .refFunc i ∈ os := by
    refine ⟨s.m.functionReferences ++ os.filterMap fun o => match o with
      | .idx .refFunc i => some i
      | _ => none, fun i => ?_⟩
    rw [List.mem_append, List.mem_filterMap]
    refine or_congr_right ?_
    constructor
    · rintro ⟨o, h1, h2⟩
      split at h2
      · cases h2; exact h1
      · cases h2
    · intro h1
      exact ⟨_, h1, rfl⟩
  obtain ⟨s', h1⟩ := const_complete (bs := bs) ha.ops ha.extendedConst h.hist ho hrs hown hn
    (ConstTy.like (C := { C with globals := C.globals.take n })
      ⟨h.types, (funext h.defs).symm, hfu, hgl⟩ (fun i hi => (hrs i).2 (.inr hi)) hc)
  exact ⟨s', h1, (const_grows hcd h.hist ho h1).2⟩

end Verif.Valid
