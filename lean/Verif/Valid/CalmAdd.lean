import Verif.Valid.CalmConst
/-! # Items are added without panics -/
namespace Verif.Valid
open Verif.Reader Verif.Items
open Verif.Op.Calm
open Verif.Op.Typing Verif.Op.View
open Verif.Op (TableTy GlobalTy St)
open Verif.Std (BSearch)
open Verif.TypeList (TypeList)
open Verif.TypeList.Spec (SubT)
open Verif.Types (RefType ValType HeapType)
open Verif.Instr (Operator)

variable {f : Feats} {bs : BSearch} {T : TypeList} {α β σ : Type}

/-- What items do not change: whether the module is shared, the snapshot, the index of the next
body and the number of functions that are not imported. -/
structure Ctl where
  owned : Bool
  snapshot : Option TypeList
  codeIndex : Option Nat
  own : Nat

/-- A good state with these parts. -/
structure Inv (f : Feats) (T : TypeList) (c : Ctl) (s : ModuleState) : Prop extends Good f T s where
  owned : s.owned = c.owned
  snapshot : s.snapshot = c.snapshot
  codeIndex : s.codeIndex = c.codeIndex
  own : s.m.functions.length = s.m.numImportedFunctions + c.own

variable {c : Ctl} {s : ModuleState}

theorem Inv.refs {s' : ModuleState} (h : Inv f T c s) (hs : WithRefs s s') : Inv f T c s' := by
  refine ⟨hs.good h.toGood, ?_, ?_, ?_, ?_⟩
  all_goals obtain ⟨rs, rfl⟩ := hs
  · exact h.owned
  · exact h.snapshot
  · exact h.codeIndex
  · exact h.own

theorem assertMut_calm (h : s.owned = true) : NoPanic s.assertMut fun _ => True := by
  unfold ModuleState.assertMut
  rw [if_pos h]
  exact .pure trivial

theorem indexType_in {n : Nat} {b : Bool} : ValIn n (Op.indexType b) := by
  cases b <;> exact numeric_in rfl

theorem indexType_num (b : Bool) : Op.indexType b = .i32 ∨ Op.indexType b = .i64 := by
  cases b
  · exact .inl rfl
  · exact .inr rfl

/-! ## Globals, tables, segments -/

theorem Inv.global (h : Inv f T c s) {g : GlobalTy} (hg : ValIn (listOf T).length g.content) {k : Nat} :
    Inv f T c { s with m := { s.m with globals := s.m.globals ++ [g] }, numImportedGlobals := k } where
  hist := h.hist.of rfl h.hist.tags
  items :=
    { globals := fun x hx => by
        rcases List.mem_append.1 hx with hx | hx
        · exact h.items.globals x hx
        · rw [List.mem_singleton.1 hx]; exact hg
      tables := h.items.tables, elems := h.items.elems, funcs := h.items.funcs }
  small := h.small
  tagsIn := h.tagsIn
  owned := h.owned
  snapshot := h.snapshot
  codeIndex := h.codeIndex
  own := h.own

theorem Inv.table (h : Inv f T c s) {t : TableTy} (ht : RefIn (listOf T).length t.elem) :
    Inv f T c { s with m := { s.m with tables := s.m.tables ++ [t] } } where
  hist := h.hist.of rfl h.hist.tags
  items :=
    { tables := fun x hx => by
        rcases List.mem_append.1 hx with hx | hx
        · exact h.items.tables x hx
        · rw [List.mem_singleton.1 hx]; exact ht
      globals := h.items.globals, elems := h.items.elems, funcs := h.items.funcs }
  small := h.small
  tagsIn := h.tagsIn
  owned := h.owned
  snapshot := h.snapshot
  codeIndex := h.codeIndex
  own := h.own

theorem Inv.elem (h : Inv f T c s) {t : Op.Ref} (ht : RefIn (listOf T).length t) :
    Inv f T c { s with m := { s.m with elementTypes := s.m.elementTypes ++ [t] } } where
  hist := h.hist.of rfl h.hist.tags
  items :=
    { elems := fun x hx => by
        rcases List.mem_append.1 hx with hx | hx
        · exact h.items.elems x hx
        · rw [List.mem_singleton.1 hx]; exact ht
      globals := h.items.globals, tables := h.items.tables, funcs := h.items.funcs }
  small := h.small
  tagsIn := h.tagsIn
  owned := h.owned
  snapshot := h.snapshot
  codeIndex := h.codeIndex
  own := h.own

theorem addGlobal_calm (hc : c.owned = true) (h : Inv f T c s) {g : Global}
    (hg : GlobalRead f.reader.toFeatures g) : NoPanic (addGlobal f bs T s g) (Inv f T c) := by
  refine (checkGlobalType_calm h.hist hg.1).bind fun ty _ hty => ?_
  refine (checkConstExpr_calm h.toGood hg.2 hty (.inl (h.owned.trans hc))).bind fun s' _ hs' => ?_
  have h' := h.refs hs'
  exact (assertMut_calm (h'.owned.trans hc)).bind fun _ _ _ => .pure (h'.global hty)

theorem addTable_calm (hc : c.owned = true) (h : Inv f T c s) {t : Table}
    (ht : TableRead f.reader.toFeatures t) : NoPanic (addTable f bs T s t) (Inv f T c) := by
  refine (checkTableType_calm h.hist ht.1).bind fun ty _ hty => ?_
  refine NoPanic.bind (P := fun s' => WithRefs s s') ?_ fun s' _ hs' => ?_
  · unfold checkTableInit
    split
    · exact NoPanic.need.bind fun _ _ _ => .pure .rfl'
    · next e he =>
      exact NoPanic.need.bind fun _ _ _ =>
        checkConstExpr_calm h.toGood (ht.2 e he) hty (.inl (h.owned.trans hc))
  · have h' := h.refs hs'
    exact (assertMut_calm (h'.owned.trans hc)).bind fun _ _ _ => .pure (h'.table hty)

theorem addDataSegment_calm (h : Inv f T c s) {d : Data} (hd : DataRead f.reader.toFeatures d) :
    NoPanic (addDataSegment f bs T s d) (Inv f T c) := by
  unfold addDataSegment
  split
  · exact NoPanic.need.bind fun _ _ _ => .pure h
  · next i o hk =>
    refine NoPanic.orErr.bind fun b _ _ => ?_
    exact (checkConstExpr_calm h.toGood (hd i o hk) indexType_in
      (.inr (indexType_num b))).mono fun _ => h.refs

theorem checkElementKind_calm (hc : c.owned = true) (h : Inv f T c s) {ty : Op.Ref}
    (hty : RefIn (listOf T).length ty) {k : ElementKind}
    (hk : ∀ i o, k = .active i o → ReadExpr f.reader.toFeatures o) :
    NoPanic (checkElementKind f bs T s ty k) (Inv f T c) := by
  cases k with
  | active i o =>
    refine NoPanic.orErr.bind fun t _ ht => ?_
    refine (refIsSubtype_calm h.hist hty (h.items.tables t (List.mem_of_getElem? ht))).bind
      fun _ _ _ => NoPanic.need.bind fun _ _ _ => ?_
    exact (checkConstExpr_calm h.toGood (hk i o rfl) indexType_in
      (.inl (h.owned.trans hc))).mono fun _ => h.refs
  | passive => exact NoPanic.need.bind fun _ _ _ => .pure h
  | declared => exact NoPanic.need.bind fun _ _ _ => .pure h

theorem checkElementItems_calm (hc : c.owned = true) (h : Inv f T c s) {ty : Op.Ref}
    (hty : RefIn (listOf T).length ty) {items : ElementItems} :
    NoPanic (checkElementItems f bs T s ty items) (Inv f T c) := by
  cases items with
  | functions sec =>
    refine NoPanic.need.bind fun _ _ _ => NoPanic.eachItem (P := fun _ => True)
      (fun _ _ _ _ => trivial) (fun s i h _ => ?_) h
    exact (getFuncType_calm h.hist).bind fun _ _ _ =>
      (assertMut_calm (h.owned.trans hc)).bind fun _ _ _ => .pure (h.refs withRefs_insert)
  | expressions t sec =>
    refine NoPanic.need.bind fun _ _ _ => NoPanic.eachItem (yields_expr _) (fun s e h he => ?_) h
    exact (checkConstExpr_calm (ty := .ref ty) h.toGood he hty (.inl (h.owned.trans hc))).mono fun _ => h.refs

theorem addElementSegment_calm (hc : c.owned = true) (h : Inv f T c s) {e : Element}
    (he : ElementRead f.reader.toFeatures e) :
    NoPanic (addElementSegment f bs T s e) (Inv f T c) := by
  refine NoPanic.bind (P := fun ty => RefIn (listOf T).length ty) ?_ fun ty _ hty => ?_
  · unfold elementType
    split
    · exact .pure nofun
    · next t sec hi => exact checkRefType_calm h.hist (he.2 t sec hi)
  · refine (checkElementKind_calm hc h hty he.1).bind fun s1 _ h1 => ?_
    refine (checkElementItems_calm hc h1 hty).bind fun s2 _ h2 => ?_
    exact (assertMut_calm (h2.owned.trans hc)).bind fun _ _ _ => .pure (h2.elem hty)

/-! ## Functions, memories, tags, imports -/

theorem Inv.func (h : Inv f T c s) {i : BitVec 32} (hi : FuncIdx (listOf T) s.m i)
    {ex : List (BitVec 32)} {n own : Nat}
    (hn : s.m.functions.length + 1 = n + own) :
    Inv f T { c with own } { s with m :=
      { s.m with
        functions := s.m.functions ++ [i], exactFunctionImports := ex
        numImportedFunctions := n } } where
  hist := h.hist.of rfl h.hist.tags
  items :=
    { funcs := fun x hx => by
        rcases List.mem_append.1 hx with hx | hx
        · exact h.items.funcs x hx
        · rw [List.mem_singleton.1 hx]; exact hi
      globals := h.items.globals, tables := h.items.tables, elems := h.items.elems }
  small := h.small
  tagsIn := h.tagsIn
  owned := h.owned
  snapshot := h.snapshot
  codeIndex := h.codeIndex
  own := by
    show (s.m.functions ++ [i]).length = _
    rw [List.length_append]
    exact hn

theorem Inv.memory (h : Inv f T c s) {b : Bool} :
    Inv f T c { s with m := { s.m with memories := s.m.memories ++ [b] } } where
  hist := h.hist.of rfl h.hist.tags
  items := ⟨h.items.globals, h.items.tables, h.items.elems, h.items.funcs⟩
  small := h.small
  tagsIn := h.tagsIn
  owned := h.owned
  snapshot := h.snapshot
  codeIndex := h.codeIndex
  own := h.own

theorem Inv.tag (h : Inv f T c s) {id : Nat}
    (hid : ∃ x ps rs, (listOf T)[id]? = some x ∧ x.comp = .func ps rs)
    (hmem : id ∈ s.m.types) :
    Inv f T c { s with m := { s.m with tags := s.m.tags ++ [id] } } where
  hist := h.hist.of rfl fun x hx => by
    rcases List.mem_append.1 hx with hx | hx
    · exact h.hist.tags x hx
    · rw [List.mem_singleton.1 hx]; exact hid
  items := ⟨h.items.globals, h.items.tables, h.items.elems, h.items.funcs⟩
  small := h.small
  tagsIn x hx := by
    rcases List.mem_append.1 hx with hx | hx
    · exact h.tagsIn x hx
    · rw [List.mem_singleton.1 hx]; exact hmem
  owned := h.owned
  snapshot := h.snapshot
  codeIndex := h.codeIndex
  own := h.own

/-- Keys and sizes do not matter. -/
theorem Inv.keys (h : Inv f T c s) {ts : Nat} {imps : List (List UInt8 × List UInt8)}
    {exps : List (List UInt8)} :
    Inv f T c { s with typeSize := ts, imports := imps, exports := exps } :=
  ⟨⟨h.hist, h.items, h.small, h.tagsIn⟩, h.owned, h.snapshot, h.codeIndex, h.own⟩

theorem addFunction_calm (hc : c.owned = true) (h : Inv f T c s) {i : BitVec 32} :
    NoPanic (addFunction T s i) (Inv f T { c with own := c.own + 1 }) :=
  (assertMut_calm (h.owned.trans hc)).bind fun _ _ _ => (funcTypeAt_calm h.hist).bind
    fun _ _ hi => .pure (h.func hi (by have := h.own; omega))

theorem addMemory_calm (hc : c.owned = true) (h : Inv f T c s) {t : MemoryType} :
    NoPanic (addMemory f s t) (Inv f T c) :=
  (assertMut_calm (h.owned.trans hc)).bind fun _ _ _ => checkMemoryType_calm.bind
    fun _ _ _ => .pure h.memory

theorem addTag_calm (hc : c.owned = true) (h : Inv f T c s) {t : TagType} :
    NoPanic (addTag f T s t) (Inv f T c) := by
  refine (assertMut_calm (h.owned.trans hc)).bind fun _ _ _ => (checkTagType_calm h.hist).bind
    fun _ _ hi => ?_
  obtain ⟨id, x, ps, rs, h1, h2, h3⟩ := hi
  refine NoPanic.bind (P := fun y => y = id) (NoPanic.orPanic ⟨id, h1, rfl⟩) fun y _ hy => ?_
  subst hy
  exact .pure (h.tag ⟨x, ps, rs, h2, h3⟩ (List.mem_of_getElem? h1))

theorem addImportType_calm (h : Inv f T c s) {t : TypeRef} (ht : ModularTypeRef t) :
    NoPanic (addImportType f T s t) fun x => Inv f T c x.2 := by
  cases t with
  | func i =>
    refine (funcTypeAt_calm h.hist).bind fun _ _ hi => ?_
    have hi' := hi
    obtain ⟨id, x, ps, rs, h1, h2, h3⟩ := hi
    refine NoPanic.bind (P := fun y => y = id) (NoPanic.orPanic ⟨id, h1, rfl⟩) fun y _ hy => ?_
    subst hy
    exact checkMax_calm.bind fun _ _ _ => (infoSize_calm h.toGood (List.mem_of_getElem? h1)
      ⟨x, ps, rs, h2, h3⟩).bind fun _ _ _ =>
        .pure (h.func (own := c.own) hi' (by have := h.own; omega))
  | funcExact i =>
    refine (funcTypeAt_calm h.hist).bind fun _ _ hi => ?_
    have hi' := hi
    obtain ⟨id, x, ps, rs, h1, h2, h3⟩ := hi
    refine NoPanic.bind (P := fun y => y = id) (NoPanic.orPanic ⟨id, h1, rfl⟩) fun y _ hy => ?_
    subst hy
    exact checkMax_calm.bind fun _ _ _ => (infoSize_calm h.toGood (List.mem_of_getElem? h1)
      ⟨x, ps, rs, h2, h3⟩).bind fun _ _ _ =>
        .pure (h.func (own := c.own) hi' (by have := h.own; omega))
  | table t =>
    exact (checkTableType_calm h.hist ht).bind fun ty _ hty => checkMax_calm.bind
      fun _ _ _ => .pure (h.table hty)
  | memory t =>
    exact checkMemoryType_calm.bind fun ty _ hty => checkMax_calm.bind
      fun _ _ _ => .pure h.memory
  | tag t =>
    refine (checkTagType_calm h.hist).bind fun _ _ hi => ?_
    obtain ⟨id, x, ps, rs, h1, h2, h3⟩ := hi
    refine NoPanic.bind (P := fun y => y = id) (NoPanic.orPanic ⟨id, h1, rfl⟩) fun y _ hy => ?_
    subst hy
    exact checkMax_calm.bind fun _ _ _ => (infoSize_calm h.toGood (List.mem_of_getElem? h1)
      ⟨x, ps, rs, h2, h3⟩).bind fun _ _ _ => .pure (h.tag ⟨x, ps, rs, h2, h3⟩ (List.mem_of_getElem? h1))
  | global t =>
    exact (checkGlobalType_calm h.hist ht).bind fun ty _ hty => needIf_calm.bind fun _ _ _ =>
      checkMax_calm.bind fun _ _ _ => .pure (h.global hty)

theorem addImport_calm (h : Inv f T c s) {i : Import} (hi : ModularTypeRef i.ty) :
    NoPanic (addImport f T s i) (Inv f T c) :=
  (addImportType_calm h hi).bind fun _ _ h' => combine_calm.bind fun _ _ _ => .pure h'.keys

theorem addImports_calm (hc : c.owned = true) (h : Inv f T c s) {i : Imports} (hi : ImportsRead i) :
    NoPanic (addImports f T s i) (Inv f T c) := by
  refine (assertMut_calm (h.owned.trans hc)).bind fun _ _ _ => ?_
  cases i with
  | single n i => exact addImport_calm h hi
  | compact1 mod items =>
    exact NoPanic.eachItem (yields_importItem _) (fun s i h hi => addImport_calm h hi) h
  | compact2 mod ty names =>
    exact NoPanic.eachItem (P := fun _ => True) (fun _ _ _ _ => trivial)
      (fun s n h _ => addImport_calm (i := ⟨mod, n, ty⟩) h hi) h

theorem addExport_calm (hc : c.owned = true) (h : Inv f T c s) {x : Export} :
    NoPanic (addExport f T s x) (Inv f T c) := by
  refine (assertMut_calm (h.owned.trans hc)).bind fun _ _ _ => ?_
  refine NoPanic.bind (P := fun (y : Nat × ModuleState) => Inv f T c y.2) ?_
    fun y _ hy => combine_calm.bind fun _ _ _ => NoPanic.need.bind fun _ _ _ => .pure hy.keys
  have func : NoPanic (exportType f T s x.index .func) fun y => Inv f T c y.2 := by
    refine NoPanic.orErr.bind fun i _ hi => ?_
    obtain ⟨id, y, ps, rs, h1, h2, h3⟩ := h.items.funcs i (List.mem_of_getElem? hi)
    have h' := h.refs (withRefs_insert (i := x.index))
    refine NoPanic.bind (P := fun y => y = id) (NoPanic.orPanic ⟨id, ?_, rfl⟩) fun y _ hy => ?_
    · rw [show (insertRef s.m x.index).types = s.m.types by rw [insertRef_eq]; rfl]
      exact h1
    · subst hy
      exact (infoSize_calm h.toGood (List.mem_of_getElem? h1) ⟨_, ps, rs, h2, h3⟩).bind
        fun _ _ _ => .pure h'
  cases x.kind with
  | func => exact func
  | funcExact => exact func
  | table => exact NoPanic.orErr.bind fun _ _ _ => .pure h
  | memory => exact NoPanic.orErr.bind fun _ _ _ => .pure h
  | global => exact NoPanic.orErr.bind fun _ _ _ => needIf_calm.bind fun _ _ _ => .pure h
  | tag =>
    refine NoPanic.orErr.bind fun id _ hid => ?_
    obtain ⟨x, ps, rs, h2, h3⟩ := h.hist.tags id (List.mem_of_getElem? hid)
    exact (infoSize_calm h.toGood (h.tagsIn id (List.mem_of_getElem? hid)) ⟨x, ps, rs, h2, h3⟩).bind
      fun _ _ _ => .pure h

end Verif.Valid
