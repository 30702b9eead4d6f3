import Verif.Valid.Sections
/-! # What the validator does with sections -/
namespace Verif.Valid
open Verif.Reader Verif.Items
open Verif.Valid.Spec
open Verif.Op.Typing Verif.Op.View
open Verif.Op (Fail St Env TableTy GlobalTy)
open Verif.Std (BSearch)
open Verif.TypeList (TypeList)
open Verif.TypeList.Spec (SubT RefSub)
open Verif.Instr (Operator)
open Verif.Types (RefType ValType HeapType)

variable {f : Feats} {bs : BSearch} {T : TypeList}

theorem assertMut_ok {s : ModuleState} {u : Unit} (h : s.assertMut = .ok u) : s.owned = true := by
  unfold ModuleState.assertMut at h
  split at h
  · assumption
  · cases h

/-! ## Imports -/

/-- The module has got more items that are imported. -/
structure Imported (T : TypeList) (is : List Import) (s s' : ModuleState) : Prop where
  fields : ∃ tts ids gts ex ts imps, s' =
    { s with
      m := { s.m with
        functions := s.m.functions ++ importedFuncs is
        tables := s.m.tables ++ tts
        memories := s.m.memories ++ (importedMems is).map (·.memory64)
        tags := s.m.tags ++ ids
        globals := s.m.globals ++ gts
        exactFunctionImports := ex
        numImportedFunctions := s.m.numImportedFunctions + (importedFuncs is).length }
      numImportedGlobals := s.numImportedGlobals + (importedGlobals is).length
      typeSize := ts
      imports := imps } ∧
    List.Forall₂ (TableOk (tctx (listOf T) s.m.types)) (importedTables is) (tts.map toTableT) ∧
    List.Forall₂ (TagId (listOf T) s.m.types) (importedTags is) ids ∧
    List.Forall₂ (GlobalOk (tctx (listOf T) s.m.types)) (importedGlobals is) (gts.map toGlobalT)
  funcs : ∀ i ∈ importedFuncs is, ∃ x ps rs, FuncAt (tctx (listOf T) s.m.types) i x ps rs
  mems : ∀ t ∈ importedMems is, MemOk t t.memory64

theorem Imported.nil {s : ModuleState} : Imported T [] s s := by
  refine ⟨⟨[], [], [], s.m.exactFunctionImports, s.typeSize, s.imports, ?_, .nil, .nil, .nil⟩,
    nofun, nofun⟩
  simp only [importedFuncs, importedMems, importedGlobals, List.filterMap_nil, List.append_nil,
    List.map_nil, List.length_nil, Nat.add_zero]

theorem Imported.append {is is' : List Import} {s1 s2 s3 : ModuleState} (h : Imported T is s1 s2)
    (h' : Imported T is' s2 s3) : Imported T (is ++ is') s1 s3 := by
  obtain ⟨⟨tts, ids, gts, ex, ts, imps, rfl, h1, h2, h3⟩, h4, h5⟩ := h
  obtain ⟨⟨tts', ids', gts', ex', ts', imps', rfl, h1', h2', h3'⟩, h4', h5'⟩ := h'
  refine ⟨⟨tts ++ tts', ids ++ ids', gts ++ gts', ex', ts', imps', ?_, ?_, ?_, ?_⟩, ?_, ?_⟩
  · simp only [importedFuncs, importedMems, importedGlobals, List.filterMap_append, List.map_append,
      List.append_assoc, List.length_append, Nat.add_assoc]
  · rw [List.map_append]
    unfold importedTables
    rw [List.filterMap_append]
    exact List.rel_append h1 h1'
  · unfold importedTags
    rw [List.filterMap_append]
    exact List.rel_append h2 h2'
  · rw [List.map_append]
    unfold importedGlobals
    rw [List.filterMap_append]
    exact List.rel_append h3 h3'
  · intro i hi
    unfold importedFuncs at hi
    rw [List.filterMap_append] at hi
    rcases List.mem_append.1 hi with hi | hi
    · exact h4 i hi
    · exact h4' i hi
  · intro i hi
    unfold importedMems at hi
    rw [List.filterMap_append] at hi
    rcases List.mem_append.1 hi with hi | hi
    · exact h5 i hi
    · exact h5' i hi

theorem tagsOk_append {L : List (SubT Nat)} {m m' : Op.Module} {ts : List Nat}
    {is : List TagType} {ids : List Nat} (h : TagsOk L m) (hi : List.Forall₂ (TagId L ts) is ids)
    (hm : m'.tags = m.tags ++ ids) : TagsOk L m' := by
  have key : ∀ id ∈ ids, ∃ x ps rs, L[id]? = some x ∧ x.comp = .func ps rs := by
    clear hm
    induction hi with
    | nil => nofun
    | cons h1 _ ih =>
      intro id hid
      rcases List.mem_cons.1 hid with rfl | hid
      · exact h1.2
      · exact ih id hid
  intro id hid
  rw [hm] at hid
  rcases List.mem_append.1 hid with hid | hid
  · exact h id hid
  · exact key id hid

theorem Imported.hist {is : List Import} {s s' : ModuleState} (h : Imported T is s s')
    (hh : Hist f T s.m) : Hist f T s'.m := by
  obtain ⟨⟨tts, ids, gts, ex, ts, imps, rfl, h1, h2, h3⟩, h4, h5⟩ := h
  exact hh.of rfl (tagsOk_append hh.tags h2 rfl)

theorem addImportType_ok {s s' : ModuleState} (hh : Hist f T s.m) {t : TypeRef} {size : Nat}
    {mod name : List UInt8} {ts : Nat} {imps : List (List UInt8 × List UInt8)}
    (h : addImportType f T s t = .ok (size, s')) :
    Imported T [⟨mod, name, t⟩] s { s' with typeSize := ts, imports := imps } := by
  cases t with
  | func i =>
    obtain ⟨⟨ps, rs⟩, h1, h⟩ := bind_ok h
    obtain ⟨id, h2, h⟩ := bind_ok h
    obtain ⟨_, h3, h⟩ := bind_ok h
    obtain ⟨_, h4, h⟩ := bind_ok h
    cases h
    refine ⟨⟨[], [], [], s.m.exactFunctionImports, ts, imps, ?_, .nil, .nil, .nil⟩, ?_, nofun⟩
    · simp only [importedFuncs, importedMems, importedGlobals, List.filterMap_cons,
        List.filterMap_nil, List.append_nil, List.map_nil, List.length_nil, Nat.add_zero,
        List.length_cons, Nat.zero_add]
    · intro j hj
      cases List.mem_singleton.1 hj
      obtain ⟨x, h5⟩ := funcTypeAt_ok h1
      exact ⟨x, ps, rs, h5⟩
  | funcExact i =>
    obtain ⟨⟨ps, rs⟩, h1, h⟩ := bind_ok h
    obtain ⟨id, h2, h⟩ := bind_ok h
    obtain ⟨_, h3, h⟩ := bind_ok h
    obtain ⟨_, h4, h⟩ := bind_ok h
    cases h
    refine ⟨⟨[], [], [],
      s.m.exactFunctionImports ++ [BitVec.ofNat 32 s.m.numImportedFunctions], ts, imps, ?_, .nil, .nil, .nil⟩, ?_, nofun⟩
    · simp only [importedFuncs, importedMems, importedGlobals, List.filterMap_cons,
        List.filterMap_nil, List.append_nil, List.map_nil, List.length_nil, Nat.add_zero,
        List.length_cons, Nat.zero_add]
    · intro j hj
      cases List.mem_singleton.1 hj
      obtain ⟨x, h5⟩ := funcTypeAt_ok h1
      exact ⟨x, ps, rs, h5⟩
  | table t =>
    obtain ⟨ty, h1, h⟩ := bind_ok h
    obtain ⟨_, h2, h⟩ := bind_ok h
    cases h
    refine ⟨⟨[ty], [], [], s.m.exactFunctionImports, ts, imps, ?_, .cons (checkTableType_ok hh h1) .nil, .nil, .nil⟩,
      nofun, nofun⟩
    simp only [importedFuncs, importedMems, importedGlobals, List.filterMap_cons,
      List.filterMap_nil, List.append_nil, List.map_nil, List.length_nil, Nat.add_zero]
  | memory t =>
    obtain ⟨ty, h1, h⟩ := bind_ok h
    obtain ⟨_, h2, h⟩ := bind_ok h
    cases h
    refine ⟨⟨[], [], [], s.m.exactFunctionImports, ts, imps, ?_, .nil, .nil, .nil⟩, nofun, ?_⟩
    · simp only [importedFuncs, importedMems, importedGlobals, List.filterMap_cons,
        List.filterMap_nil, List.append_nil, List.map_nil, List.length_nil, Nat.add_zero,
        List.map_cons]
    · intro j hj
      cases List.mem_singleton.1 hj
      exact checkMemoryType_ok h1
  | tag t =>
    obtain ⟨_, h1, h⟩ := bind_ok h
    obtain ⟨id, h2, h⟩ := bind_ok h
    obtain ⟨_, h3, h⟩ := bind_ok h
    obtain ⟨_, h4, h⟩ := bind_ok h
    cases h
    refine ⟨⟨[], [id], [], s.m.exactFunctionImports, ts, imps, ?_, .nil, .cons (checkTagType_ok h1 h2) .nil, .nil⟩,
      nofun, nofun⟩
    simp only [importedFuncs, importedMems, importedGlobals, List.filterMap_cons,
      List.filterMap_nil, List.append_nil, List.map_nil, List.length_nil, Nat.add_zero]
  | global t =>
    obtain ⟨ty, h1, h⟩ := bind_ok h
    obtain ⟨_, h2, h⟩ := bind_ok h
    obtain ⟨_, h3, h⟩ := bind_ok h
    cases h
    refine ⟨⟨[], [], [ty], s.m.exactFunctionImports, ts, imps, ?_, .nil, .nil, .cons (checkGlobalType_ok hh h1) .nil⟩,
      nofun, nofun⟩
    simp only [importedFuncs, importedMems, importedGlobals, List.filterMap_cons,
      List.filterMap_nil, List.append_nil, List.map_nil, List.length_nil, Nat.add_zero,
      List.length_cons, Nat.zero_add]

theorem addImport_ok {s s' : ModuleState} (hh : Hist f T s.m) {i : Import}
    (h : addImport f T s i = .ok s') : Imported T [i] s s' := by
  obtain ⟨⟨size, s1⟩, h1, h⟩ := bind_ok h
  obtain ⟨ts, h2, h⟩ := bind_ok h
  cases h
  exact addImportType_ok hh h1

theorem addImport_fold {is : List Import} : ∀ {s s' : ModuleState}, Hist f T s.m →
    fold (addImport f T) is s = .ok s' → Imported T is s s' := by
  induction is with
  | nil =>
    intro s s' _ h
    cases h
    exact .nil
  | cons i is ih =>
    intro s s' hh h
    obtain ⟨s1, h1, h2⟩ := fold_cons h
    have h3 := addImport_ok hh h1
    exact h3.append (is := [i]) (ih (h3.hist hh) h2)

theorem fold_map {α β σ : Type} {g : σ → β → X σ} {k : α → β} {as : List α} {s : σ} :
    fold g (as.map k) s = fold (fun s a => g s (k a)) as s := by
  induction as generalizing s with
  | nil => rfl
  | cons a as ih =>
    show (g s (k a) >>= fun s => fold g (as.map k) s) = (g s (k a) >>= fun s => fold _ as s)
    congr 1
    funext s
    exact ih

theorem addImports_ok {s s' : ModuleState} {i : Imports} (h : addImports f T s i = .ok s') :
    ∃ is, ImportsAre f.reader.toFeatures i is ∧ fold (addImport f T) is s = .ok s' := by
  obtain ⟨_, h1, h⟩ := bind_ok h
  cases i with
  | single _ i =>
    refine ⟨[i], rfl, ?_⟩
    show (addImport f T s i >>= fun s => .ok s) = _
    have h : addImport f T s i = .ok s' := h
    rw [h]
    rfl
  | compact1 module items =>
    obtain ⟨xs, h2, h3⟩ := eachItem_ok h
    exact ⟨_, ⟨xs, h2, rfl⟩, by rw [fold_map]; exact h3⟩
  | compact2 module ty names =>
    obtain ⟨xs, h2, h3⟩ := eachItem_ok h
    exact ⟨_, ⟨xs, h2, rfl⟩, by rw [fold_map]; exact h3⟩

theorem imports_ok {is : List Imports} : ∀ {s s' : ModuleState},
    fold (addImports f T) is s = .ok s' → ∃ parts,
      List.Forall₂ (ImportsAre f.reader.toFeatures) is parts ∧
      fold (addImport f T) parts.flatten s = .ok s' := by
  induction is with
  | nil =>
    intro s s' h
    exact ⟨[], .nil, h⟩
  | cons i is ih =>
    intro s s' h
    obtain ⟨s1, h1, h2⟩ := fold_cons h
    obtain ⟨p, h3, h4⟩ := addImports_ok h1
    obtain ⟨parts, h5, h6⟩ := ih h2
    exact ⟨p :: parts, .cons h3 h5, fold_append h4 h6⟩

/-! ## Functions, memories, tags -/

theorem funcs_ok {is : List (BitVec 32)} : ∀ {s s' : ModuleState},
    fold (addFunction T) is s = .ok s' →
    s' = { s with m := { s.m with functions := s.m.functions ++ is } } ∧
    ∀ i ∈ is, ∃ x ps rs, FuncAt (tctx (listOf T) s.m.types) i x ps rs := by
  induction is with
  | nil =>
    intro s s' h
    cases h
    exact ⟨by simp only [List.append_nil], nofun⟩
  | cons i is ih =>
    intro s s' h
    obtain ⟨s1, h1, h2⟩ := fold_cons h
    obtain ⟨_, h3, h1⟩ := bind_ok h1
    obtain ⟨⟨ps, rs⟩, h4, h1⟩ := bind_ok h1
    cases h1
    obtain ⟨rfl, h5⟩ := ih h2
    refine ⟨by simp only [List.append_assoc, List.singleton_append], ?_⟩
    intro j hj
    rcases List.mem_cons.1 hj with rfl | hj
    · obtain ⟨x, h6⟩ := funcTypeAt_ok h4
      exact ⟨x, ps, rs, h6⟩
    · exact h5 j hj

theorem mems_ok {ts : List MemoryType} : ∀ {s s' : ModuleState},
    fold (addMemory f) ts s = .ok s' →
    s' = { s with m := { s.m with memories := s.m.memories ++ ts.map (·.memory64) } } ∧
    ∀ t ∈ ts, MemOk t t.memory64 := by
  induction ts with
  | nil =>
    intro s s' h
    cases h
    exact ⟨by simp only [List.map_nil, List.append_nil], nofun⟩
  | cons t ts ih =>
    intro s s' h
    obtain ⟨s1, h1, h2⟩ := fold_cons h
    obtain ⟨_, h3, h1⟩ := bind_ok h1
    obtain ⟨_, h4, h1⟩ := bind_ok h1
    cases h1
    obtain ⟨rfl, h5⟩ := ih h2
    refine ⟨by simp only [List.append_assoc, List.singleton_append, List.map_cons], ?_⟩
    intro j hj
    rcases List.mem_cons.1 hj with rfl | hj
    · exact checkMemoryType_ok h4
    · exact h5 j hj

theorem tags_ok {ts : List TagType} : ∀ {s s' : ModuleState},
    fold (addTag f T) ts s = .ok s' → ∃ ids,
    s' = { s with m := { s.m with tags := s.m.tags ++ ids } } ∧
    List.Forall₂ (TagId (listOf T) s.m.types) ts ids := by
  induction ts with
  | nil =>
    intro s s' h
    cases h
    exact ⟨[], by simp only [List.append_nil], .nil⟩
  | cons t ts ih =>
    intro s s' h
    obtain ⟨s1, h1, h2⟩ := fold_cons h
    obtain ⟨_, h3, h1⟩ := bind_ok h1
    obtain ⟨_, h4, h1⟩ := bind_ok h1
    obtain ⟨id, h5, h1⟩ := bind_ok h1
    cases h1
    obtain ⟨ids, rfl, h6⟩ := ih h2
    exact ⟨id :: ids, by simp only [List.append_assoc, List.singleton_append],
      .cons (checkTagType_ok h4 h5) h6⟩

/-! ## Expressions -/

theorem constOps_of {r r' : Reader} {e : ConstExpr} {rf : Instr.Features}
    (h : readConstExpr rf r = .ok (e, r')) : ∃ os, ConstOps rf e os := by
  obtain ⟨is, h1, -, -⟩ := Reenc.readConst_steps h
  obtain ⟨os, q, h2, h3, -⟩ := h1.collect
  exact ⟨os, q, h2, h3⟩

/-- The state with other references, which grow by those that satisfy `P`. -/
structure Grows (s s' : ModuleState) (P : BitVec 32 → Prop) : Prop where
  eq : s' = { s with m := setRefs s.m s'.m.functionReferences }
  refs : ∀ i, i ∈ s'.m.functionReferences ↔ i ∈ s.m.functionReferences ∨ P i

theorem Grows.rfl' {s : ModuleState} {P : BitVec 32 → Prop} (h : ∀ i, ¬ P i) : Grows s s P :=
  ⟨rfl, fun i => by simp [h i]⟩

theorem Grows.trans {s1 s2 s3 : ModuleState} {P Q R : BitVec 32 → Prop} (h : Grows s1 s2 P)
    (h' : Grows s2 s3 Q) (hR : ∀ i, R i ↔ P i ∨ Q i) : Grows s1 s3 R := by
  refine ⟨?_, fun i => ?_⟩
  · rw [h'.eq, h.eq]
    rfl
  · rw [h'.refs, h.refs, hR, or_assoc]

theorem Grows.owned {s s' : ModuleState} {P : BitVec 32 → Prop} (h : Grows s s' P) :
    s'.owned = s.owned := by
  rw [h.eq]

theorem Grows.hist {s s' : ModuleState} {P : BitVec 32 → Prop} (h : Grows s s' P)
    (hh : Hist f T s.m) : Hist f T s'.m := by
  rw [h.eq]
  exact hh.setRefs _

theorem Grows.ext {s s' : ModuleState} {P : BitVec 32 → Prop} (h : Grows s s' P)
    (L : List (SubT Nat)) : Ext (ctxOf L s.m) (ctxOf L s'.m) := by
  have he : s'.m = setRefs s.m s'.m.functionReferences := by rw [h.eq]; rfl
  rw [he]
  exact ext_refs fun i hi => (h.refs i).2 (.inl hi)

theorem const_grows (hcd : f.customDescriptors = false) {s s' : ModuleState} {e : ConstExpr}
    {ty : V} {os : List Operator} (hh : Hist f T s.m) (ho : ConstOps f.reader.toFeatures e os)
    (h : checkConstExpr f bs T s e ty = .ok s') :
    ConstTy (ctxOf (listOf T) s'.m) os ty ∧ Grows s s' (Refs os) := by
  obtain ⟨h1, h2, h3⟩ := const_sound hcd hh ho h
  refine ⟨h1, h2.eq, ?_⟩
  by_cases hown : s.owned = true
  · exact h2.refs hown
  · have hown : s.owned = false := by simpa using hown
    intro i
    rw [h2.same hown]
    have := h3 hown i
    simp [Refs, this]

/-! ## Tables -/

theorem readTable_init {r r' : Reader} {t : Table} {rf : Instr.Features}
    (h : readTable rf r = .ok (t, r')) : ∃ x, TableSays rf t x := by
  obtain ⟨b, r1, h1, h⟩ := Reader.bind_ok.mp h
  obtain ⟨ty, r2, h2, h⟩ := Reader.bind_ok.mp h
  obtain ⟨init, r3, h3, h⟩ := Reader.bind_ok.mp h
  cases h
  unfold readTableInit at h3
  split at h3
  · obtain ⟨e, r4, h4, h5⟩ := Reader.bind_ok.mp h3
    cases h5
    obtain ⟨os, ho⟩ := constOps_of h4
    exact ⟨(ty, some os), rfl, ho⟩
  · cases h3
    exact ⟨(ty, none), rfl, trivial⟩

/-- Tables with initial values. -/
structure Tabled (T : TypeList) (xs : List (TableType × Option (List Operator)))
    (s s' : ModuleState) : Prop where
  fields : ∃ tts rs, s' = { s with m :=
      { s.m with tables := s.m.tables ++ tts, functionReferences := rs } } ∧
    List.Forall₂ (TableOk (tctx (listOf T) s.m.types)) (xs.map (·.1)) (tts.map toTableT) ∧
    List.Forall₂ (TableInitOk (ctxOf (listOf T) s'.m)) (tts.map toTableT) (xs.map (·.2))
  refs : ∀ i, i ∈ s'.m.functionReferences ↔ i ∈ s.m.functionReferences ∨
    ∃ t ∈ xs, ∃ os, t.2 = some os ∧ Refs os i

theorem tableInit_mono {C C' : Ctx} (h : Ext C C') {t : TableT} {o : Option (List Operator)}
    (ht : TableInitOk C t o) : TableInitOk C' t o := by
  cases o with
  | none => exact ht
  | some os => exact ConstTy.mono h ht

theorem addTable_ok (hcd : f.customDescriptors = false) {s s' : ModuleState} (hh : Hist f T s.m)
    {t : Table} {x : TableType × Option (List Operator)} (hx : TableSays f.reader.toFeatures t x)
    (h : addTable f bs T s t = .ok s') : Tabled T [x] s s' := by
  obtain ⟨ty, h1, h⟩ := bind_ok h
  obtain ⟨s1, h2, h⟩ := bind_ok h
  obtain ⟨_, h3, h⟩ := bind_ok h
  cases h
  have hty := checkTableType_ok hh h1
  obtain ⟨x1, x2⟩ := x
  obtain ⟨hx1, hx2⟩ := hx
  cases hx1
  obtain ⟨tty, init⟩ := t
  cases init with
  | refNull =>
    cases x2 with
    | some => exact hx2.elim
    | none =>
      obtain ⟨_, h4, h2⟩ := bind_ok h2
      cases h2
      refine ⟨⟨[ty], s.m.functionReferences, rfl, .cons hty .nil, .cons (need_ok h4) .nil⟩, ?_⟩
      intro i
      simp
  | expr e =>
    cases x2 with
    | none => exact hx2.elim
    | some os =>
      obtain ⟨_, h4, h2⟩ := bind_ok h2
      obtain ⟨h5, h6⟩ := const_grows hcd hh hx2 h2
      refine ⟨⟨[ty], s1.m.functionReferences, ?_, .cons hty .nil, .cons ?_ .nil⟩, ?_⟩
      · rw [h6.eq]
        rfl
      · refine ConstTy.mono ?_ h5
        exact ⟨rfl, rfl, List.prefix_refl _, List.prefix_refl _, fun _ h => h⟩
      · intro i
        show i ∈ s1.m.functionReferences ↔ _
        rw [h6.refs]
        simp

theorem rel_grow {α β : Type} {R R' : α → β → Prop} (h : ∀ a b, R a b → R' a b)
    {l₁ l₂ : List α} {r₁ r₂ : List β} (h₁ : List.Forall₂ R l₁ r₁) (h₂ : List.Forall₂ R' l₂ r₂) :
    List.Forall₂ R' (l₁ ++ l₂) (r₁ ++ r₂) := List.rel_append (h₁.imp h) h₂

theorem tables_ok (hcd : f.customDescriptors = false) {ts : List Table}
    {xs : List (TableType × Option (List Operator))}
    (hx : List.Forall₂ (TableSays f.reader.toFeatures) ts xs) : ∀ {s s' : ModuleState},
    Hist f T s.m → fold (addTable f bs T) ts s = .ok s' → Tabled T xs s s' := by
  induction hx with
  | nil =>
    intro s s' hh h
    cases h
    refine ⟨⟨[], s.m.functionReferences, ?_, .nil, .nil⟩, by simp⟩
    simp only [List.append_nil]
  | @cons t x ts xs h1 _ ih =>
    intro s s' hh h
    obtain ⟨s1, h2, h3⟩ := fold_cons h
    obtain ⟨⟨tts, rs, rfl, h4, h5⟩, h6⟩ := addTable_ok hcd hh h1 h2
    have hh1 := hh.of (m' := { s.m with tables := s.m.tables ++ tts, functionReferences := rs }) rfl
      hh.tags
    obtain ⟨⟨tts', rs', rfl, h7, h8⟩, h9⟩ := ih hh1 h3
    refine ⟨⟨tts ++ tts', rs', ?_, ?_, ?_⟩, ?_⟩
    · simp only [List.append_assoc]
    · rw [List.map_append]
      exact List.rel_append h4 h7
    · rw [List.map_append]
      refine rel_grow ?_ h5 h8
      intro a b hab
      refine tableInit_mono ?_ hab
      exact ⟨rfl, rfl, List.prefix_refl _, List.prefix_refl _, fun i hi => (h9 i).2 (.inl hi)⟩
    · intro i
      rw [h9 i]
      have h6 : i ∈ rs ↔ _ := h6 i
      show i ∈ rs ∨ _ ↔ _
      rw [h6]
      simp [or_assoc]

/-! ## Globals -/

theorem readGlobal_init {r r' : Reader} {g : Global} {rf : Instr.Features}
    (h : readGlobal rf r = .ok (g, r')) : ∃ x, GlobalSays rf g x := by
  obtain ⟨ty, r1, h1, h⟩ := Reader.bind_ok.mp h
  obtain ⟨e, r2, h2, h⟩ := Reader.bind_ok.mp h
  cases h
  obtain ⟨os, ho⟩ := constOps_of h2
  exact ⟨(ty, os), rfl, ho⟩

/-- Globals with initial values. -/
structure Globaled (T : TypeList) (xs : List (GlobalType × List Operator))
    (s s' : ModuleState) : Prop where
  fields : ∃ gts rs, s' = { s with m :=
      { s.m with globals := s.m.globals ++ gts, functionReferences := rs } } ∧
    List.Forall₂ (GlobalOk (tctx (listOf T) s.m.types)) (xs.map (·.1)) (gts.map toGlobalT) ∧
    ∀ (k : Nat) t os g, xs[k]? = some (t, os) → gts[k]? = some g → ConstTy (ctxOf (listOf T)
      { s.m with globals := s.m.globals ++ gts.take k, functionReferences := rs }) os g.content
  refs : ∀ i, i ∈ s'.m.functionReferences ↔ i ∈ s.m.functionReferences ∨ ∃ g ∈ xs, Refs g.2 i

theorem globals_ok (hcd : f.customDescriptors = false) {gs : List Global}
    {xs : List (GlobalType × List Operator)}
    (hx : List.Forall₂ (GlobalSays f.reader.toFeatures) gs xs) : ∀ {s s' : ModuleState},
    Hist f T s.m → fold (addGlobal f bs T) gs s = .ok s' → Globaled T xs s s' := by
  induction hx with
  | nil =>
    intro s s' hh h
    cases h
    refine ⟨⟨[], s.m.functionReferences, ?_, .nil, fun k t os g h => by simp at h⟩, by simp⟩
    simp only [List.append_nil]
  | @cons g x gs xs h1 _ ih =>
    intro s s' hh h
    obtain ⟨s1, h2, h3⟩ := fold_cons h
    obtain ⟨ty, h4, h2⟩ := bind_ok h2
    obtain ⟨s2, h5, h2⟩ := bind_ok h2
    obtain ⟨_, h6, h2⟩ := bind_ok h2
    cases h2
    obtain ⟨t, os⟩ := x
    obtain ⟨hx1, hx2⟩ := h1
    cases hx1
    obtain ⟨h7, h8⟩ := const_grows hcd hh hx2 h5
    have hty := checkGlobalType_ok hh h4
    obtain ⟨h9, h10⟩ := h8
    generalize s2.m.functionReferences = rs at h9 h10
    subst h9
    have hh1 := hh.of (m' := { s.m with globals := s.m.globals ++ [ty], functionReferences := rs })
      rfl hh.tags
    obtain ⟨⟨gts', rs', rfl, h11, h12⟩, h13⟩ := ih hh1 h3
    have h13 : ∀ i, i ∈ rs' ↔ i ∈ rs ∨ ∃ g ∈ xs, Refs g.2 i := h13
    refine ⟨⟨ty :: gts', rs', ?_, ?_, ?_⟩, ?_⟩
    · simp only [setRefs, List.append_assoc, List.singleton_append]
    · exact .cons hty h11
    · intro k t' os' g' hk hg
      cases k with
      | zero =>
        cases hk
        cases hg
        refine ConstTy.mono ?_ h7
        refine ⟨rfl, rfl, List.prefix_refl _, ?_, fun i hi => (h13 i).2 (.inl hi)⟩
        simp [ctxOf, setRefs]
      | succ k =>
        have := h12 k t' os' g' hk hg
        simpa [setRefs] using this
    · intro i
      show i ∈ rs' ↔ _
      rw [h13, h10]
      simp [or_assoc]

/-! ## Exports -/

theorem readExport_kind {r r' : Reader} {x : Export} (h : readExport r = .ok (x, r')) :
    x.kind ≠ .funcExact := by
  obtain ⟨name, r1, h1, h⟩ := Reader.bind_ok.mp h
  obtain ⟨kind, r2, h2, h⟩ := Reader.bind_ok.mp h
  obtain ⟨pos, r3, h3, h⟩ := Reader.bind_ok.mp h
  split at h
  · cases h
  · next hk =>
    obtain ⟨i, r4, h4, h⟩ := Reader.bind_ok.mp h
    cases h
    exact hk

theorem insertRef_mem {m : Op.Module} {i j : BitVec 32} :
    j ∈ (insertRef m i).functionReferences ↔ j ∈ m.functionReferences ∨ j = i := by
  unfold insertRef
  split
  · next h =>
    rw [List.contains_iff_mem] at h
    constructor
    · exact .inl
    · rintro (h | rfl)
      · exact h
      · exact ‹_›
  · simp

theorem insertRef_eq {m : Op.Module} {i : BitVec 32} :
    insertRef m i = setRefs m (insertRef m i).functionReferences := by
  unfold insertRef
  split <;> rfl

/-- Exports. -/
structure Exported (T : TypeList) (xs : List Export) (s s' : ModuleState) : Prop where
  fields : ∃ rs ts, s' = { s with
      m := { s.m with functionReferences := rs }, typeSize := ts
      exports := s.exports ++ xs.map (·.name) }
  ok : ∀ x ∈ xs, ExportOk (ctxOf (listOf T) s.m) x
  names : s.exports.Nodup → s'.exports.Nodup
  refs : ∀ i, i ∈ s'.m.functionReferences ↔ i ∈ s.m.functionReferences ∨
    ∃ x ∈ xs, x.kind = .func ∧ x.index = i

theorem get_lt {α : Type} {l : List α} {n : Nat} {a : α} (h : l[n]? = some a) : n < l.length :=
  (List.getElem?_eq_some_iff.1 h).1

theorem exportType_ok {s s' : ModuleState} {x : Export} {n : Nat} (hk : x.kind ≠ .funcExact)
    (h : exportType f T s x.index x.kind = .ok (n, s')) : ExportOk (ctxOf (listOf T) s.m) x ∧
    ∃ rs, s' = { s with m := setRefs s.m rs } ∧
      ∀ i, i ∈ rs ↔ i ∈ s.m.functionReferences ∨ x.kind = .func ∧ x.index = i := by
  obtain ⟨name, kind, index⟩ := x
  unfold ExportOk
  cases kind with
  | func =>
    obtain ⟨ty, h1, h⟩ := bind_ok h
    obtain ⟨id, h2, h⟩ := bind_ok h
    obtain ⟨k, h3, h⟩ := bind_ok h
    cases h
    refine ⟨get_lt (orErr_ok h1), _, by rw [← insertRef_eq], fun i => ?_⟩
    rw [insertRef_mem]
    simp [eq_comm]
  | table =>
    obtain ⟨ty, h1, h⟩ := bind_ok h
    cases h
    refine ⟨?_, s.m.functionReferences, rfl, by simp⟩
    simpa [ctxOf] using get_lt (orErr_ok h1)
  | memory =>
    obtain ⟨ty, h1, h⟩ := bind_ok h
    cases h
    exact ⟨get_lt (orErr_ok h1), s.m.functionReferences, rfl, by simp⟩
  | global =>
    obtain ⟨ty, h1, h⟩ := bind_ok h
    obtain ⟨_, h2, h⟩ := bind_ok h
    cases h
    refine ⟨?_, s.m.functionReferences, rfl, by simp⟩
    simpa [ctxOf] using get_lt (orErr_ok h1)
  | tag =>
    obtain ⟨ty, h1, h⟩ := bind_ok h
    obtain ⟨_, h2, h⟩ := bind_ok h
    cases h
    refine ⟨?_, s.m.functionReferences, rfl, by simp⟩
    simpa [ctxOf] using get_lt (orErr_ok h1)
  | funcExact => exact absurd rfl hk

theorem exportOk_refs {L : List (SubT Nat)} {m : Op.Module} {rs : List (BitVec 32)} {x : Export}
    (h : ExportOk (ctxOf L (setRefs m rs)) x) : ExportOk (ctxOf L m) x := h

theorem exports_ok {xs : List Export} (hk : ∀ x ∈ xs, x.kind ≠ .funcExact) :
    ∀ {s s' : ModuleState}, fold (addExport f T) xs s = .ok s' → Exported T xs s s' := by
  induction xs with
  | nil =>
    intro s s' h
    cases h
    refine ⟨⟨s.m.functionReferences, s.typeSize, ?_⟩, nofun, fun h => h, by simp⟩
    simp only [List.map_nil, List.append_nil]
  | cons x xs ih =>
    intro s s' h
    obtain ⟨s1, h1, h2⟩ := fold_cons h
    obtain ⟨_, h3, h1⟩ := bind_ok h1
    obtain ⟨⟨size, s2⟩, h4, h1⟩ := bind_ok h1
    obtain ⟨ts, h5, h1⟩ := bind_ok h1
    obtain ⟨_, h6, h1⟩ := bind_ok h1
    cases h1
    obtain ⟨h7, rs, rfl, h8⟩ := exportType_ok (hk x (by simp)) h4
    obtain ⟨⟨rs', ts', rfl⟩, h10, h11, h12⟩ := ih (fun y hy => hk y (by simp [hy])) h2
    refine ⟨⟨rs', ts', ?_⟩, ?_, ?_, ?_⟩
    · simp only [setRefs, List.append_assoc, List.singleton_append, List.map_cons]
    · intro y hy
      rcases List.mem_cons.1 hy with rfl | hy
      · exact h7
      · exact exportOk_refs (h10 y hy)
    · intro hn
      refine h11 ?_
      have h6 := need_ok h6
      rw [Bool.not_eq_true', ← Bool.not_eq_true, List.contains_iff_mem] at h6
      refine List.nodup_append.2 ⟨hn, List.nodup_cons.2 ⟨List.not_mem_nil, List.nodup_nil⟩, ?_⟩
      intro a ha b hb
      rw [List.mem_singleton.1 hb]
      rintro rfl
      exact h6 ha
    · intro i
      have h12 : i ∈ rs' ↔ i ∈ rs ∨ _ := h12 i
      show i ∈ rs' ↔ _
      rw [h12, h8]
      simp [or_assoc]

/-! ## Elements -/

theorem readElementKind_mode {r r' : Reader} {fl : BitVec 32} {k : ElementKind}
    {rf : Instr.Features} (h : readElementKind rf fl r = .ok (k, r')) :
    ∃ x, ElemModeIs rf k x := by
  unfold readElementKind at h
  split at h
  · cases h
    split
    · exact ⟨.declared, trivial⟩
    · exact ⟨.passive, trivial⟩
  · obtain ⟨t, r1, h1, h⟩ := Reader.bind_ok.mp h
    obtain ⟨e, r2, h2, h⟩ := Reader.bind_ok.mp h
    cases h
    obtain ⟨os, ho⟩ := constOps_of h2
    exact ⟨.active (t.getD 0) os, rfl, ho⟩

theorem readElement_mode {r r' : Reader} {e : Element} {rf : Instr.Features}
    (h : readElement rf r = .ok (e, r')) : ∃ x, ElemModeIs rf e.kind x := by
  obtain ⟨_, r1, h1, h⟩ := Reader.bind_ok.mp h
  obtain ⟨fl, r2, h2, h⟩ := Reader.bind_ok.mp h
  obtain ⟨_, r3, h3, h⟩ := Reader.bind_ok.mp h
  split at h
  · cases h
  · obtain ⟨k, r4, h4, h⟩ := Reader.bind_ok.mp h
    obtain ⟨_, r5, h5, h⟩ := Reader.bind_ok.mp h
    obtain ⟨_, r6, h6, h⟩ := Reader.bind_ok.mp h
    obtain ⟨_, r7, h7, h⟩ := Reader.bind_ok.mp h
    obtain ⟨_, r8, h8, h⟩ := Reader.bind_ok.mp h
    cases h
    exact readElementKind_mode h4

/-- The element types of tables are in the list. -/
def TablesIn (T : TypeList) (m : Op.Module) : Prop :=
  ∀ t ∈ m.tables, Op.inList (listOf T) t.elem.heap.refs = true

theorem elementType_ok {m : Op.Module} (hh : Hist f T m) {items : ElementItems} {ty : Op.Ref}
    (h : elementType f m items = .ok ty) : Op.inList (listOf T) ty.heap.refs = true := by
  cases items with
  | functions s => cases h; rfl
  | expressions t s => exact refTy_in hh (checkRefType_ok hh h)

theorem indexType_eq (b : Bool) : Op.indexType b = addrTy b := by
  cases b <;> rfl

theorem elemKind_ok (hcd : f.customDescriptors = false) {s s' : ModuleState} (hh : Hist f T s.m)
    (ht : TablesIn T s.m) {ty : Op.Ref} (hty : Op.inList (listOf T) ty.heap.refs = true)
    {k : ElementKind} {x : ElemMode} (hx : ElemModeIs f.reader.toFeatures k x)
    (h : checkElementKind f bs T s ty k = .ok s') :
    ElemModeOk (ctxOf (listOf T) s'.m) ty x ∧ Grows s s' (fun i => x.Mentions i) := by
  cases k with
  | active t e =>
    cases x with
    | active t' os =>
      obtain ⟨rfl, ho⟩ := hx
      obtain ⟨tt, h1, h⟩ := bind_ok h
      obtain ⟨b, h2, h⟩ := bind_ok h
      obtain ⟨_, h3, h⟩ := bind_ok h
      cases need_ok h3
      have h1 := orErr_ok h1
      obtain ⟨h4, h5⟩ := const_grows hcd hh ho h
      refine ⟨⟨toTableT tt, ?_, ?_, ?_⟩, h5⟩
      · rw [h5.eq]
        show (s.m.tables.map toTableT)[(t.getD 0).toNat]? = _
        rw [List.getElem?_map, h1]
        rfl
      · have := refIsSubtype_ok hh hty (ht tt (List.mem_iff_getElem?.2 ⟨_, h1⟩)) h2
        rw [h5.eq]
        exact this
      · rw [← indexType_eq]
        exact h4
    | _ => exact hx.elim
  | passive =>
    cases x with
    | passive =>
      obtain ⟨_, h1, h⟩ := bind_ok h
      cases h
      exact ⟨trivial, .rfl' fun _ h => h⟩
    | _ => exact hx.elim
  | declared =>
    cases x with
    | declared =>
      obtain ⟨_, h1, h⟩ := bind_ok h
      cases h
      exact ⟨trivial, .rfl' fun _ h => h⟩
    | _ => exact hx.elim

theorem elemFuncs_ok {is : List (BitVec 32)} : ∀ {s s' : ModuleState},
    fold (addElementFunc T) is s = .ok s' →
    (∀ i ∈ is, i.toNat < s.m.functions.length) ∧ Grows s s' (· ∈ is) := by
  induction is with
  | nil =>
    intro s s' h
    cases h
    exact ⟨nofun, .rfl' nofun⟩
  | cons i is ih =>
    intro s s' h
    obtain ⟨s1, h1, h2⟩ := fold_cons h
    obtain ⟨t, h3, h1⟩ := bind_ok h1
    obtain ⟨_, h4, h1⟩ := bind_ok h1
    cases h1
    obtain ⟨ty, h5, h6⟩ := bind_ok h3
    obtain ⟨h7, h8⟩ := ih h2
    have hg : Grows s { s with m := insertRef s.m i } (· = i) :=
      ⟨by rw [← insertRef_eq], fun j => insertRef_mem⟩
    have hf : (insertRef s.m i).functions = s.m.functions := by rw [insertRef_eq]; rfl
    refine ⟨?_, hg.trans h8 (by simp)⟩
    intro j hj
    rcases List.mem_cons.1 hj with rfl | hj
    · exact get_lt (orErr_ok h5)
    · have := h7 j hj
      rwa [hf] at this

theorem elemExprs_ok (hcd : f.customDescriptors = false) {ty : Op.Ref} {es : List ConstExpr}
    (he : ∀ e ∈ es, ∃ r r', readConstExpr f.reader.toFeatures r = .ok (e, r')) :
    ∀ {s s' : ModuleState}, Hist f T s.m →
    fold (fun s e => checkConstExpr f bs T s e (.ref ty)) es s = .ok s' →
    ∃ oss, List.Forall₂ (ConstOps f.reader.toFeatures) es oss ∧
      (∀ os ∈ oss, ConstTy (ctxOf (listOf T) s'.m) os (.ref ty)) ∧
      Grows s s' (fun i => ∃ os ∈ oss, Refs os i) := by
  induction es with
  | nil =>
    intro s s' hh h
    cases h
    exact ⟨[], .nil, nofun, .rfl' (by simp)⟩
  | cons e es ih =>
    intro s s' hh h
    obtain ⟨s1, h1, h2⟩ := fold_cons h
    obtain ⟨r, r', hr⟩ := he e (by simp)
    obtain ⟨os, ho⟩ := constOps_of hr
    obtain ⟨h3, h4⟩ := const_grows hcd hh ho h1
    obtain ⟨oss, h5, h6, h7⟩ := ih (fun e he' => he e (by simp [he'])) (h4.hist hh) h2
    refine ⟨os :: oss, .cons ho h5, ?_, h4.trans h7 (by simp)⟩
    intro os' ho'
    rcases List.mem_cons.1 ho' with rfl | ho'
    · exact ConstTy.mono (h7.ext _) h3
    · exact h6 os' ho'

theorem elemItems_ok (hcd : f.customDescriptors = false) {s s0 s' : ModuleState}
    (hh0 : Hist f T s0.m) (hs0 : s.m.types = s0.m.types) (hh : Hist f T s.m) {ty : Op.Ref}
    {items : ElementItems} (hty : elementType f s0.m items = .ok ty)
    (h : checkElementItems f bs T s ty items = .ok s') :
    ∃ x, ElemItemsAre f.reader.toFeatures items x ∧ ElemItemsOk (ctxOf (listOf T) s'.m) ty x ∧
      Grows s s' (fun i => x.Mentions i) := by
  cases items with
  | functions sec =>
    cases hty
    obtain ⟨_, h1, h⟩ := bind_ok h
    obtain ⟨xs, h2, h3⟩ := eachItem_ok h
    obtain ⟨h4, h5⟩ := elemFuncs_ok h3
    refine ⟨.funcs xs, h2, ⟨rfl, fun i hi => ?_⟩, h5⟩
    have := h4 i hi
    rw [h5.eq]
    exact this
  | expressions t sec =>
    obtain ⟨_, h1, h⟩ := bind_ok h
    obtain ⟨xs, h2, h3⟩ := eachItem_ok h
    obtain ⟨oss, h4, h5, h6⟩ := elemExprs_ok hcd (collect_mem h2) hh h3
    refine ⟨.exprs t oss, ⟨rfl, xs, h2, h4⟩, ⟨?_, h5⟩, h6⟩
    have := checkRefType_ok hh0 hty
    have h7 : s'.m.types = s0.m.types := by
      rw [h6.eq]
      exact hs0
    unfold Ctx.RefTy Ctx.HeapTy at this ⊢
    show ∃ h, _
    simp only [ctxOf, h7]
    exact this

theorem elemMode_mono {C C' : Ctx} (h : Ext C C') (ht : C.tables <+: C'.tables) {ty : Op.Ref}
    {x : ElemMode} (hx : ElemModeOk C ty x) : ElemModeOk C' ty x := by
  cases x with
  | active t os =>
    obtain ⟨tt, h1, h2, h3⟩ := hx
    exact ⟨tt, prefix_get ht h1, by rw [h.decls]; exact h2, ConstTy.mono h h3⟩
  | _ => trivial

theorem elemItems_mono {C C' : Ctx} (h : Ext C C') {ty : Op.Ref} {x : ElemItems}
    (hx : ElemItemsOk C ty x) : ElemItemsOk C' ty x := by
  cases x with
  | funcs is =>
    exact ⟨hx.1, fun i hi => Nat.lt_of_lt_of_le (hx.2 i hi) h.funcs.length_le⟩
  | exprs t es =>
    exact ⟨by rw [h.refTy]; exact hx.1, fun os ho => ConstTy.mono h (hx.2 os ho)⟩

/-- Element segments. -/
structure Elemed (T : TypeList) (xs : List (ElemMode × ElemItems)) (s s' : ModuleState) : Prop where
  fields : ∃ tys rs, s' = { s with m :=
      { s.m with elementTypes := s.m.elementTypes ++ tys, functionReferences := rs } } ∧
    List.Forall₂ (ElemOk (ctxOf (listOf T) s'.m)) xs tys
  refs : ∀ i, i ∈ s'.m.functionReferences ↔ i ∈ s.m.functionReferences ∨
    ∃ e ∈ xs, e.1.Mentions i ∨ e.2.Mentions i

theorem addElement_ok (hcd : f.customDescriptors = false) {s s' : ModuleState} (hh : Hist f T s.m)
    (ht : TablesIn T s.m) {e : Element} {x : ElemMode}
    (hx : ElemModeIs f.reader.toFeatures e.kind x) (h : addElementSegment f bs T s e = .ok s') :
    ∃ y, ElemSays f.reader.toFeatures e (x, y) ∧ Elemed T [(x, y)] s s' := by
  obtain ⟨ty, h1, h⟩ := bind_ok h
  obtain ⟨s1, h2, h⟩ := bind_ok h
  obtain ⟨s2, h3, h⟩ := bind_ok h
  obtain ⟨_, h4, h⟩ := bind_ok h
  cases h
  have hty := elementType_ok hh h1
  obtain ⟨h5, h6⟩ := elemKind_ok hcd hh ht hty hx h2
  have hs : s1.m.types = s.m.types := by rw [h6.eq]; rfl
  obtain ⟨y, h7, h8, h9⟩ := elemItems_ok hcd hh hs (h6.hist hh) h1 h3
  have hg := h6.trans h9 (R := fun i => x.Mentions i ∨ y.Mentions i) fun i => Iff.rfl
  have hext : Ext (ctxOf (listOf T) s2.m)
      (ctxOf (listOf T) { s2.m with elementTypes := s2.m.elementTypes ++ [ty] }) :=
    ⟨rfl, rfl, List.prefix_refl _, List.prefix_refl _, fun _ h => h⟩
  refine ⟨y, ⟨hx, h7⟩, ⟨[ty], s2.m.functionReferences, ?_, .cons ⟨?_, ?_⟩ .nil⟩, ?_⟩
  · rw [hg.eq]
    rfl
  · refine elemMode_mono ((h9.ext _).trans hext) ?_ h5
    rw [h9.eq]
    exact List.prefix_refl _
  · exact elemItems_mono hext h8
  · intro i
    show i ∈ s2.m.functionReferences ↔ _
    rw [hg.refs]
    simp

theorem elems_ok (hcd : f.customDescriptors = false) {es : List Element}
    (hx : ∀ e ∈ es, ∃ x, ElemModeIs f.reader.toFeatures e.kind x) : ∀ {s s' : ModuleState},
    Hist f T s.m → TablesIn T s.m → fold (addElementSegment f bs T) es s = .ok s' →
    ∃ xs, List.Forall₂ (ElemSays f.reader.toFeatures) es xs ∧ Elemed T xs s s' := by
  induction es with
  | nil =>
    intro s s' hh _ h
    cases h
    refine ⟨[], .nil, ⟨[], s.m.functionReferences, ?_, .nil⟩, by simp⟩
    simp only [List.append_nil]
  | cons e es ih =>
    intro s s' hh ht h
    obtain ⟨s1, h1, h2⟩ := fold_cons h
    obtain ⟨x, hx1⟩ := hx e (by simp)
    obtain ⟨y, h3, ⟨tys, rs, rfl, h4⟩, h5⟩ := addElement_ok hcd hh ht hx1 h1
    have hh1 := hh.of (m' := { s.m with
      elementTypes := s.m.elementTypes ++ tys, functionReferences := rs }) rfl hh.tags
    obtain ⟨xs, h6, ⟨tys', rs', rfl, h7⟩, h8⟩ := ih (s := { s with m := { s.m with
      elementTypes := s.m.elementTypes ++ tys, functionReferences := rs } })
      (fun e he => hx e (by simp [he])) hh1 ht h2
    have h8 : ∀ i, i ∈ rs' ↔ i ∈ rs ∨ _ := h8
    have h5 : ∀ i, i ∈ rs ↔ i ∈ s.m.functionReferences ∨ _ := h5
    refine ⟨(x, y) :: xs, .cons h3 h6, ⟨tys ++ tys', rs', ?_, ?_⟩, ?_⟩
    · simp only [List.append_assoc]
    · refine rel_grow ?_ h4 h7
      intro a b hab
      refine ⟨elemMode_mono ?_ ?_ hab.1, elemItems_mono ?_ hab.2⟩
      · exact ⟨rfl, rfl, List.prefix_refl _, List.prefix_refl _, fun i hi => (h8 i).2 (.inl hi)⟩
      · exact List.prefix_refl _
      · exact ⟨rfl, rfl, List.prefix_refl _, List.prefix_refl _, fun i hi => (h8 i).2 (.inl hi)⟩
    · intro i
      show i ∈ rs' ↔ _
      rw [h8, h5]
      simp [or_assoc]

/-! ## Data -/

theorem readData_kind {r r' : Reader} {d : Data} {rf : Instr.Features}
    (h : readData rf r = .ok (d, r')) : ∃ x, DataSays rf d x := by
  obtain ⟨st, r1, h1, h⟩ := Reader.bind_ok.mp h
  obtain ⟨fl, r2, h2, h⟩ := Reader.bind_ok.mp h
  obtain ⟨k, r3, h3, h⟩ := Reader.bind_ok.mp h
  obtain ⟨_, r4, h4, h⟩ := Reader.bind_ok.mp h
  cases h
  unfold readDataKind at h3
  split at h3
  · cases h3
    exact ⟨none, trivial⟩
  · split at h3
    · obtain ⟨i, r5, h5, h3⟩ := Reader.bind_ok.mp h3
      obtain ⟨e, r6, h6, h3⟩ := Reader.bind_ok.mp h3
      cases h3
      obtain ⟨os, ho⟩ := constOps_of h6
      exact ⟨some (i, os), rfl, ho⟩
    · cases h3

theorem data_mono {C C' : Ctx} (h : Ext C C') (hm : C.mems <+: C'.mems)
    {d : Option (BitVec 32 × List Operator)} (hd : DataOk C d) : DataOk C' d := by
  cases d with
  | none => trivial
  | some d =>
    obtain ⟨b, h1, h2⟩ := hd
    exact ⟨b, prefix_get hm h1, ConstTy.mono h h2⟩

theorem addrTy_num (b : Bool) : NumOrVec (addrTy b) := by
  cases b <;> trivial

theorem addData_ok (hcd : f.customDescriptors = false) {s s' : ModuleState} (hh : Hist f T s.m)
    {d : Data} {x : Option (BitVec 32 × List Operator)} (hx : DataSays f.reader.toFeatures d x)
    (h : addDataSegment f bs T s d = .ok s') : DataOk (ctxOf (listOf T) s'.m) x ∧
      Grows s s' (fun i => ∃ j os, x = some (j, os) ∧ Refs os i) ∧
      ∀ i, ¬ ∃ j os, x = some (j, os) ∧ Refs os i := by
  unfold addDataSegment at h
  unfold DataSays at hx
  split at h
  · next hk =>
    rw [hk] at hx
    cases x with
    | some => exact hx.elim
    | none =>
      obtain ⟨_, h1, h⟩ := bind_ok h
      cases h
      exact ⟨trivial, .rfl' (by simp), by simp⟩
  · next i e hk =>
    rw [hk] at hx
    cases x with
    | none => exact hx.elim
    | some x =>
      obtain ⟨j, os⟩ := x
      obtain ⟨rfl, ho⟩ := hx
      obtain ⟨b, h1, h⟩ := bind_ok h
      rw [indexType_eq] at h
      obtain ⟨h2, h3⟩ := const_grows hcd hh ho h
      have hno := ConstTy.no_refFunc h2 (addrTy_num b)
      refine ⟨⟨b, ?_, h2⟩, ?_, ?_⟩
      · rw [h3.eq]
        exact orErr_ok h1
      · refine ⟨h3.eq, fun i => ?_⟩
        rw [h3.refs]
        simp
      · rintro i ⟨j', os', he, hr⟩
        cases he
        exact hno i hr

theorem datas_ok (hcd : f.customDescriptors = false) {ds : List Data}
    {xs : List (Option (BitVec 32 × List Operator))}
    (hx : List.Forall₂ (DataSays f.reader.toFeatures) ds xs) : ∀ {s s' : ModuleState},
    Hist f T s.m → fold (addDataSegment f bs T) ds s = .ok s' →
    (∀ d ∈ xs, DataOk (ctxOf (listOf T) s'.m) d) ∧
      Grows s s' (fun i => ∃ d ∈ xs, ∃ j os, d = some (j, os) ∧ Refs os i) ∧
      ∀ i, ¬ ∃ d ∈ xs, ∃ j os, d = some (j, os) ∧ Refs os i := by
  induction hx with
  | nil =>
    intro s s' hh h
    cases h
    exact ⟨nofun, .rfl' (by simp), by simp⟩
  | @cons d x ds xs h1 _ ih =>
    intro s s' hh h
    obtain ⟨s1, h2, h3⟩ := fold_cons h
    obtain ⟨h4, h5, h6⟩ := addData_ok hcd hh h1 h2
    obtain ⟨h7, h8, h9⟩ := ih (h5.hist hh) h3
    refine ⟨?_, h5.trans h8 (fun i => ?_), ?_⟩
    rotate_left
    · rw [List.exists_mem_cons_iff]
    rotate_right
    · intro y hy
      rcases List.mem_cons.1 hy with rfl | hy
      · refine data_mono (h8.ext _) ?_ h4
        rw [h8.eq]
        exact List.prefix_refl _
      · exact h7 y hy
    · rintro i ⟨y, hy, h⟩
      rcases List.mem_cons.1 hy with rfl | hy
      · exact h6 i h
      · exact h9 i ⟨y, hy, h⟩

end Verif.Valid
