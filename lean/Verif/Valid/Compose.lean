import Verif.Valid.Whole
/-! # The sections together -/
namespace Verif.Valid
open Verif.Reader Verif.Items Verif.Parser
open Spec
open Verif.Op.Typing Verif.Op.View
open Verif.Std (BSearch)
open Verif.TypeList (TypeList)
open Verif.TypeList.Spec (SubT)
open Verif.Instr (Operator)

variable {f : Feats} {bs : BSearch} {T : TypeList} {tr : List Event}

theorem tables_in {m : Op.Module} (hh : Hist f T m) {xs : List TableType} {ys : List Op.TableTy}
    (h : List.Forall₂ (TableOk (tctx (listOf T) m.types)) xs (ys.map toTableT)) :
    ∀ t ∈ ys, Op.inList (listOf T) t.elem.heap.refs = true := by
  induction ys generalizing xs with
  | nil => exact nofun
  | cons y ys ih =>
    cases h with
    | cons h1 h2 =>
      intro t ht
      rcases List.mem_cons.1 ht with rfl | ht
      · exact refTy_in hh h1.1
      · exact ih h2 t ht

theorem forall₂_self {α β : Type} {R : α → β → Prop} {g : α → β} {xs : List α}
    (h : ∀ x ∈ xs, R x (g x)) : List.Forall₂ R xs (xs.map g) := by
  induction xs with
  | nil => exact .nil
  | cons x xs ih => exact .cons (h x (by simp)) (ih fun y hy => h y (by simp [hy]))

theorem tags_rel {L : List (SubT Nat)} {ts : List Nat} {xs : List TagType} {ids : List Nat}
    (h : List.Forall₂ (TagId L ts) xs ids) :
    List.Forall₂ (TagOk (tctx L ts)) xs (ids.map (tagType L)) := by
  induction h with
  | nil => exact .nil
  | cons h1 _ ih => exact .cons h1.ok ih

/-- What all sections but the code section say. -/
theorem whole (hcd : f.customDescriptors = false) {T0 : TypeList} (hT0 : Typed f T0 [] [])
    {V1 : Validator} {fns : List (FuncToValidate × Reader)}
    (h : Along f bs tr moduleOrder ⟨T0, .module, some .new⟩ V1 fns)
    (hroom : V1.types.coreTypes.length ≤ 2 ^ 20)
    (hdc : ∀ n xs, dataCountAt tr = some n → Holds tr 11 (readData f.reader.toFeatures) xs →
      xs.length = n.toNat) :
    ∃ (m : Op.Module) (M : Mod), Typed f V1.types m.types M.types ∧
      (∀ x ∈ M.types.flatten, FewParams x) ∧ Hist f V1.types m ∧
      m.functions = importedFuncs M.imports ++ M.funcs ∧ Holds tr 3 readVarU32 M.funcs ∧
      Fns V1.types m (bodiesAt tr) (importedFuncs M.imports).length fns ∧
      ∀ bodies, (List.Forall₂ (fun r b => Op.Parsed f.reader.toFeatures r b.1 b.2) (bodiesAt tr) bodies →
        Says f.reader tr { M with bodies }) ∧
        ∀ body, List.Forall₂ body M.funcs bodies →
          ModuleOk (ctxOf (listOf V1.types) m) body { M with bodies } := by
  obtain ⟨_, _, _, a1, h, rfl⟩ := along_cons h
  obtain ⟨rfl, gs, T, s1, g1, b1, rfl⟩ := types_step a1
  obtain ⟨_, _, _, a2, h, rfl⟩ := along_cons h
  obtain ⟨rfl, is, s2, g2, b2, rfl⟩ := imports_step a2
  obtain ⟨_, _, _, a3, h, rfl⟩ := along_cons h
  obtain ⟨rfl, fs, s3, g3, b3, rfl⟩ := funcs_step a3
  obtain ⟨_, _, _, a4, h, rfl⟩ := along_cons h
  obtain ⟨rfl, tbs, s4, g4, b4, rfl⟩ := tables_step a4
  obtain ⟨_, _, _, a5, h, rfl⟩ := along_cons h
  obtain ⟨rfl, ms, s5, g5, b5, rfl⟩ := mems_step a5
  obtain ⟨_, _, _, a13, h, rfl⟩ := along_cons h
  obtain ⟨rfl, tgs, s13, g13, b13, rfl⟩ := tags_step a13
  obtain ⟨_, _, _, a6, h, rfl⟩ := along_cons h
  obtain ⟨rfl, gls, s6, g6, b6, rfl⟩ := globals_step a6
  obtain ⟨_, _, _, a7, h, rfl⟩ := along_cons h
  obtain ⟨rfl, exs, s7, g7, b7, rfl⟩ := exports_step a7
  obtain ⟨_, _, _, a8, h, rfl⟩ := along_cons h
  obtain ⟨rfl, rfl, hstart⟩ := start_step a8
  obtain ⟨_, _, _, a9, h, rfl⟩ := along_cons h
  obtain ⟨rfl, els, s9, g9, b9, rfl⟩ := elems_step a9
  obtain ⟨_, _, _, a12, h, rfl⟩ := along_cons h
  obtain ⟨rfl, s12, rfl, e12⟩ := dataCount_step a12
  obtain ⟨_, _, _, a10, h, rfl⟩ := along_cons h
  obtain ⟨⟨s10, rfl, e10⟩, hfns⟩ := code_step a10
  obtain ⟨_, _, _, a11, h, rfl⟩ := along_cons h
  obtain ⟨rfl, dts, s11, g11, b11, rfl⟩ := data_step a11
  cases h
  have hroom : T.coreTypes.length ≤ 2 ^ 20 := hroom
  -- types, imports
  obtain ⟨tys, ts, c1, e1, c2, c3⟩ := types_ok (holds_mem g1) hT0 b1
  rw [List.nil_append] at c2
  obtain ⟨ips, d1, d2⟩ := imports_ok b2
  have m1 := congrArg ModuleState.m e1
  have hist1 : Hist f T s1.m := Typed.hist (by rw [m1]; exact c2) hroom (by rw [m1]; exact nofun)
  have himp := addImport_fold hist1 d2
  have hist2 := himp.hist hist1
  obtain ⟨⟨itts, iids, igts, iex, _, _, e2, d3, d4, d5⟩, d6, d7⟩ := himp
  have m2 := congrArg ModuleState.m e2
  -- functions
  obtain ⟨e3, d8⟩ := funcs_ok b3
  have m3 := congrArg ModuleState.m e3
  have hist3 : Hist f T s3.m := by rw [m3]; exact hist2.of rfl hist2.tags
  -- tables
  obtain ⟨xtb, f4⟩ := exists_rel (R := TableSays f.reader.toFeatures) (xs := tbs) fun t ht => by
    obtain ⟨r, r', h⟩ := holds_mem g4 t ht
    exact readTable_init h
  obtain ⟨⟨tts, trs, e4, d9, d10⟩, d11⟩ := tables_ok hcd f4 hist3 b4
  have m4 := congrArg ModuleState.m e4
  have hist4 : Hist f T s4.m := by rw [m4]; exact hist3.of rfl hist3.tags
  -- memories, tags
  obtain ⟨e5, d12⟩ := mems_ok b5
  have m5 := congrArg ModuleState.m e5
  have hist5 : Hist f T s5.m := by rw [m5]; exact hist4.of rfl hist4.tags
  obtain ⟨ids, e13, d13⟩ := tags_ok b13
  have m13 := congrArg ModuleState.m e13
  have hist13 : Hist f T s13.m := by rw [m13]; exact hist5.of rfl (tagsOk_append hist5.tags d13 rfl)
  -- globals
  obtain ⟨xgl, f6⟩ := exists_rel (R := GlobalSays f.reader.toFeatures) (xs := gls) fun t ht => by
    obtain ⟨r, r', h⟩ := holds_mem g6 t ht
    exact readGlobal_init h
  obtain ⟨⟨gts, grs, e6, d14, d15⟩, d16⟩ := globals_ok hcd f6 hist13 b6
  have m6 := congrArg ModuleState.m e6
  have hist6 : Hist f T s6.m := by rw [m6]; exact hist13.of rfl hist13.tags
  -- exports
  obtain ⟨⟨xrs, xts, e7⟩, d17, d18, d19⟩ := exports_ok (f := f) (T := T) (fun x hx => by
    obtain ⟨r, r', h⟩ := holds_mem g7 x hx
    exact readExport_kind h) b7
  have m7 := congrArg ModuleState.m e7
  have hist7 : Hist f T s7.m := by rw [m7]; exact hist6.of rfl hist6.tags
  -- the types of tables
  have ty7 : s7.m.types = s1.m.types := by rw [m7, m6, m13, m5, m4, m3, m2]
  have ty3 : s3.m.types = s1.m.types := by rw [m3, m2]
  have htab : TablesIn T s7.m := by
    intro t ht
    have : s7.m.tables = itts ++ tts := by
      rw [m7, m6, m13, m5, m4, m3, m2, m1]
      rfl
    rw [this, List.mem_append] at ht
    rcases ht with ht | ht
    · exact tables_in hist1 d3 t ht
    · exact tables_in hist3 d9 t ht
  -- elements
  obtain ⟨xel, f9, ⟨etys, ers, e9, d20⟩, d21⟩ := elems_ok hcd (fun e he => by
    obtain ⟨r, r', h⟩ := holds_mem g9 e he
    exact readElement_mode h) hist7 htab b9
  have m9 := congrArg ModuleState.m e9
  have hist9 : Hist f T s9.m := by rw [m9]; exact hist7.of rfl hist7.tags
  -- data
  have dc9 : s9.m.dataCount = none := by rw [m9, m7, m6, m13, m5, m4, m3, m2, m1]; rfl
  have e12 := e12 dc9
  have m12 := congrArg ModuleState.m e12
  have hist12 : Hist f T s12.m := by rw [m12]; exact hist9.of rfl hist9.tags
  have hist10 : Hist f T s10.m := by rw [e10]; exact hist12
  obtain ⟨xdt, f11⟩ := exists_rel (R := DataSays f.reader.toFeatures) (xs := dts) fun t ht => by
    obtain ⟨r, r', h⟩ := holds_mem g11 t ht
    exact readData_kind h
  obtain ⟨d22, d23, d24⟩ := datas_ok hcd f11 hist10 b11
  -- all fields
  have t3 : s3.m.types = s12.m.types := by rw [m12, m9, m7, m6, m13, m5, m4, m3, m2]
  have t2 : s2.m.types = s12.m.types := by rw [m12, m9, m7, m6, m13, m5, m4, m3, m2]
  have t1 : s1.m.types = s12.m.types := by rw [m12, m9, m7, m6, m13, m5, m4, m3, m2]
  have t5 : s5.m.types = s12.m.types := by rw [m12, m9, m7, m6, m13, m5, m4, m3, m2]
  have t13 : s13.m.types = s12.m.types := by rw [m12, m9, m7, m6, m13, m5, m4, m3, m2]
  have t7 : s7.m.types = s12.m.types := by rw [m12, m9, m7, m6, m13, m5, m4, m3, m2]
  have tts12 : s12.m.types = ts := by rw [← t1, m1]
  have ffun : s12.m.functions = importedFuncs ips.flatten ++ fs := by
    rw [m12, m9, m7, m6, m13, m5, m4, m3, m2, m1]; rfl
  have ftab : s12.m.tables = itts ++ tts := by
    rw [m12, m9, m7, m6, m13, m5, m4, m3, m2, m1]; rfl
  have fmem : s12.m.memories = (importedMems ips.flatten).map (·.memory64) ++
      ms.map (·.memory64) := by
    rw [m12, m9, m7, m6, m13, m5, m4, m3, m2, m1]; rfl
  have ftag : s12.m.tags = iids ++ ids := by
    rw [m12, m9, m7, m6, m13, m5, m4, m3, m2, m1]; rfl
  have fglo : s12.m.globals = igts ++ gts := by
    rw [m12, m9, m7, m6, m13, m5, m4, m3, m2, m1]; rfl
  have felm : s12.m.elementTypes = etys := by
    rw [m12, m9, m7, m6, m13, m5, m4, m3, m2, m1]; rfl
  have fdc : s12.m.dataCount = dataCountAt tr := by rw [m12]
  have fnum : s12.m.numImportedFunctions = (importedFuncs ips.flatten).length := by
    rw [m12, m9, m7, m6, m13, m5, m4, m3, m2, m1]; exact Nat.zero_add _
  have fidx : s12.codeIndex = none := by
    rw [e12, e9, e7, e6, e13, e5, e4, e3, e2, e1]; rfl
  have fexp : s6.exports = [] := by
    rw [e6, e13, e5, e4, e3, e2, e1]; rfl
  -- references
  have r12 : s12.m.functionReferences = s9.m.functionReferences := by rw [m12]
  have r3 : s3.m.functionReferences = [] := by rw [m3, m2, m1]; rfl
  have r13 : s13.m.functionReferences = s4.m.functionReferences := by rw [m13, m5]
  have refs9 : ∀ i, i ∈ s12.m.functionReferences ↔ i ∈ s7.m.functionReferences ∨ _ :=
    fun i => by rw [r12]; exact d21 i
  have refs13 : ∀ i, i ∈ s6.m.functionReferences ↔ i ∈ s4.m.functionReferences ∨ _ :=
    fun i => by rw [← r13]; exact d16 i
  have refs4 : ∀ i, i ∈ s4.m.functionReferences ↔ ∃ t ∈ xtb, ∃ os, t.2 = some os ∧ Refs os i :=
    fun i => by rw [d11 i, r3]; simp
  have up7 : ∀ i ∈ s7.m.functionReferences, i ∈ s12.m.functionReferences :=
    fun i hi => (refs9 i).2 (.inl hi)
  have up6 : ∀ i ∈ s6.m.functionReferences, i ∈ s12.m.functionReferences :=
    fun i hi => up7 i ((d19 i).2 (.inl hi))
  have up4 : ∀ i ∈ s4.m.functionReferences, i ∈ s12.m.functionReferences :=
    fun i hi => up6 i ((refs13 i).2 (.inl hi))
  have ni : igts.length = (importedGlobals ips.flatten).length := by
    have := d5.length_eq
    rw [List.length_map] at this
    exact this.symm
  have nt : itts.length = (importedTables ips.flatten).length := by
    have := d3.length_eq
    rw [List.length_map] at this
    exact this.symm
  rw [fidx, fnum] at hfns
  rw [t1] at d3 d4 d5 d6
  rw [t2] at d8
  rw [t3] at d9
  rw [t5] at d13
  rw [t13] at d14
  refine ⟨s12.m,
    { types := tys, imports := ips.flatten, funcs := fs, tables := xtb, mems := ms, tags := tgs
      globals := xgl, exports := exs, start := startAt tr, elems := xel
      dataCount := dataCountAt tr, bodies := [], datas := xdt },
    by rw [tts12]; exact c2, c3, hist12, ffun, g3, ?_, fun bodies => ⟨fun hp => ?_, fun body hb => ?_⟩⟩
  · simpa using hfns
  · exact ⟨⟨gs, g1, c1⟩, ⟨is, ips, g2, d1, rfl⟩, g3, ⟨tbs, g4, f4⟩, g5, g13, ⟨gls, g6, f6⟩, g7, rfl,
      ⟨els, g9, f9⟩, rfl, hp, ⟨dts, g11, f11⟩⟩
  · constructor
    · exact Typed.typesOk (by rw [tts12]; exact c2)
    · exact ffun
    · intro i hi
      have hi : i ∈ s12.m.functions := hi
      rw [ffun, List.mem_append] at hi
      rcases hi with hi | hi
      · exact d6 i hi
      · exact d8 i hi
    · show List.Forall₂ _ _ (s12.m.tables.map toTableT)
      rw [ftab, List.map_append]
      exact List.rel_append d3 d9
    · show List.Forall₂ _ _ s12.m.memories
      rw [fmem]
      exact List.rel_append (forall₂_self d7) (forall₂_self d12)
    · show List.Forall₂ _ _ (s12.m.tags.map _)
      rw [ftag, List.map_append]
      exact List.rel_append (tags_rel d4) (tags_rel d13)
    · show List.Forall₂ _ _ (s12.m.globals.map toGlobalT)
      rw [fglo, List.map_append]
      exact List.rel_append d5 d14
    · show List.Forall₂ _ ((s12.m.tables.map toTableT).drop _) _
      rw [ftab, List.map_append, List.drop_append_of_le_length (by simp [nt]),
        List.drop_of_length_le (by simp [nt]), List.nil_append]
      refine d10.imp fun a b hab => tableInit_mono ?_ hab
      refine ⟨?_, rfl, ?_, ?_, up4⟩
      · show s12.m.types = s4.m.types
        rw [m12, m9, m7, m6, m13, m5]
      · show s4.m.functions <+: s12.m.functions
        rw [m12, m9, m7, m6, m13, m5]; exact List.prefix_refl _
      · show s4.m.globals.map toGlobalT <+: (s12.m.globals.map toGlobalT).take _
        rw [fglo, List.map_append, List.take_append_of_le_length (by simp [ni]),
          List.take_of_length_le (by simp [ni])]
        have : s4.m.globals = igts := by rw [m4, m3, m2, m1]; rfl
        rw [this]; exact List.prefix_refl _
    · intro k t os g hk hg
      have hg : (s12.m.globals.map toGlobalT)[(importedGlobals ips.flatten).length + k]? = some g := hg
      rw [fglo, List.map_append, List.getElem?_append_right (by simp [ni])] at hg
      rw [List.length_map, ni, Nat.add_sub_cancel_left, List.getElem?_map] at hg
      obtain ⟨gt, hgt, rfl⟩ := Option.map_eq_some_iff.1 hg
      refine ConstTy.mono ?_ (d15 k t os gt hk hgt)
      refine ⟨?_, rfl, ?_, ?_, ?_⟩
      · show s12.m.types = s13.m.types
        rw [t13]
      · show s13.m.functions <+: s12.m.functions
        rw [m12, m9, m7, m6]; exact List.prefix_refl _
      · show (s13.m.globals ++ gts.take k).map toGlobalT <+: (s12.m.globals.map toGlobalT).take _
        have : s13.m.globals = igts := by rw [m13, m5, m4, m3, m2, m1]; rfl
        rw [this, fglo, ← List.map_take, ← ni, List.take_length_add_append]
        exact List.prefix_refl _
      · have : grs = s6.m.functionReferences := by rw [m6]
        rw [this]
        exact up6
    · intro x hx
      have := d17 x hx
      unfold ExportOk at this ⊢
      have q1 : s6.m.functions = s12.m.functions := by rw [m12, m9, m7]
      have q2 : s6.m.tables = s12.m.tables := by rw [m12, m9, m7]
      have q3 : s6.m.memories = s12.m.memories := by rw [m12, m9, m7]
      have q4 : s6.m.globals = s12.m.globals := by rw [m12, m9, m7]
      have q5 : s6.m.tags = s12.m.tags := by rw [m12, m9, m7]
      simp only [ctxOf, q1, q2, q3, q4, q5] at this ⊢
      exact this
    · have := d18 (by rw [fexp]; exact List.nodup_nil)
      rw [e7, fexp] at this
      exact this
    · intro i hi
      obtain ⟨t, x, h1, h2⟩ := hstart i hi
      rw [t7] at h2
      refine ⟨t, x, ?_, h2⟩
      have q1 : s7.m.functions = s12.m.functions := by rw [m12, m9]
      show s12.m.functions[i.toNat]? = some t
      rw [← q1]
      exact h1
    · show List.Forall₂ _ _ s12.m.elementTypes
      rw [felm]
      refine d20.imp fun a b hab => ?_
      have hx : Ext (ctxOf (listOf T) s9.m) (ctxOf (listOf T) s12.m) := by
        rw [m12]
        exact ⟨rfl, rfl, List.prefix_refl _, List.prefix_refl _, fun _ h => h⟩
      refine ⟨elemMode_mono hx ?_ hab.1, elemItems_mono hx hab.2⟩
      rw [m12]
      exact List.prefix_refl _
    · refine ⟨?_, ?_⟩
      · show (s12.m.dataCount.map _).getD 0 = _
        rw [fdc]
      · intro n hn
        have := hdc n dts hn g11
        rw [← this]
        exact f11.length_eq.symm
    · intro d hd
      have hx : Ext (ctxOf (listOf T) s11.m) (ctxOf (listOf T) s12.m) := by
        have q := congrArg ModuleState.m d23.eq
        refine ⟨?_, rfl, ?_, ?_, ?_⟩
        · show s12.m.types = s11.m.types
          rw [q, e10]; rfl
        · show s11.m.functions <+: s12.m.functions
          rw [q, e10]; exact List.prefix_refl _
        · show s11.m.globals.map _ <+: s12.m.globals.map _
          rw [q, e10]; exact List.prefix_refl _
        · intro i hi
          have := (d23.refs i).1 hi
          rw [e10] at this
          exact this.resolve_right (d24 i)
      refine data_mono hx ?_ (d22 d hd)
      show s11.m.memories <+: s12.m.memories
      rw [congrArg ModuleState.m d23.eq, e10]
      exact List.prefix_refl _
    · exact hb
    · intro i
      show i ∈ s12.m.functionReferences ↔ _
      rw [refs9, d19, refs13, refs4]
      unfold Mentions
      have := d24 i
      constructor
      · rintro (((h | h) | h) | h)
        · exact .inl h
        · exact .inr (.inl h)
        · exact .inr (.inr (.inl h))
        · exact .inr (.inr (.inr (.inl h)))
      · rintro (h | h | h | h | h)
        · exact .inl (.inl (.inl h))
        · exact .inl (.inl (.inr h))
        · exact .inl (.inr h)
        · exact .inr h
        · exact absurd h this

end Verif.Valid
