import Verif.Valid.TypesSec
import Verif.Valid.Along
/-! # All sections of a module -/
namespace Verif.Valid
open Verif.Reader Verif.Items Verif.Parser
open Spec
open Verif.Op.Typing Verif.Op.View
open Verif.Std (BSearch)
open Verif.TypeList (TypeList)
open Verif.TypeList.Spec (SubT)
open Verif.Instr (Operator)

variable {f : Feats} {bs : BSearch} {T : TypeList} {tr : List Event}

/-! ## Single sections -/

theorem sec_step {α : Type} {item : R α} {start : SectionLimited → ModuleState → X Unit}
    {g : ModuleState → α → X ModuleState} {id : UInt8} {s : ModuleState} {V' : Validator}
    {fns : List (FuncToValidate × Reader)} (hid : id ≠ 8 ∧ id ≠ 12 ∧ id ≠ 10)
    (hi : ∀ sec V', itemSection f bs ⟨T, .module, some s⟩ id sec = .ok V' →
      sectionOf ⟨T, .module, some s⟩ item sec (start sec) g = .ok V')
    (h : SecStep f bs tr id ⟨T, .module, some s⟩ V' fns) :
    fns = [] ∧ ∃ xs s', Holds tr id item xs ∧ fold g xs s = .ok s' ∧
      V' = ⟨T, .module, some s'⟩ := by
  unfold SecStep at h
  rw [if_neg hid.1, if_neg hid.2.1, if_neg hid.2.2] at h
  obtain ⟨h1, h2⟩ := h
  refine ⟨h1, ?_⟩
  unfold Holds
  cases hs : sectionAt tr id with
  | none =>
    rw [hs] at h2
    exact ⟨[], s, rfl, rfl, h2⟩
  | some sec =>
    rw [hs] at h2
    obtain ⟨s1, h3, h4⟩ := bind_ok (hi sec V' h2)
    cases h3
    obtain ⟨_, h5, h4⟩ := bind_ok h4
    obtain ⟨s', h6, h4⟩ := bind_ok h4
    cases pure_ok h4
    obtain ⟨xs, h7, h8⟩ := eachItem_ok h6
    exact ⟨xs, s', h7, h8, rfl⟩

theorem types_step {s : ModuleState} {V' : Validator} {fns : List (FuncToValidate × Reader)}
    (h : SecStep f bs tr 1 ⟨T, .module, some s⟩ V' fns) :
    fns = [] ∧ ∃ xs T' s', Holds tr 1 Types.readRecGroup xs ∧
      fold (addTypes f) xs (T, s) = .ok (T', s') ∧ V' = ⟨T', .module, some s'⟩ := by
  unfold SecStep at h
  rw [if_neg (by decide), if_neg (by decide), if_neg (by decide)] at h
  obtain ⟨h1, h2⟩ := h
  refine ⟨h1, ?_⟩
  unfold Holds
  cases hs : sectionAt tr 1 with
  | none =>
    rw [hs] at h2
    exact ⟨[], T, s, rfl, rfl, h2⟩
  | some sec =>
    rw [hs] at h2
    obtain ⟨s1, h3, h4⟩ := bind_ok (show typeSection f ⟨T, .module, some s⟩ sec = .ok V' from h2)
    cases h3
    obtain ⟨_, h5, h4⟩ := bind_ok h4
    obtain ⟨_, h6, h4⟩ := bind_ok h4
    obtain ⟨⟨T', s'⟩, h7, h4⟩ := bind_ok h4
    cases pure_ok h4
    obtain ⟨xs, h8, h9⟩ := eachItem_ok h7
    exact ⟨xs, T', s', h8, h9, rfl⟩

theorem tags_step {s : ModuleState} {V' : Validator} {fns : List (FuncToValidate × Reader)}
    (h : SecStep f bs tr 13 ⟨T, .module, some s⟩ V' fns) :
    fns = [] ∧ ∃ xs s', Holds tr 13 readTagType xs ∧ fold (addTag f T) xs s = .ok s' ∧
      V' = ⟨T, .module, some s'⟩ := by
  refine sec_step (start := fun sec s => do
    checkMax s.m.tags.length sec.count.toNat 1000000; s.assertMut) (by decide) ?_ h
  intro sec V' h
  obtain ⟨_, -, h⟩ := bind_ok (show (need f.exceptions >>= fun _ => _) = _ from h)
  exact h

theorem imports_step {s : ModuleState} {V' : Validator} {fns : List (FuncToValidate × Reader)}
    (h : SecStep f bs tr 2 ⟨T, .module, some s⟩ V' fns) :
    fns = [] ∧ ∃ (xs : List Imports) (s' : ModuleState), Holds tr 2 (readImports f.reader) xs ∧
      fold (addImports f T) xs s = .ok s' ∧ V' = ⟨T, .module, some s'⟩ :=
  sec_step (start := fun sec s => do
    checkMax s.imports.length sec.count.toNat 1000000; s.assertMut) (by decide) (fun _ _ h => h) h

theorem funcs_step {s : ModuleState} {V' : Validator} {fns : List (FuncToValidate × Reader)}
    (h : SecStep f bs tr 3 ⟨T, .module, some s⟩ V' fns) :
    fns = [] ∧ ∃ (xs : List (BitVec 32)) (s' : ModuleState), Holds tr 3 readVarU32 xs ∧
      fold (addFunction T) xs s = .ok s' ∧ V' = ⟨T, .module, some s'⟩ :=
  sec_step (start := fun sec s => do
    checkMax s.m.functions.length sec.count.toNat 1000000; s.assertMut) (by decide) (fun _ _ h => h) h

theorem tables_step {s : ModuleState} {V' : Validator} {fns : List (FuncToValidate × Reader)}
    (h : SecStep f bs tr 4 ⟨T, .module, some s⟩ V' fns) :
    fns = [] ∧ ∃ (xs : List Table) (s' : ModuleState), Holds tr 4 (readTable f.reader.toFeatures) xs ∧
      fold (addTable f bs T) xs s = .ok s' ∧ V' = ⟨T, .module, some s'⟩ :=
  sec_step (start := fun sec s => do
    checkMax s.m.tables.length sec.count.toNat (maxTables f); s.assertMut) (by decide) (fun _ _ h => h) h

theorem mems_step {s : ModuleState} {V' : Validator} {fns : List (FuncToValidate × Reader)}
    (h : SecStep f bs tr 5 ⟨T, .module, some s⟩ V' fns) :
    fns = [] ∧ ∃ (xs : List MemoryType) (s' : ModuleState), Holds tr 5 (readMemoryType f.reader.toFeatures) xs ∧
      fold (addMemory f) xs s = .ok s' ∧ V' = ⟨T, .module, some s'⟩ :=
  sec_step (start := fun sec s => do
    checkMax s.m.memories.length sec.count.toNat (maxMemories f); s.assertMut) (by decide) (fun _ _ h => h) h

theorem globals_step {s : ModuleState} {V' : Validator} {fns : List (FuncToValidate × Reader)}
    (h : SecStep f bs tr 6 ⟨T, .module, some s⟩ V' fns) :
    fns = [] ∧ ∃ (xs : List Global) (s' : ModuleState), Holds tr 6 (readGlobal f.reader.toFeatures) xs ∧
      fold (addGlobal f bs T) xs s = .ok s' ∧ V' = ⟨T, .module, some s'⟩ :=
  sec_step (start := fun sec s => do
    checkMax s.m.globals.length sec.count.toNat 1000000; s.assertMut) (by decide) (fun _ _ h => h) h

theorem exports_step {s : ModuleState} {V' : Validator} {fns : List (FuncToValidate × Reader)}
    (h : SecStep f bs tr 7 ⟨T, .module, some s⟩ V' fns) :
    fns = [] ∧ ∃ (xs : List Export) (s' : ModuleState), Holds tr 7 readExport xs ∧
      fold (addExport f T) xs s = .ok s' ∧ V' = ⟨T, .module, some s'⟩ :=
  sec_step (start := fun sec s => do
    checkMax s.exports.length sec.count.toNat 1000000; s.assertMut) (by decide) (fun _ _ h => h) h

theorem elems_step {s : ModuleState} {V' : Validator} {fns : List (FuncToValidate × Reader)}
    (h : SecStep f bs tr 9 ⟨T, .module, some s⟩ V' fns) :
    fns = [] ∧ ∃ (xs : List Element) (s' : ModuleState), Holds tr 9 (readElement f.reader.toFeatures) xs ∧
      fold (addElementSegment f bs T) xs s = .ok s' ∧ V' = ⟨T, .module, some s'⟩ :=
  sec_step (start := fun sec s => do
    checkMax s.m.elementTypes.length sec.count.toNat 100000; s.assertMut) (by decide) (fun _ _ h => h) h

theorem data_step {s : ModuleState} {V' : Validator} {fns : List (FuncToValidate × Reader)}
    (h : SecStep f bs tr 11 ⟨T, .module, some s⟩ V' fns) :
    fns = [] ∧ ∃ (xs : List Data) (s' : ModuleState), Holds tr 11 (readData f.reader.toFeatures) xs ∧
      fold (addDataSegment f bs T) xs s = .ok s' ∧ V' = ⟨T, .module, some s'⟩ :=
  sec_step (start := fun sec s => checkMax 0 sec.count.toNat 100000) (by decide) (fun _ _ h => h) h

theorem start_step {s : ModuleState} {V' : Validator} {fns : List (FuncToValidate × Reader)}
    (h : SecStep f bs tr 8 ⟨T, .module, some s⟩ V' fns) :
    fns = [] ∧ V' = ⟨T, .module, some s⟩ ∧ ∀ i, startAt tr = some i →
      ∃ t x, s.m.functions[i.toNat]? = some t ∧ FuncAt (tctx (listOf T) s.m.types) t x [] [] := by
  unfold SecStep at h
  rw [if_pos rfl] at h
  obtain ⟨h1, h2⟩ := h
  refine ⟨h1, ?_⟩
  cases hs : startAt tr with
  | none =>
    rw [hs] at h2
    exact ⟨h2, nofun⟩
  | some i =>
    rw [hs] at h2
    obtain ⟨s1, h3, h4⟩ := bind_ok h2
    cases h3
    obtain ⟨⟨ps, rs⟩, h5, h4⟩ := bind_ok h4
    obtain ⟨_, h6, h4⟩ := bind_ok h4
    cases pure_ok h4
    refine ⟨rfl, ?_⟩
    intro j hj
    cases hj
    obtain ⟨t, h7, h8⟩ := bind_ok h5
    obtain ⟨x, h9⟩ := funcTypeAt_ok h8
    have h6 := need_ok h6
    rw [Bool.and_eq_true, List.isEmpty_iff, List.isEmpty_iff] at h6
    obtain ⟨rfl, rfl⟩ := h6
    exact ⟨t, x, orErr_ok h7, h9⟩

theorem dataCount_step {s : ModuleState} {V' : Validator} {fns : List (FuncToValidate × Reader)}
    (h : SecStep f bs tr 12 ⟨T, .module, some s⟩ V' fns) :
    fns = [] ∧ ∃ s', V' = ⟨T, .module, some s'⟩ ∧ (s.m.dataCount = none →
      s' = { s with m := { s.m with dataCount := dataCountAt tr } }) := by
  unfold SecStep at h
  rw [if_neg (by decide), if_pos rfl] at h
  obtain ⟨h1, h2⟩ := h
  refine ⟨h1, ?_⟩
  cases hd : dataCountAt tr with
  | none =>
    rw [hd] at h2
    refine ⟨s, h2, fun hs => ?_⟩
    rw [← hs]
  | some n =>
    rw [hd] at h2
    obtain ⟨s1, h3, h4⟩ := bind_ok h2
    cases h3
    obtain ⟨_, -, h4⟩ := bind_ok h4
    obtain ⟨_, -, h4⟩ := bind_ok h4
    cases pure_ok h4
    exact ⟨_, rfl, fun _ => rfl⟩

/-- What is known of the functions to validate. -/
structure Fns (T : TypeList) (m : Op.Module) (rs : List Reader) (i0 : Nat)
    (fns : List (FuncToValidate × Reader)) : Prop where
  readers : fns.map (·.2) = rs
  fn : ∀ (j : Nat) fn b, fns[j]? = some (fn, b) → fn.m = m ∧ fn.types = some T ∧
    m.functions[i0 + j]? = some fn.ty

theorem entries_ok {rs : List Reader} : ∀ {s : ModuleState} {V' : Validator}
    {fns : List (FuncToValidate × Reader)}, s.snapshot = some T →
    codeEntries ⟨T, .module, some s⟩ rs = .ok (V', fns) →
    (∃ s', V' = ⟨T, .module, some s'⟩ ∧ s'.m = s.m) ∧
    Fns T s.m rs (s.codeIndex.getD s.m.numImportedFunctions) fns := by
  induction rs with
  | nil =>
    intro s V' fns hs h
    cases h
    exact ⟨⟨s, rfl, rfl⟩, rfl, by simp⟩
  | cons b rs ih =>
    intro s V' fns hs h
    obtain ⟨⟨V1, fn⟩, h1, h2⟩ := bind_ok h
    obtain ⟨⟨V2, fns'⟩, h3, h4⟩ := bind_ok h2
    cases pure_ok h4
    obtain ⟨s1, h5, h1⟩ := bind_ok h1
    cases h5
    obtain ⟨_, h6, h1⟩ := bind_ok h1
    obtain ⟨⟨ty, s2⟩, h7, h1⟩ := bind_ok h1
    cases pure_ok h1
    obtain ⟨ty', h8, h7⟩ := bind_ok h7
    cases pure_ok h7
    obtain ⟨⟨s', h9, h10⟩, h11, h12⟩ := ih (s := { s with
      codeIndex := some (s.codeIndex.getD s.m.numImportedFunctions + 1), owned := false }) hs h3
    refine ⟨⟨s', h9, h10⟩, by rw [List.map_cons, h11], ?_⟩
    intro j fn b' hj
    cases j with
    | zero =>
      cases hj
      exact ⟨rfl, hs, orPanic_ok h8⟩
    | succ j =>
      obtain ⟨h13, h14, h15⟩ := h12 j fn b' hj
      refine ⟨h13, h14, ?_⟩
      have h15 : s.m.functions[(s.codeIndex.getD s.m.numImportedFunctions + 1) + j]? = _ := h15
      rw [← h15]
      congr 1
      omega

theorem code_step {s : ModuleState} {V' : Validator} {fns : List (FuncToValidate × Reader)}
    (h : SecStep f bs tr 10 ⟨T, .module, some s⟩ V' fns) :
    (∃ s', V' = ⟨T, .module, some s'⟩ ∧ s'.m = s.m) ∧
    Fns T s.m (bodiesAt tr) (s.codeIndex.getD s.m.numImportedFunctions) fns := by
  unfold SecStep at h
  rw [if_neg (by decide), if_neg (by decide), if_pos rfl] at h
  rcases h with ⟨h1, rfl, rfl⟩ | ⟨V1, h1, h2⟩
  · exact ⟨⟨s, rfl, rfl⟩, by rw [h1]; rfl, by simp⟩
  · obtain ⟨s1, h3, h1⟩ := bind_ok h1
    cases h3
    obtain ⟨_, -, h1⟩ := bind_ok h1
    cases pure_ok h1
    exact entries_ok (s := { s with snapshot := some T }) rfl h2

theorem holds_mem {α : Type} {id : UInt8} {item : R α} {xs : List α} (h : Holds tr id item xs) :
    ∀ x ∈ xs, ∃ r r', item r = .ok (x, r') := by
  unfold Holds at h
  split at h
  · exact collect_mem h
  · subst h; exact nofun

theorem exists_rel {α β : Type} {R : α → β → Prop} : ∀ {xs : List α}, (∀ x ∈ xs, ∃ y, R x y) →
    ∃ ys, List.Forall₂ R xs ys
  | [], _ => ⟨[], .nil⟩
  | x :: xs, h => by
    obtain ⟨y, hy⟩ := h x (by simp)
    obtain ⟨ys, hys⟩ := exists_rel (xs := xs) fun x hx => h x (by simp [hx])
    exact ⟨y :: ys, .cons hy hys⟩

theorem along_cons {id : UInt8} {ids : List UInt8} {V V2 : Validator}
    {fns : List (FuncToValidate × Reader)} (h : Along f bs tr (id :: ids) V V2 fns) :
    ∃ V1 fns1 fns2, SecStep f bs tr id V V1 fns1 ∧ Along f bs tr ids V1 V2 fns2 ∧
      fns = fns1 ++ fns2 := by
  cases h with
  | cons h1 h2 => exact ⟨_, _, _, h1, h2, rfl⟩

end Verif.Valid
