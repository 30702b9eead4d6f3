import Verif.Valid.AllLoops
import Verif.Valid.AllRun
import Verif.Valid.Final
/-! # Valid modules are accepted -/
namespace Verif.Valid
open Verif.Reader Verif.Items Verif.Parser
open Spec
open Verif.Op.Typing Verif.Op.View
open Verif.Op (TableTy GlobalTy Resources)
open Verif.Std (BSearch)
open Verif.TypeList (TypeList)
open Verif.TypeList.Spec (SubT RefSub)
open Verif.Instr (Operator)
open Verif.Types (RefType ValType HeapType)

variable {f : Feats} {bs : BSearch} {T : TypeList} {C : Ctx} {p : Pos} {s s' : ModuleState}
  {tr : List Event}

/-! ## Sections -/

theorem sectionOf_go {α : Type} {item : R α} {sec : SectionLimited} {start : ModuleState → X Unit}
    {g : ModuleState → α → X ModuleState} (h1 : start s = .ok ())
    (h2 : eachItem item g sec s = .ok s') :
    sectionOf ⟨T, .module, some s⟩ item sec start g = .ok ⟨T, .module, some s'⟩ := by
  show (start s >>= fun _ => eachItem item g sec s >>= fun s =>
    pure (⟨T, .module, some s⟩ : Validator)) = _
  rw [h1]
  show (eachItem item g sec s >>= fun s => pure (⟨T, .module, some s⟩ : Validator)) = _
  rw [h2]
  rfl

theorem ran_item {α : Type} {id : UInt8} (hid : id ≠ 8 ∧ id ≠ 12 ∧ id ≠ 10) {item : R α} {xs : List α}
    (hh : Holds tr id item xs) {start : SectionLimited → ModuleState → X Unit}
    {g : ModuleState → α → X ModuleState} (hf : fold g xs s = .ok s')
    (hs : ∀ sec, sectionAt tr id = some sec → sec.count.toNat = xs.length → start sec s = .ok ())
    (he : ∀ sec, itemSection f bs ⟨T, .module, some s⟩ id sec =
      sectionOf ⟨T, .module, some s⟩ item sec (start sec) g) :
    Ran f bs tr id ⟨T, .module, some s⟩ ⟨T, .module, some s'⟩ [] := by
  unfold Ran
  rw [if_neg hid.1, if_neg hid.2.1, if_neg hid.2.2]
  refine ⟨rfl, ?_⟩
  unfold Holds at hh
  cases hsec : sectionAt tr id with
  | none =>
    rw [hsec] at hh
    subst hh
    cases pure_ok hf
    rfl
  | some sec =>
    rw [hsec] at hh
    show itemSection f bs _ id sec = _
    rw [he]
    exact sectionOf_go (hs sec hsec (collect_length hh).symm) (eachItem_of hh hf)

theorem max_mut {a b c : Nat} (h : a + b ≤ c) (hm : s.assertMut = .ok ()) :
    (do checkMax a b c; s.assertMut : X Unit) = .ok () := by
  show (checkMax a b c >>= fun _ => s.assertMut) = _
  rw [checkMax_go h]
  exact hm

/-! ## The code section -/

theorem At.entries (h : At f T C p s) (hf : Full C p) : ∀ {rs : List Reader},
    (∀ r ∈ rs, r.bytesRemaining ≤ 7654321) →
    p.code.getD p.imported + rs.length ≤ C.funcs.length →
    ∃ s' p' fns, codeEntries ⟨T, .module, some s⟩ rs = .ok (⟨T, .module, some s'⟩, fns) ∧
      At f T C p' s' ∧ Full C p' := by
  intro rs
  induction rs generalizing p s with
  | nil => intro _ _; exact ⟨s, p, [], rfl, h, hf⟩
  | cons r rs ih =>
    intro hr hl
    rw [List.length_cons] at hl
    have hi : s.codeIndex.getD s.m.numImportedFunctions = p.code.getD p.imported := by
      rw [h.code, h.imported]
    obtain ⟨ty, hty⟩ := lt_at (show p.code.getD p.imported < C.funcs.length by omega)
    have h1 : At f T C { p with owned := false, code := some (p.code.getD p.imported + 1) }
        { s with owned := false, codeIndex := some (p.code.getD p.imported + 1) } :=
      { h with owned := rfl, code := rfl }
    obtain ⟨s', p', fns, h2, h3, h4⟩ := ih h1 ⟨hf.1, hf.2, hf.3, hf.4, hf.5⟩
      (fun r h => hr r (List.mem_cons_of_mem _ h)) (by
        show p.code.getD p.imported + 1 + rs.length ≤ _
        omega)
    have h5 : codeSectionEntry ⟨T, .module, some s⟩ r =
        .ok (⟨T, .module, some { s with
          owned := false, codeIndex := some (p.code.getD p.imported + 1) }⟩,
          ⟨ty, s.m, s.snapshot⟩) := by
      show (checkMax 0 r.bytesRemaining 7654321 >>= fun _ => nextCode s >>= _) = _
      rw [checkMax_go (by have := hr r (List.mem_cons_self ..); omega)]
      show (nextCode s >>= _) = _
      have : nextCode s =
          .ok (ty, { s with codeIndex := some (p.code.getD p.imported + 1) }) := by
        show (orPanic s.m.functions[s.codeIndex.getD s.m.numImportedFunctions]? >>= fun ty =>
          pure (ty, { s with
            codeIndex := some (s.codeIndex.getD s.m.numImportedFunctions + 1) })) = _
        rw [hi, h.full_func hf, hty]
        rfl
      rw [this]
      rfl
    refine ⟨s', p', (⟨ty, s.m, s.snapshot⟩, r) :: fns, ?_, h3, h4⟩
    show (codeSectionEntry _ r >>= fun x => codeEntries x.1 rs >>= fun y =>
      pure (y.1, (x.2, r) :: y.2)) = _
    rw [h5]
    show (codeEntries _ rs >>= fun y => pure (y.1, (_, r) :: y.2)) = _
    rw [h2]
    rfl

/-! ## Bodies -/

theorem faithful_refs {R : Resources} {C C' : Ctx} (h : Faithful R C)
    (he : C' = { C with refs := C'.refs }) (hr : ∀ i, i ∈ C'.refs ↔ i ∈ C.refs) : Faithful R C' := by
  generalize C'.refs = rs at he hr
  subst he
  exact { h with refs := fun i => (h.refs i).trans (hr i).symm }

theorem ctxOk_refs {C C' : Ctx} (h : CtxOk C) (he : C' = { C with refs := C'.refs }) : CtxOk C' := by
  generalize C'.refs = rs at he
  subst he
  exact ⟨h.decls, h.types⟩

/-- The module is the one of the context. -/
theorem At.ctx (h : At f T C p s) (hf : Full C p) (he : C.elems.length ≤ p.elems)
    (hd : C.datas = (p.dataCount.map (·.toNat)).getD 0) :
    C = { ctxOf (listOf T) s.m with refs := C.refs } := by
  have h1 := h.same.types
  have h2 := h.same.defs
  have h3 := h.funcs
  have h4 := h.tables
  have h5 := h.mems
  have h6 := h.tags
  have h7 := h.globals
  have h8 := h.elems
  have h9 := h.dataCount
  rw [List.take_of_length_le hf.funcs] at h3
  rw [List.take_of_length_le hf.tables] at h4
  rw [List.take_of_length_le hf.mems] at h5
  rw [List.take_of_length_le hf.tags] at h6
  rw [List.take_of_length_le hf.globals] at h7
  rw [List.take_of_length_le he] at h8
  rw [← h9] at hd
  unfold ctxOf
  obtain ⟨a1, a2, a3, a4, a5, a6, a7, a8, a9, a10⟩ := C
  dsimp only at *
  rw [h1, h3, ← h4, h5, h6, ← h7, h8, hd, show a2 = fun i => (listOf T)[i]? from funext h2]
  rfl

theorem expand_length {ds : List (BitVec 32 × ValType)} {vs : List (BitVec 32 × V)}
    {R : ValType → V → Prop} (h : List.Forall₂ (fun d v => d.1 = v.1 ∧ R d.2 v.2) ds vs) :
    (Op.InitSpec.expand vs).length = (ds.map (·.1.toNat)).sum := by
  induction h with
  | nil => rfl
  | @cons d v ds vs h1 _ ih =>
    show (List.replicate v.1.toNat v.2 ++ Op.InitSpec.expand vs).length = d.1.toNat + _
    rw [List.length_append, List.length_replicate, ih, h1.1]
    rfl

theorem func_go (ha : AllFeats f) {m : Op.Module} (hf : Faithful (m.resources T (listOf T)) C)
    (hc : CtxOk C) {ty : BitVec 32} {r : Reader}
    {b : List (BitVec 32 × ValType) × List Operator} (hp : Op.Parsed f.reader.toFeatures r b.1 b.2)
    (hb : BodyOk C ty b)
    (hl : ∀ x ps rs, FuncAt C ty x ps rs → ps.length + (b.1.map (·.1.toNat)).sum ≤ 50000)
    (hn : (∀ d ∈ b.1, NoExactVal d.2) ∧ Plainly b.2) :
    validateFunc f bs ⟨ty, m, some T⟩ r = .ok () := by
  obtain ⟨x, ps, rs, vs, hx, hd, hv⟩ := hb
  have hlen := hl x ps rs hx
  have hE : (env f bs T m).f = fullFeatures := ha.ops
  obtain ⟨S0, S1, h0, h1⟩ := start_complete (E := env f bs T m) hf hc hE hx.1 hx.2 hd hn.1 (by
    rw [List.length_append, expand_length hd]; exact hlen)
  obtain ⟨S2, h2, -⟩ := complete_fn (E := env f bs T m) hf hc hE hx.1 hx.2 (by omega) h0 hd h1 hv
    (fun o ho => ⟨parsed_natural hp o ho, hn.2 o ho⟩)
  have h3 := (Op.validate_iff (Op.newFunc_kinds h0)).2 ⟨b.1, b.2, S1, hp, h1, h2⟩
  unfold validateFunc
  show (match Op.newFunc (env f bs T m) ty with
    | .error _ => (.error .panic : X Unit)
    | .ok S => (Op.validate (env f bs T m) f.reader.toFeatures r S).1) = _
  rw [h0]
  dsimp only
  rw [h3]

theorem funcs_go : ∀ {fns : List (FuncToValidate × Reader)},
    (∀ x ∈ fns, validateFunc f bs x.1 x.2 = .ok ()) → validateFuncs f bs fns = .ok ()
  | [], _ => rfl
  | (fn, b) :: fns, h => by
    show (validateFunc f bs fn b >>= fun _ => validateFuncs f bs fns) = _
    rw [h (fn, b) (List.mem_cons_self ..)]
    exact funcs_go fun x hx => h x (List.mem_cons_of_mem _ hx)

/-! ## The whole module -/

theorem stage_new : Stage f .default [] [] :=
  ⟨[], TypeList.Inv.init f.types, .nil, .nil⟩

/-- The type section. -/
theorem types_go (ha : AllFeats f) {M : Mod} {body} (hm : ModuleOk C body M) (hf : Fits f tr C M)
    (hs : Says f.reader tr M) :
    ∃ T s, Ran f bs tr 1 ⟨.default, .module, some .new⟩ ⟨T, .module, some s⟩ [] ∧
      At f T C (.imp C []) s ∧ s.imports = [] := by
  obtain ⟨gs, h1, h2⟩ := hs.types
  have ht0 : Typed f .default ModuleState.new.m.types [] := typed_new (s := .init) ⟨.nil, rfl⟩
  have hgc : f.types.gc = true := by rw [congrArg Op.Features.types ha.ops]; rfl
  obtain ⟨T, ts, h3, h4, h5⟩ := types_run (C := C) hgc (gs := []) hm.types hf.types h2 ht0 stage_new rfl
  rw [List.nil_append] at h4 h5
  obtain ⟨h6, h7⟩ := h5.done hm.types hf.types
  have hroom : T.coreTypes.length ≤ 2 ^ 20 := by
    obtain ⟨G, hi, hmo, hn⟩ := h5
    have : M.types.flatten.length ≤ 1000000 := hf.types.few
    have hl : ts.length = M.types.flatten.length := hmo.length
    have hle := hn.le
    rw [← listOf_length, listOf_of hi.toStatic.view, TypeList.flat_length]
    omega
  refine ⟨T, { ModuleState.new with m := { ModuleState.new.m with types := ts } }, ?_, ?_, rfl⟩
  · unfold Ran
    rw [if_neg (by decide), if_neg (by decide), if_neg (by decide)]
    refine ⟨rfl, ?_⟩
    unfold Holds at h1
    cases hsec : sectionAt tr 1 with
    | none =>
      rw [hsec] at h1
      subst h1
      cases pure_ok h3
      rfl
    | some sec =>
      rw [hsec] at h1
      have hc : sec.count.toNat = M.types.length := by
        rw [← collect_length h1, h2.length_eq]
      show (checkMax 0 sec.count.toNat 1000000 >>= fun _ =>
        eachItem Types.readRecGroup (addTypes f) sec (.default, .new) >>= fun x =>
          pure (⟨x.1, .module, some x.2⟩ : Validator)) = _
      rw [checkMax_go (by have := hf.groups; omega)]
      show (eachItem Types.readRecGroup (addTypes f) sec (.default, .new) >>= fun x =>
          pure (⟨x.1, .module, some x.2⟩ : Validator)) = _
      rw [eachItem_of h1 h3]
      rfl
  · exact {
      same := ⟨h4.hist (m := { ModuleState.new.m with types := ts }) hroom (by
        intro i hi; cases hi), h6.symm, h7⟩
      funcs := rfl
      tables := rfl
      mems := rfl
      tags := rfl
      globals := rfl
      elems := rfl
      size := rfl
      imported := rfl
      dataCount := rfl
      names := rfl
      refs := fun i => ⟨fun h => (nomatch h), False.elim⟩
      owned := rfl
      code := rfl
      snapshot := rfl }

theorem At.start (h : At f T C p s) (hf : Full C p) {M : Mod}
    {body} (hm : ModuleOk C body M) (hs : M.start = startAt tr) :
    Ran f bs tr 8 ⟨T, .module, some s⟩ ⟨T, .module, some s⟩ [] := by
  unfold Ran
  rw [if_pos rfl]
  refine ⟨rfl, ?_⟩
  rw [← hs]
  cases hst : M.start with
  | none => rfl
  | some i =>
    obtain ⟨t, x, h1, h2⟩ := hm.start i hst
    obtain ⟨id, -, -, h3⟩ := funcType_go h.same h2
    show (getFuncType T s.m i >>= fun x => need (x.1.isEmpty && x.2.isEmpty) >>= fun _ =>
      pure (⟨T, .module, some s⟩ : Validator)) = _
    have : getFuncType T s.m i = .ok ([], []) := by
      show (orErr s.m.functions[i.toNat]? >>= fun t => funcTypeAt T s.m t) = _
      rw [h.full_func hf, h1]
      exact h3
    rw [this]
    rfl

theorem At.dataCountSec (h : At f T C p s) (ho : p.owned = true) (hd : p.dataCount = none) {M : Mod}
    {body} (hm : ModuleOk C body M) (hf : Fits f tr C M) (hs : M.dataCount = dataCountAt tr) :
    ∃ s', Ran f bs tr 12 ⟨T, .module, some s⟩ ⟨T, .module, some s'⟩ [] ∧
      At f T C { p with dataCount := M.dataCount } s' := by
  have hr : ∀ V V', (match M.dataCount with
      | none => V' = V
      | some n => dataCountSection V n = .ok V') → Ran f bs tr 12 V V' [] := by
    intro V V' h
    unfold Ran
    rw [if_neg (by decide), if_pos rfl, ← hs]
    exact ⟨rfl, h⟩
  cases hn : M.dataCount with
  | none =>
    rw [hn] at hr
    exact ⟨s, hr _ _ rfl, { h with dataCount := h.dataCount.trans hd }⟩
  | some n =>
    have h1 := hm.dataCount.2 n hn
    have h2 := hf.datas
    rw [hn] at hr
    refine ⟨{ s with m := { s.m with dataCount := some n } }, hr _ _ ?_, { h with
      same := ⟨h.same.hist.of rfl h.same.hist.tags, h.same.types, h.same.defs⟩
      dataCount := rfl }⟩
    show (need (decide (n.toNat ≤ 100000)) >>= fun _ => s.assertMut >>= fun _ => _) = _
    rw [need_go (decide_eq_true (by omega))]
    show (s.assertMut >>= fun _ => _) = _
    rw [h.mut ho]
    rfl

theorem forall₂_len {α β : Type} {R : α → β → Prop} {l : List α} {l' : List β}
    (h : List.Forall₂ R l l') : l.length = l'.length := h.length_eq

theorem table_ref {M : Mod} {body} (hm : ModuleOk C body M) :
    ∀ tt ∈ C.tables, ∃ r, C.RefTy r tt.elem := by
  have h := hm.tables
  intro tt htt
  obtain ⟨k, hk⟩ := List.mem_iff_getElem?.1 htt
  obtain ⟨a, -, h1⟩ := forall₂_at h.flip hk
  exact ⟨_, h1.1⟩

theorem At.codeSec (h : At f T C p s) (ho : p.owned = true) (hf : Full C p) (hc : p.code = none)
    (hl : p.imported + (bodiesAt tr).length ≤ C.funcs.length)
    (hb : ∀ r ∈ bodiesAt tr, r.bytesRemaining ≤ 7654321)
    (hv : ∀ (j : Nat) ty r, s.m.functions[p.imported + j]? = some ty → (bodiesAt tr)[j]? = some r →
      validateFunc f bs ⟨ty, s.m, some T⟩ r = .ok ()) :
    ∃ s' p' fns, Ran f bs tr 10 ⟨T, .module, some s⟩ ⟨T, .module, some s'⟩ fns ∧
      At f T C p' s' ∧ Full C p' ∧ validateFuncs f bs fns = .ok () := by
  have hr : ∀ {V V' fns}, (if 10 ∈ sectionIds tr then
      ∃ V1, codeSectionStart V = .ok V1 ∧ codeEntries V1 (bodiesAt tr) = .ok (V', fns)
    else V' = V ∧ fns = []) → Ran f bs tr 10 V V' fns := by
    intro V V' fns h
    unfold Ran
    rw [if_neg (by decide), if_neg (by decide), if_pos rfl]
    exact h
  by_cases hin : 10 ∈ sectionIds tr
  · have h1 : At f T C { p with snapshot := some T } { s with snapshot := some T } :=
      { h with snapshot := rfl }
    obtain ⟨s', p', fns, h2, h3, h4⟩ := h1.entries ⟨hf.1, hf.2, hf.3, hf.4, hf.5⟩ hb (by
      show p.code.getD p.imported + _ ≤ _
      rw [hc]
      exact hl)
    obtain ⟨-, h5⟩ := entries_ok rfl h2
    refine ⟨s', p', fns, hr ?_, h3, h4, funcs_go ?_⟩
    · rw [if_pos hin]
      refine ⟨⟨T, .module, some { s with snapshot := some T }⟩, ?_, h2⟩
      show (s.assertMut >>= fun _ => _) = _
      rw [h.mut ho]
      rfl
    · intro x hx
      obtain ⟨j, hj⟩ := List.mem_iff_getElem?.1 hx
      obtain ⟨a1, a2, a3⟩ := h5.fn j x.1 x.2 hj
      have hfn : x.1 = ⟨x.1.ty, s.m, some T⟩ := by rw [← a2]; rw [show s.m = x.1.m from a1.symm]
      rw [hfn]
      refine hv j _ _ ?_ ?_
      · have : s.codeIndex.getD s.m.numImportedFunctions = p.imported := by
          rw [h.code, hc, h.imported]; rfl
        rw [← this]
        exact a3
      · rw [← h5.readers, List.getElem?_map, hj]
        rfl
  · exact ⟨s, p, [], hr (by rw [if_neg hin]; exact ⟨rfl, rfl⟩), h, hf, rfl⟩

theorem complete (ha : AllFeats f) {off : Nat} {data : List UInt8}
    (hsize : off + data.length ≤ u64Max) (hd : DriveAll (Parser.new off) data tr none)
    (hv : ∃ n num rg, tr.head? = some ⟨n, .version num .module rg⟩)
    (hk : ∀ e ∈ tr, ∀ id c r, e.payload ≠ .unknown id c r) {M : Mod} (hs : Says f.reader tr M)
    (hm : ModuleOk C (BodyOk C) M) (hf : Fits f tr C M) :
    ∃ V', validateAll f bs .new tr none = .ok V' := by
  have lF : C.funcs.length = (importedFuncs M.imports).length + M.funcs.length := by
    rw [hm.funcs, List.length_append]
  have lT : (importedTables M.imports).length + M.tables.length = C.tables.length := by
    have := forall₂_len hm.tables
    rwa [List.length_append, List.length_map] at this
  have lM : (importedMems M.imports).length + M.mems.length = C.mems.length := by
    have := forall₂_len hm.mems
    rwa [List.length_append] at this
  have lG : (importedTags M.imports).length + M.tags.length = C.tags.length := by
    have := forall₂_len hm.tags
    rwa [List.length_append] at this
  have lV : (importedGlobals M.imports).length + M.globals.length = C.globals.length := by
    have := forall₂_len hm.globals
    rwa [List.length_append, List.length_map] at this
  have bF := hf.funcs
  have bT := hf.tables
  have bM := hf.mems
  have bG := hf.tags
  have bV := hf.globals
  have xT : maxTables f = 100 := by
    unfold maxTables
    rw [if_pos (show f.referenceTypes = true by rw [ha.ops]; rfl)]
  have xM : maxMemories f = 100 := by unfold maxMemories; rw [if_pos ha.multiMemory]
  have fu : ∀ p : Pos, p.funcs = (importedFuncs M.imports).length + M.funcs.length →
      p.tables = (importedTables M.imports).length + M.tables.length →
      p.mems = (importedMems M.imports).length + M.mems.length →
      p.tags = (importedTags M.imports).length + M.tags.length →
      p.globals = (importedGlobals M.imports).length + M.globals.length → Full C p :=
    fun p h1 h2 h3 h4 h5 => ⟨by omega, by omega, by omega, by omega, by omega⟩
  -- types
  obtain ⟨T, s1, r1, a1, hi⟩ := types_go (bs := bs) ha hm hf hs
  -- imports
  obtain ⟨is, parts, i1, i2, i3⟩ := hs.imports
  obtain ⟨s2, f2, a2⟩ := At.importSec ha hm hf i2 (pre := []) i3 a1
  have r2 : Ran f bs tr 2 ⟨T, .module, some s1⟩ ⟨T, .module, some s2⟩ [] :=
    ran_item (by decide) i1 (start := fun sec s => do
      checkMax s.imports.length sec.count.toNat 1000000; s.assertMut) f2
      (fun sec h1 _ => max_mut (by rw [hi]; have := hf.imports sec h1; simpa using this) (a1.mut rfl))
      (fun _ => rfl)
  -- functions
  obtain ⟨s3, f3, a3⟩ := a2.funcSec rfl hm.funcs rfl hm.funcTypes
  have r3 : Ran f bs tr 3 ⟨T, .module, some s2⟩ ⟨T, .module, some s3⟩ [] :=
    ran_item (by decide) hs.funcs (start := fun sec s => do
      checkMax s.m.functions.length sec.count.toNat 1000000; s.assertMut) f3
      (fun sec _ h1 => max_mut (by
        have : s2.m.functions.length ≤ (importedFuncs M.imports).length := by rw [a2.funcs]; exact List.length_take_le ..
        omega) (a2.mut rfl))
      (fun _ => rfl)
  -- tables
  obtain ⟨ts, t1, t2⟩ := hs.tables
  obtain ⟨s4, f4, a4⟩ := a3.tableSec (bs := bs) ha rfl (Nat.le_of_eq lF) t2 rfl hm.tables hm.tableInits
    hf.plainTables
  have r4 : Ran f bs tr 4 ⟨T, .module, some s3⟩ ⟨T, .module, some s4⟩ [] :=
    ran_item (by decide) t1 (start := fun sec s => do
      checkMax s.m.tables.length sec.count.toNat (maxTables f); s.assertMut) f4
      (fun sec _ h1 => max_mut (by
        have : s3.m.tables.length ≤ (importedTables M.imports).length := by
          rw [← List.length_map (f := toTableT), a3.tables]; exact List.length_take_le ..
        have h3 := forall₂_len t2
        omega) (a3.mut rfl))
      (fun _ => rfl)
  -- memories
  obtain ⟨s5, f5, a5⟩ := a4.memSec ha rfl hm.mems rfl
  have r5 : Ran f bs tr 5 ⟨T, .module, some s4⟩ ⟨T, .module, some s5⟩ [] :=
    ran_item (by decide) hs.mems (start := fun sec s => do
      checkMax s.m.memories.length sec.count.toNat (maxMemories f); s.assertMut) f5
      (fun sec _ h1 => max_mut (by
        have : s4.m.memories.length ≤ (importedMems M.imports).length := by rw [a4.mems]; exact List.length_take_le ..
        omega) (a4.mut rfl))
      (fun _ => rfl)
  -- tags
  obtain ⟨s6, f6, a6⟩ := a5.tagSec ha rfl hm.tags rfl
  have r6 : Ran f bs tr 13 ⟨T, .module, some s5⟩ ⟨T, .module, some s6⟩ [] :=
    ran_item (by decide) hs.tags (start := fun sec s => do
      checkMax s.m.tags.length sec.count.toNat 1000000; s.assertMut) f6
      (fun sec _ h1 => max_mut (by
        have : s5.m.tags.length ≤ (importedTags M.imports).length := by
          rw [← List.length_map (f := tagType (listOf T)), a5.tags]; exact List.length_take_le ..
        omega) (a5.mut rfl))
      (fun sec => by
        show (need f.exceptions >>= fun _ => _) = _
        rw [need_go (show f.exceptions = true by rw [ha.ops]; rfl)]
        rfl)
  -- globals
  obtain ⟨gs, g1, g2⟩ := hs.globals
  obtain ⟨s7, f7, a7⟩ := a6.globalSec (bs := bs) ha rfl (Nat.le_of_eq lF) g2 rfl hm.globals
    hm.globalInits hf.plainGlobals
  have r7 : Ran f bs tr 6 ⟨T, .module, some s6⟩ ⟨T, .module, some s7⟩ [] :=
    ran_item (by decide) g1 (start := fun sec s => do
      checkMax s.m.globals.length sec.count.toNat 1000000; s.assertMut) f7
      (fun sec _ h1 => max_mut (by
        have : s6.m.globals.length ≤ (importedGlobals M.imports).length := by
          rw [← List.length_map (f := toGlobalT), a6.globals]; exact List.length_take_le ..
        have h3 := forall₂_len g2
        omega) (a6.mut rfl))
      (fun _ => rfl)
  -- exports
  obtain ⟨s8, f8, a8⟩ := a7.exportSec ha rfl
    (fu _ rfl rfl rfl rfl rfl) hm.exports hm.funcTypes rfl hm.exportNames hf.size
  have r8 : Ran f bs tr 7 ⟨T, .module, some s7⟩ ⟨T, .module, some s8⟩ [] :=
    ran_item (by decide) hs.exports (start := fun sec s => do
      checkMax s.exports.length sec.count.toNat 1000000; s.assertMut) f8
      (fun sec _ h1 => max_mut (by
        rw [a7.names]
        have := hf.exports
        show 0 + _ ≤ _
        omega) (a7.mut rfl))
      (fun _ => rfl)
  -- start
  have r9 : Ran f bs tr 8 ⟨T, .module, some s8⟩ ⟨T, .module, some s8⟩ [] :=
    a8.start (fu _ rfl rfl rfl rfl rfl) hm hs.start
  -- elements
  obtain ⟨es, e1, e2⟩ := hs.elems
  obtain ⟨s9, f9, a9⟩ := a8.elemSec (bs := bs) ha rfl
    (fu _ rfl rfl rfl rfl rfl) rfl e2 hm.elems hf.plainElems hf.items hm.funcTypes (table_ref hm)
  have r10 : Ran f bs tr 9 ⟨T, .module, some s8⟩ ⟨T, .module, some s9⟩ [] :=
    ran_item (by decide) e1 (start := fun sec s => do
      checkMax s.m.elementTypes.length sec.count.toNat 100000; s.assertMut) f9
      (fun sec _ h1 => max_mut (by
        rw [a8.elems]
        have h3 := forall₂_len e2
        have h4 := hf.elems
        show (List.take 0 C.elems).length + _ ≤ _
        rw [List.take_zero, List.length_nil]
        omega) (a8.mut rfl))
      (fun _ => rfl)
  -- the count of data segments
  obtain ⟨s10, r11, a10⟩ := a9.dataCountSec (bs := bs) rfl rfl hm hf hs.dataCount
  -- code
  have hC := a10.ctx (fu _ rfl rfl rfl rfl rfl) (Nat.le_of_eq (forall₂_len hm.elems).symm) hm.dataCount.1
  have hfa := faithful_refs a10.same.hist.faithful hC fun i => by
    rw [hm.refs i]
    refine Iff.trans ?_ (a10.refs i).symm
    have hno : ¬ ∃ d ∈ M.datas, ∃ j os, d = some (j, os) ∧ Refs os i := by
      rintro ⟨d, h1, j, os, h2, h3⟩
      exact data_refs (hm.datas d h1) h2 i h3
    unfold Mentions
    show _ ↔ ((((False ∨ _) ∨ _) ∨ _) ∨ _)
    rw [or_iff_left hno]
    simp only [false_or, or_assoc]
  have hco := ctxOk_refs a10.same.hist.ctxOk hC
  have lB : (bodiesAt tr).length = M.funcs.length := by
    rw [forall₂_len hs.bodies, forall₂_len hm.bodies]
  obtain ⟨s11, p11, fns, r12, a11, hfull', hvf⟩ := a10.codeSec (bs := bs) (tr := tr) rfl
    (fu _ rfl rfl rfl rfl rfl) rfl (by
    show (importedFuncs M.imports).length + _ ≤ _
    omega) hf.bodies (fun j ty r h1 h2 => by
      obtain ⟨b, h3, h4⟩ := forall₂_at hs.bodies h2
      obtain ⟨ty', h5, h6⟩ := forall₂_at hm.bodies.flip h3
      obtain ⟨b', h7, h8⟩ := forall₂_at hf.locals h5
      rw [h3] at h7
      cases h7
      have h9 : C.funcs[(importedFuncs M.imports).length + j]? = some ty := by
        rw [← a10.full_func (fu _ rfl rfl rfl rfl rfl)]
        exact h1
      rw [hm.funcs, List.getElem?_append_right (Nat.le_add_right ..), Nat.add_sub_cancel_left,
        h5] at h9
      cases h9
      exact func_go ha hfa hco h4 h6 h8 (hf.plainBodies b (List.mem_of_getElem? h3)))
  -- data
  obtain ⟨ds, d1, d2⟩ := hs.datas
  obtain ⟨s12, f12, a12⟩ := a11.dataSec (bs := bs) ha hfull' d2 hm.datas hf.plainDatas
  have r13 : Ran f bs tr 11 ⟨T, .module, some s11⟩ ⟨T, .module, some s12⟩ [] :=
    ran_item (by decide) d1 (start := fun sec _ => checkMax 0 sec.count.toNat 100000) f12
      (fun sec _ h1 => checkMax_go (by
        have h3 := forall₂_len d2
        have h4 := hf.datas
        omega))
      (fun _ => rfl)
  have hrun : Runs f bs tr moduleOrder ⟨.default, .module, some .new⟩ ⟨T, .module, some s12⟩ fns := by
    have := Runs.cons r1 <| .cons r2 <| .cons r3 <| .cons r4 <| .cons r5 <| .cons r6 <| .cons r7 <|
      .cons r8 <| .cons r9 <| .cons r10 <| .cons r11 <| .cons r12 <| .cons r13 .nil
    simp only [List.nil_append, List.append_nil] at this
    exact this
  -- the run
  obtain ⟨n, num, enc, rg, tr', rfl, hg⟩ := Remod.drive_module hsize hd
  obtain ⟨n', num', rg', hv⟩ := hv
  cases hv
  obtain ⟨rfl, hgr⟩ := hg rfl
  have hnc : ∀ ev ∈ (⟨n, .version 1 .module rg⟩ :: tr' : List Event),
      ¬ IsComponent ev.payload := by
    rw [List.forall_mem_cons]
    exact ⟨fun ⟨_, _, hh⟩ => (by cases hh), Remod.groups_module hgr⟩
  have hord : (sectionIds tr').Sublist moduleOrder :=
    drive_order hd rfl rfl rfl (Nat.le_refl _) rfl hnc
  have hp := payloads_of hgr (fun e h => hk e (List.mem_cons_of_mem _ h)) hord (by decide)
    (hrun.strip (pre := [⟨n, .version 1 .module rg⟩]) (fun _ _ => List.not_mem_nil) fun _ => rfl)
    (V' := ⟨T, .ended, none⟩) rfl
  refine ⟨⟨T, .ended, none⟩, ?_⟩
  show (payloads f bs .new (⟨n, .version 1 .module rg⟩ :: tr') >>= fun x =>
    validateFuncs f bs x.2 >>= fun _ => if x.1.state = .ended then pure x.1 else .error .panic) = _
  rw [payloads_cons (V1 := ⟨.default, .module, some .new⟩) rfl hp]
  show (validateFuncs f bs fns >>= fun _ => _) = _
  rw [hvf]
  rfl

end Verif.Valid
