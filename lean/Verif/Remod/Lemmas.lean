import Verif.Remod.Model
import Verif.Remod.Spec
import Verif.Reenc.Const
import Verif.Names.Lemmas
import Verif.Items.Codec2
/-! What is read of a section can be re-encoded, fits wasmparser's limits, and is read back
renamed. -/
namespace Verif.Remod
open Verif.Reader Verif.Items Verif.Items.Spec Verif.Reenc Verif.Reenc.Spec Verif.Types Spec

/-- `x` can be re-encoded, the result fits, and whatever corresponds to the result is a
counterpart of `x`. -/
def Sim (re : α → Option β) (Fits : β → Prop) (Is : γ → β → Prop) (Ren : α → γ → Prop) (x : α) :
    Prop := ∃ e, re x = some e ∧ Fits e ∧ ∀ y, Is y e → Ren x y

theorem sims {re : α → Option β} {Fits : β → Prop} {Is : γ → β → Prop} {Ren : α → γ → Prop} :
    ∀ {xs : List α}, (∀ x ∈ xs, Sim re Fits Is Ren x) →
    ∃ es, xs.mapM re = some es ∧ es.length = xs.length ∧ (∀ e ∈ es, Fits e) ∧
      ∀ ys, List.Forall₂ Is ys es → List.Forall₂ Ren xs ys
  | [], _ => ⟨[], rfl, rfl, by simp, fun ys h => by cases h; exact .nil⟩
  | x :: xs, h => by
    obtain ⟨e, h1, h2, h3⟩ := h x (List.mem_cons_self ..)
    obtain ⟨es, k1, k2, k3, k4⟩ := sims fun y hy => h y (List.mem_cons_of_mem _ hy)
    refine ⟨e :: es, by simp [List.mapM_cons, h1, k1], by simp [k2], ?_, ?_⟩
    · intro y hy
      rcases List.mem_cons.1 hy with rfl | hy
      · exact h2
      · exact k3 y hy
    · rintro _ (_ | ⟨p, ps⟩)
      exact .cons (h3 _ p) (k4 _ ps)

theorem collect_yields {item : R α} {P : α → Prop} (hy : Yields item P) {s : SectionLimited}
    {xs : List α} (h : s.collect item = .ok xs) : xs.length < 2 ^ 32 ∧ ∀ x ∈ xs, P x := by
  obtain ⟨r', h2, -⟩ := collectFrom_ok.1 h
  exact ⟨by rw [Names.readMany_length h2]; exact s.count.isLt, Names.readMany_yields hy h2⟩

theorem itemsOf_ok {item : R α} {s : SectionLimited} {xs : List α} :
    itemsOf item s = some xs ↔ s.collect item = .ok xs := by
  unfold itemsOf
  cases s.collect item <;> simp

variable {m : Maps} {f : Instr.Features}

/-! ### Constant expressions -/

theorem steps_fits {st st' : Instr.ControlStack} {bs : List UInt8} {is : List Instr.Enc.Instr}
    (h : Instr.Steps f st bs is st') : ∀ i ∈ is, Instr.Spec.Fits f i := by
  induction h with
  | nil => simp
  | cons k h1 h2 h3 h4 h5 h6 _ ih =>
    intro i hi
    rcases List.mem_cons.1 hi with rfl | hi
    · exact h4
    · exact ih i hi

theorem toks_eq {is : List Instr.Enc.Instr} {ops : List Instr.Operator}
    (h : List.Forall₂ Instr.Spec.Corr is ops) : ops.map Instr.Spec.tokOp = is.map Instr.Spec.tok := by
  induction h with
  | nil => rfl
  | cons p _ ih => rw [List.map_cons, List.map_cons, ih, Instr.corr_tok p]

theorem constFits_of {bs : List UInt8} {is : List Instr.Enc.Instr}
    (he : Instr.Enc.encodeSeq is = some bs) (h : ConstSteps f (bs ++ [0x0B]) is) :
    ConstFits f ⟨bs⟩ := by
  obtain ⟨ops, s, h1, h2, h3⟩ := ConstSteps.collect (c := ⟨⟨bs ++ [0x0B], 0, 0⟩⟩) h
  obtain ⟨b, h4, h5⟩ := Instr.collect_expr h1 h2
  obtain ⟨st, k1, k2, -⟩ := h
  refine ⟨is, he, fun i hi => steps_fits k1 i (List.mem_append_left _ hi), ?_, k2⟩
  rw [toks_eq h3, List.map_append] at h5
  have : List.map Instr.Spec.tok [Instr.Enc.Instr.end_] = [.end_] := rfl
  rw [this] at h5
  rw [List.append_cancel_right h5]
  exact h4

theorem yields_const (hm : MapsFit m f) : Yields (readConstExpr f)
    (Sim (constExpr m f) (ConstFits f) (ConstIs f) (ConstRenamed m f)) := by
  intro r c r' h
  obtain ⟨is, h1, -, -⟩ := readConst_steps h
  obtain ⟨bs, h2, h3⟩ := h1.rename hm
  refine ⟨⟨bs⟩, by rw [constExpr_eq h1, h2]; rfl, constFits_of h2 h3, ?_⟩
  rintro c' ⟨hr, -⟩
  refine constRenamed_of h1 ?_
  rw [hr]
  exact h3

/-! ### Types -/

theorem fits_storage (hm : MapsFit m f) {e : Types.Enc.StorageType} (h : e.Fits) :
    (e.rename m.type).Fits := by
  cases e with
  | val v => exact fits_val hm h
  | _ => exact True.intro

theorem fits_field (hm : MapsFit m f) {e : Types.Enc.FieldType} (h : e.elementType.Fits) :
    (e.rename m.type).elementType.Fits := fits_storage hm h

theorem fits_opt (hm : MapsFit m f) {o : Option (BitVec 32)} (h : OptFits o) :
    OptFits (o.map m.type) := by
  cases o with
  | none => exact h
  | some i =>
    have : i.toNat < 2 ^ 20 := by simpa [OptFits] using h
    simpa [OptFits] using hm.type i this

theorem fits_inner (hm : MapsFit m f) {e : Types.Enc.CompositeInnerType} (h : e.Fits) :
    (e.rename m.type).Fits := by
  have hv : ∀ vs : List Types.Enc.ValType, (∀ v ∈ vs, v.Fits) →
      ∀ v ∈ vs.map (·.rename m.type), v.Fits := by
    intro vs h v hv
    obtain ⟨w, hw, rfl⟩ := List.mem_map.1 hv
    exact fits_val hm (h w hw)
  cases e with
  | func t =>
    obtain ⟨h1, h2, h3, h4⟩ := h
    exact ⟨by simpa using h1, by simpa using h2, hv _ h3, hv _ h4⟩
  | array t => exact fits_field hm h
  | struct ts =>
    obtain ⟨h1, h2⟩ := h
    refine ⟨by simpa using h1, ?_⟩
    intro v hv
    obtain ⟨w, hw, rfl⟩ := List.mem_map.1 hv
    exact fits_field hm (h2 w hw)
  | cont i => exact hm.type i h

theorem fits_sub (hm : MapsFit m f) {e : Types.Enc.SubType} (h : e.Fits) :
    (e.rename m.type).Fits := by
  obtain ⟨h1, h2, h3, h4⟩ := h
  exact ⟨fits_opt hm h1, fits_opt hm h2, fits_opt hm h3, fits_inner hm h4⟩

theorem yields_group (hm : MapsFit m f) : Yields readRecGroup
    (Sim (recGroup m) TypeEntryFits TypeEntryIs (RecGroupRenamed m)) := by
  refine yields_recGroup.mono ?_
  rintro g (⟨o, t, e, rfl, h1, h2⟩ | ⟨ts, es, rfl, h1, h2, h3⟩)
  · refine ⟨.single (e.rename m.type), ?_, fits_sub hm h2, ?_⟩
    · simp only [recGroup, re_sub m.type h1]; rfl
    · intro y hy
      cases y with
      | implicit o' t' => exact ⟨e, h1, hy⟩
      | explicit => exact hy.elim
  · refine ⟨.group (es.map (·.rename m.type)), ?_, ⟨by simpa using h2, ?_⟩, ?_⟩
    · simp only [recGroup, mapM_forall₂ (P := SubType.Is) (fun a b => re_sub m.type) h1]; rfl
    · intro y hy
      obtain ⟨w, hw, rfl⟩ := List.mem_map.1 hy
      exact fits_sub hm (h3 w hw)
    · intro y hy
      cases y with
      | implicit => exact hy.elim
      | explicit ts' =>
        clear h2 h3
        replace hy : List.Forall₂ (fun (t : Nat × SubType) e => SubType.Is t.2 e) ts'
          (es.map (·.rename m.type)) := hy
        show List.Forall₂ (fun t t' => SubTypeRenamed m t.2 t'.2) ts ts'
        rw [List.forall₂_map_left_iff] at h1
        rw [List.forall₂_map_right_iff] at hy
        induction h1 generalizing ts' with
        | nil => cases hy; exact .nil
        | cons p _ ih =>
          rcases hy with _ | ⟨q, qs⟩
          exact .cons ⟨_, p, q⟩ (ih _ qs)

theorem sim_ref (hm : MapsFit m f) : Yields readRefType
    (Sim (Types.Reenc.refType m.type) RefFits RefIs (RefRenamed m)) := by
  refine yields_refType.mono ?_
  rintro t ⟨e, h⟩
  exact ⟨renameRef m e, re_ref m h, fits_ref hm (new_is h).2.2, fun y hy => ⟨e, h, hy⟩⟩

theorem sim_val (hm : MapsFit m f) : Yields readValType
    (Sim (Types.Reenc.valType m.type) (·.Fits) ValType.Is (ValRenamed m)) := by
  refine yields_valType.mono ?_
  rintro t ⟨e, h, hf⟩
  exact ⟨e.rename m.type, re_val m.type h, fits_val hm hf, fun y hy => ⟨e, h, hy⟩⟩

/-! ### Tables, memories, globals, tags -/

theorem yields_limit : Yields (readLimit f) (LimitFits f) := by
  unfold readLimit
  refine .ite (fun h => ?_) fun _ => ?_
  · exact (Yields.triv _).mono fun _ _ => .inl h
  · refine .bind' fun x => .pure (.inr ?_)
    have := x.isLt
    simp only [BitVec.toNat_setWidth]
    omega

theorem yields_opt {b : Bool} {r : R α} {P : α → Prop} (h : Yields r P) :
    Yields (readOpt b r) (fun o => ∀ x ∈ o, P x) := by
  unfold readOpt
  refine .ite (fun _ => ?_) fun _ => .pure nofun
  exact h.bind fun a ha => .pure fun x hx => by cases hx; exact ha

theorem sim_tableType (hm : MapsFit m f) : Yields (readTableType f)
    (Sim (tableType m) (TableTypeFits f) TableTypeIs (TableTypeRenamed m)) := by
  refine (sim_ref hm).bind ?_
  rintro t ⟨e, h1, h2, h3⟩
  refine .bind' fun _ => .bind' fun flags => .ite (fun _ => .fail) fun _ => ?_
  refine yields_limit.bind fun n hn => (yields_opt yields_limit).bind fun o ho => .pure ?_
  refine ⟨⟨e, _, n, o, _⟩, by simp only [tableType, h1]; rfl, ⟨h2, hn, ho⟩, ?_⟩
  rintro y ⟨k1, k2, k3, k4, k5⟩
  exact ⟨h3 _ k1, k2, k3, k4, k5⟩

theorem sim_tableInit (hm : MapsFit m f) (b : Bool) : Yields (readTableInit f b)
    (Sim (tableInit m f) (fun o => ∀ c ∈ o, ConstFits f c) (TableInitIs f)
      (TableInitRenamed m f)) := by
  unfold readTableInit
  refine .ite (fun _ => ?_) fun _ => .pure ⟨none, rfl, nofun, ?_⟩
  · refine (yields_const hm).bind ?_
    rintro c ⟨e, h1, h2, h3⟩
    refine .pure ⟨some e, by simp only [tableInit, h1]; rfl, ?_, ?_⟩
    · intro x hx; cases hx; exact h2
    · intro y hy
      cases y with
      | refNull => exact hy.elim
      | expr c' => exact h3 _ hy
  · intro y hy
    cases y with
    | refNull => exact True.intro
    | expr c' => exact hy.elim

theorem sim_table (hm : MapsFit m f) : Yields (readTable f)
    (Sim (table m f) (TableFits f) (TableIs f) (TableRenamed m f)) := by
  refine .bind' fun b => (sim_tableType hm).bind ?_
  rintro t ⟨e, h1, h2, h3⟩
  refine (sim_tableInit hm b).bind ?_
  rintro i ⟨o, k1, k2, k3⟩
  refine .pure ⟨⟨e, o⟩, by simp only [table, h1, k1]; rfl, ⟨h2, k2⟩, ?_⟩
  rintro y ⟨j1, j2⟩
  exact ⟨h3 _ j1, k3 _ j2⟩

theorem sim_memory : Yields (readMemoryType f)
    (Sim (fun t => some (memoryType t)) (MemoryTypeFits f) MemoryTypeIs (fun t t' => t' = t)) := by
  refine .bind' fun pos => .bind' fun flags => .ite (fun _ => .fail) fun _ => ?_
  refine yields_limit.bind fun n hn => (yields_opt yields_limit).bind fun o ho => ?_
  have hp : Yields (readPageSize pos) (fun p => p.toNat < 64) :=
    .bind' fun v => .ite (fun _ => .fail) fun h => .pure (by omega)
  refine (yields_opt hp).bind fun p hp => .pure ⟨_, rfl, ⟨hn, ho, hp⟩, ?_⟩
  rintro ⟨a, b, c, d, e⟩ ⟨h1, h2, h3, h4, h5⟩
  simp only [memoryType] at h1 h2 h3 h4 h5
  subst h1 h2 h3 h4 h5
  rfl

theorem sim_globalType (hm : MapsFit m f) : Yields readGlobalType
    (Sim (globalType m) (fun e => e.valType.Fits) GlobalTypeIs (GlobalTypeRenamed m)) := by
  refine (sim_val hm).bind ?_
  rintro t ⟨e, h1, h2, h3⟩
  refine .bind' fun _ => .bind' fun _ => .ite (fun _ => .fail) fun _ => .pure ?_
  refine ⟨⟨e, _, _⟩, by simp only [globalType, h1]; rfl, h2, ?_⟩
  rintro y ⟨k1, k2, k3⟩
  exact ⟨h3 _ k1, k2, k3⟩

theorem sim_global (hm : MapsFit m f) : Yields (readGlobal f)
    (Sim (global m f) (GlobalFits f) (GlobalIs f) (GlobalRenamed m f)) := by
  refine (sim_globalType hm).bind ?_
  rintro t ⟨e, h1, h2, h3⟩
  refine (yields_const hm).bind ?_
  rintro c ⟨x, k1, k2, k3⟩
  refine .pure ⟨⟨e, x⟩, by simp only [global, h1, k1]; rfl, ⟨h2, k2⟩, ?_⟩
  rintro y ⟨j1, j2⟩
  exact ⟨h3 _ j1, k3 _ j2⟩

/-! ### Imports and exports -/

theorem sim_entity (hm : MapsFit m f) : Yields (readTypeRef f)
    (Sim (entityType m) (EntityFits f) TypeRefIs (TypeRefRenamed m)) := by
  refine .bind' fun k => ?_
  cases k with
  | func =>
    refine .bind' fun i => .pure ⟨_, rfl, True.intro, fun y hy => ?_⟩
    cases y <;> first | exact hy.elim | exact hy
  | funcExact =>
    refine .bind' fun i => .pure ⟨_, rfl, True.intro, fun y hy => ?_⟩
    cases y <;> first | exact hy.elim | exact hy
  | table =>
    refine (sim_tableType hm).bind ?_
    rintro t ⟨e, h1, h2, h3⟩
    refine .pure ⟨.table e, by simp only [entityType, h1]; rfl, h2, fun y hy => ?_⟩
    cases y <;> first | exact hy.elim | exact h3 _ hy
  | memory =>
    refine sim_memory.bind ?_
    rintro t ⟨e, h1, h2, h3⟩
    cases h1
    refine .pure ⟨.memory _, rfl, h2, fun y hy => ?_⟩
    cases y <;> first | exact hy.elim | exact h3 _ hy
  | global =>
    refine (sim_globalType hm).bind ?_
    rintro t ⟨e, h1, h2, h3⟩
    refine .pure ⟨.global e, by simp only [entityType, h1]; rfl, h2, fun y hy => ?_⟩
    cases y <;> first | exact hy.elim | exact h3 _ hy
  | tag =>
    refine .bind' fun t => .pure ⟨.tag (tagType m t), rfl, True.intro, fun y hy => ?_⟩
    cases y <;> first | exact hy.elim | exact hy

theorem sim_string : Yields readString StrFits := fun _ _ _ h => Names.readString_ok h

theorem sim_importItem (hm : MapsFit m f) : Yields (readImportItem f)
    (Sim (importItem m) (fun e => StrFits e.name ∧ EntityFits f e.ty) ImportItemIs
      (fun i i' => i'.name = i.name ∧ TypeRefRenamed m i.ty i'.ty)) := by
  refine sim_string.bind fun n hn => (sim_entity hm).bind ?_
  rintro t ⟨e, h1, h2, h3⟩
  refine .pure ⟨⟨n, e⟩, by simp only [importItem, h1]; rfl, ⟨hn, h2⟩, ?_⟩
  rintro y ⟨j1, j2⟩
  exact ⟨j1, h3 _ j2⟩

theorem limited_ok {q r r' : Reader} {s : SectionLimited} (h : limited q r = .ok (s, r')) :
    SectionLimited.new q = .ok s := by
  unfold limited at h
  cases hq : SectionLimited.new q with
  | error e => rw [hq] at h; cases h
  | ok s' => rw [hq] at h; cases h; rfl

theorem eq_forall₂ {xs ys : List α} (h : ys = xs) : List.Forall₂ (fun x y => y = x) xs ys := by
  subst h
  induction ys with
  | nil => exact .nil
  | cons y ys ih => exact .cons rfl ih

theorem sim_imports {f : Feats} (hm : MapsFit m f.toFeatures) : Yields (readImports f)
    (fun x => ImportsReadable f.toFeatures x → Sim (imports m f.toFeatures) (ImportsFits f)
      (ImportsIs f.toFeatures) (ImportsRenamed m f.toFeatures) x) := by
  refine .bind' fun start => sim_string.bind fun mod hmod => sim_string.bind fun name hname => ?_
  refine .bind' fun d => .ite (fun _ => ?_) fun _ => .ite (fun _ => ?_) fun _ => ?_
  · refine .bind' fun _ => .ite (fun hc => ?_) fun _ => .fail
    refine .bind' fun _ => .bind' fun q => .bind' fun s => .pure ?_
    rintro ⟨xs, hx⟩
    obtain ⟨hl, h1⟩ := collect_yields (sim_importItem hm) hx
    obtain ⟨es, k1, k2, k3, k4⟩ := sims h1
    refine ⟨.compact1 mod es, by simp only [imports, itemsOf_ok.2 hx]; simp [k1],
      ⟨hc, hmod, by omega, k3⟩, fun y hy => ?_⟩
    cases y with
    | compact1 mod' s' =>
      obtain ⟨j1, ys, j2, j3⟩ := hy
      exact ⟨j1, xs, ys, hx, j2, k4 _ j3⟩
    | _ => exact hy.elim
  · refine .bind' fun _ => .ite (fun hc => ?_) fun _ => .fail
    refine .bind' fun _ => (sim_entity hm).bind ?_
    rintro t ⟨e, h1, h2, h3⟩
    refine .bind' fun q => .bind' fun s => .pure ?_
    rintro ⟨ns, hx⟩
    obtain ⟨hl, h4⟩ := collect_yields sim_string hx
    refine ⟨.compact2 mod e ns, by simp only [imports, itemsOf_ok.2 hx]; simp [h1],
      ⟨hc, hmod, h2, hl, h4⟩, fun y hy => ?_⟩
    cases y with
    | compact2 mod' t' s' =>
      obtain ⟨j1, j2, j3⟩ := hy
      exact ⟨j1, h3 _ j2, ns, ns, hx, j3, eq_forall₂ rfl⟩
    | _ => exact hy.elim
  · refine (sim_entity hm).bind ?_
    rintro t ⟨e, h1, h2, h3⟩
    refine .pure fun _ => ⟨.single mod name e, by simp only [imports, h1]; rfl,
      ⟨hmod, hname, h2⟩, fun y hy => ?_⟩
    cases y with
    | single st i =>
      obtain ⟨j1, j2, j3⟩ := hy
      exact ⟨j1, j2, h3 _ j3⟩
    | _ => exact hy.elim

theorem sim_export : Yields readExport
    (Sim (fun x => some (export_ m x)) ExportFits ExportIs (ExportRenamed m)) := by
  refine sim_string.bind fun n hn => .bind' fun k => .bind' fun _ => .ite (fun _ => .fail) fun hk => ?_
  refine .bind' fun i => .pure ⟨_, rfl, hn, ?_⟩
  rintro ⟨n', k', i'⟩ ⟨h1, h2, h3⟩
  refine ⟨h1, ?_, ?_⟩
  · cases k <;> first | exact absurd rfl hk | skip
    all_goals cases k' <;> first | exact (h2 : False).elim | rfl
  · rw [show i' = _ from h3]
    cases k <;> rfl

/-! ### Segments -/

/-- The item is read and dropped. -/
def void (item : R α) : R Unit := do
  let _ ← item
  pure ()

theorem many_void {item : R α} : ∀ {n : Nat} {r r' : Reader} {us : List Unit},
    readMany (void item) n r = .ok (us, r') → ∃ xs, readMany item n r = .ok (xs, r')
  | 0, _, _, _, h => by cases h; exact ⟨[], rfl⟩
  | n + 1, r, r', us, h => by
    obtain ⟨u, r1, h1, h⟩ := bind_ok.mp h
    obtain ⟨x, r2, h2, h1⟩ := bind_ok.mp h1
    cases h1
    obtain ⟨us', r3, h3, h⟩ := bind_ok.mp h
    cases h
    obtain ⟨xs, h4⟩ := many_void h3
    exact ⟨x :: xs, bind_ok.mpr ⟨x, _, h2, bind_ok.mpr ⟨xs, _, h4, rfl⟩⟩⟩

theorem twin_items {item item' : R Unit} (h : Twin item item' (fun _ _ => True)) :
    Twin (skipItems item) (skipItems item') (fun _ _ => True) :=
  Twin1.u32.toTwin.bindE fun n => (h.many n.toNat).bind fun _ _ _ => .pure trivial

/-- What was skipped as a sequence of items can be read as such. -/
theorem skip_collect {item : R Unit} {item' : R α} (h : Twin item (void item') (fun _ _ => True))
    {r q r' : Reader} {s : SectionLimited} (hs : skip (skipItems item) r = .ok (q, r'))
    (hl : SectionLimited.new q = .ok s) : ∃ xs, s.collect item' = .ok xs := by
  obtain ⟨bytes, -, -, d⟩ := (Twin.skip (twin_items h)) _ _ _ hs
  obtain ⟨_, -, -, -, d⟩ := d ⟨bytes, 0, 0⟩ [] (by simp [Reader.rest])
  obtain ⟨u, e, -⟩ := d q [] (by simp)
  obtain ⟨n, q1, e1, e⟩ := bind_ok.mp e
  obtain ⟨us, q2, e2, e⟩ := bind_ok.mp e
  cases e
  unfold SectionLimited.new at hl
  rw [e1] at hl
  cases hl
  obtain ⟨xs, e3⟩ := many_void e2
  exact ⟨xs, collectFrom_ok.2 ⟨_, e3, eof_advance rfl⟩⟩

theorem twin_skipConst : Twin (skipConstExpr f) (void (readConstExpr f)) (fun _ _ => True) := by
  intro r a r' h
  obtain ⟨q, hq⟩ : ∃ q, skip (skipConstExpr f) r = .ok (q, r') := by
    unfold Reader.skip
    rw [h]
    exact ⟨_, rfl⟩
  have hc : readConstExpr f r = .ok (⟨q⟩, r') := bind_ok.mpr ⟨q, r', hq, rfl⟩
  obtain ⟨is, h1, h2, h3⟩ := readConst_steps hc
  exact ⟨q.rest, h2, h3, h1.dec.bind_nil fun _ _ => .pure trivial⟩

theorem sim_elementKind (hm : MapsFit m f) (flags : BitVec 32) : Yields (readElementKind f flags)
    (Sim (elementKind m f) (fun k => match k with | .active _ c => ConstFits f c | _ => True)
      (ElementKindIs f) (ElementKindRenamed m f)) := by
  unfold readElementKind
  refine .ite (fun _ => .pure ?_) fun _ => ?_
  · split
    · refine ⟨.declared, rfl, True.intro, fun y hy => ?_⟩
      cases y <;> first | exact hy.elim | exact True.intro
    · refine ⟨.passive, rfl, True.intro, fun y hy => ?_⟩
      cases y <;> first | exact hy.elim | exact True.intro
  · refine .bind' fun t => (yields_const hm).bind ?_
    rintro c ⟨e, h1, h2, h3⟩
    refine .pure ⟨.active (elementTable m t) e, by simp only [elementKind, h1]; rfl, h2, fun y hy => ?_⟩
    cases y with
    | active t' c' =>
      obtain ⟨j1, j2⟩ := hy
      refine ⟨?_, h3 _ j2⟩
      unfold TableIndexIs elementTable at j1
      dsimp only at j1
      split at j1
      · next hz => rcases j1 with rfl | ⟨-, rfl⟩ <;> exact hz.2.symm
      · rcases j1 with rfl | ⟨h, -⟩
        · rfl
        · cases h
    | _ => exact hy.elim

theorem yields_elementType (hm : MapsFit m f) (flags : BitVec 32) (b : Bool) :
    Yields (readElementType flags b)
      (fun o => Sim (Types.Reenc.refType m.type) RefFits RefIs (RefRenamed m)
        (o.getD RefType.funcref)) := by
  have h0 : Sim (Types.Reenc.refType m.type) RefFits RefIs (RefRenamed m) RefType.funcref := by
    refine ⟨renameRef m Enc.funcref, re_ref m (e := Enc.funcref) refIs_funcref,
      fits_ref hm (new_is refIs_funcref).2.2, fun y hy => ⟨_, refIs_funcref, hy⟩⟩
  unfold readElementType
  refine .ite (fun _ => .ite (fun _ => ?_) fun _ => ?_) fun _ => .pure h0
  · exact (sim_ref hm).bind fun t ht => .pure ht
  · exact .bind' fun _ => .bind' fun _ => .ite (fun _ => .pure h0) fun _ => .fail

theorem yields_elementItems (hm : MapsFit m f) (b : Bool) (o : Option RefType)
    (ho : Sim (Types.Reenc.refType m.type) RefFits RefIs (RefRenamed m) (o.getD RefType.funcref))
    {r r' q r1 r2 : Reader} {x : ElementItems} (h : skip (skipElementItems f b) r = .ok (q, r'))
    (hx : Items.elementItems b o q r1 = .ok (x, r2)) :
    Sim (elementItems m f) (ElementsFit f) (ElementItemsIs f) (ElementItemsRenamed m f) x := by
  unfold Items.elementItems at hx
  unfold skipElementItems at h
  cases b with
  | true =>
    rw [if_pos rfl] at h hx
    obtain ⟨s, r3, e1, hx⟩ := bind_ok.mp hx
    cases hx
    obtain ⟨cs, hc⟩ := skip_collect twin_skipConst h (limited_ok e1)
    obtain ⟨hl, hy⟩ := collect_yields (yields_const hm) hc
    obtain ⟨es, k1, k2, k3, k4⟩ := sims hy
    obtain ⟨e, h1, h2, h3⟩ := ho
    refine ⟨.expressions e es, by simp only [elementItems, itemsOf_ok.2 hc]; simp [k1, h1],
      ⟨h2, by omega, k3⟩, fun y hy => ?_⟩
    cases y with
    | expressions t' s' =>
      obtain ⟨j1, ys, j2, j3⟩ := hy
      exact ⟨h3 _ j1, cs, ys, hc, j2, k4 _ j3⟩
    | functions => exact hy.elim
  | false =>
    rw [if_neg (by simp)] at h hx
    by_cases hs : o.isSome = true
    · rw [if_pos hs] at hx; cases hx
    · rw [if_neg hs] at hx
      obtain ⟨s, r3, e1, hx⟩ := bind_ok.mp hx
      cases hx
      obtain ⟨fs, hc⟩ := skip_collect (item' := readVarU32)
        (Twin1.u32.toTwin.bind fun _ _ _ => .pure trivial) h (limited_ok e1)
      obtain ⟨hl, -⟩ := collect_yields (Yields.triv readVarU32) hc
      refine ⟨.functions (fs.map m.func), by simp only [elementItems, itemsOf_ok.2 hc]; rfl,
        by simpa [ElementsFit] using hl, fun y hy => ?_⟩
      cases y with
      | expressions => exact hy.elim
      | functions s' =>
        refine ⟨fs, fs.map m.func, hc, hy, ?_⟩
        rw [List.forall₂_map_right_iff, List.forall₂_same]
        exact fun _ _ => rfl

theorem sim_element (hm : MapsFit m f) : Yields (readElement f)
    (Sim (element m f) (ElementFits f) (ElementIs f) (ElementRenamed m f)) := by
  refine .bind' fun start => .bind' fun flags => .bind' fun pos => .ite (fun _ => .fail) fun _ => ?_
  refine (sim_elementKind hm flags).bind ?_
  rintro k ⟨mode, h1, h2, h3⟩
  refine (yields_elementType hm flags _).bind fun o ho => ?_
  intro r x r' h
  obtain ⟨q, r1, e1, h⟩ := bind_ok.mp h
  obtain ⟨its, r2, e2, h⟩ := bind_ok.mp h
  obtain ⟨stop, r3, e3, h⟩ := bind_ok.mp h
  cases h
  obtain ⟨els, k1, k2, k3⟩ := yields_elementItems hm _ o ho e1 e2
  refine ⟨⟨mode, els⟩, by simp only [element, k1, h1]; rfl, ⟨h2, k2⟩, ?_⟩
  rintro y ⟨j1, j2⟩
  exact ⟨h3 _ j1, k3 _ j2⟩

theorem sim_dataKind (hm : MapsFit m f) (start : Nat) (flags : BitVec 32) :
    Yields (readDataKind f start flags)
    (Sim (dataKind m f) (fun k => match k with | .active _ c => ConstFits f c | _ => True)
      (DataKindIs f) (DataKindRenamed m f)) := by
  unfold readDataKind
  refine .ite (fun _ => .pure ?_) fun _ => .ite (fun _ => ?_) fun _ => .fail
  · refine ⟨.passive, rfl, True.intro, fun y hy => ?_⟩
    cases y <;> first | exact hy.elim | exact True.intro
  · refine .bind' fun i => (yields_const hm).bind ?_
    rintro c ⟨e, h1, h2, h3⟩
    refine .pure ⟨.active (m.memory i) e, by simp only [dataKind, h1]; rfl, h2, fun y hy => ?_⟩
    cases y with
    | active j c' => exact ⟨hy.1, h3 _ hy.2⟩
    | passive => exact hy.elim

theorem yields_readReader : Yields readReader (fun q => q.rest.length < 2 ^ 32) := by
  refine .bind' fun n => ?_
  intro r q r' h
  have ht : Twin (void (readBytes n.toNat)) (void (readBytes n.toNat)) (fun _ _ => True) :=
    (Twin.readBytes _).bind fun _ _ _ => .pure trivial
  obtain ⟨bytes, -, -, d⟩ := (Twin.skip ht) _ _ _ h
  obtain ⟨_, -, -, -, d⟩ := d ⟨bytes, 0, 0⟩ [] (by simp [Reader.rest])
  obtain ⟨u, e, -⟩ := d q [] (by simp)
  obtain ⟨b, q1, e1, e⟩ := bind_ok.mp e
  rw [readBytes_eq] at e1
  split at e1
  · cases e1
    injection e with e
    have := congrArg (fun x : Unit × Reader => x.2.position) e
    simp at this
    have := n.isLt
    omega
  · cases e1

theorem sim_data (hm : MapsFit m f) : Yields (readData f)
    (Sim (data m f) (DataFits f) (DataIs f) (DataRenamed m f)) := by
  refine .bind' fun start => .bind' fun flags => (sim_dataKind hm start flags).bind ?_
  rintro k ⟨mode, h1, h2, h3⟩
  refine yields_readReader.bind fun q hq => .pure ?_
  refine ⟨⟨mode, q.rest⟩, by simp only [data, h1]; rfl, ⟨h2, hq⟩, ?_⟩
  rintro y ⟨j1, j2⟩
  exact ⟨h3 _ j1, j2⟩

end Verif.Remod
