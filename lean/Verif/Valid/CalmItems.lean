import Verif.Valid.CalmFine
import Verif.Valid.ConstProps
/-! # The items of a module are added without panics -/
namespace Verif.Valid
open Verif.Reader Verif.Items
open Verif.Op.Calm
open Verif.Op.Typing Verif.Op.View
open Verif.Op (TableTy GlobalTy St)
open Verif.Std (BSearch)
open Verif.TypeList (TypeList)
open Verif.TypeList.Spec (SubT)
open Verif.Types (RefType ValType HeapType)
open Verif.Instr (Operator)

variable {f : Feats} {bs : BSearch} {T : TypeList} {m : Op.Module} {α β σ : Type}

/-! ## Results -/

/-- A computation that does not panic; what it returns has `Q`. -/
def NoPanic (x : X α) (Q : α → Prop) : Prop := x ≠ .error .panic ∧ ∀ a, x = .ok a → Q a

theorem NoPanic.pure {a : α} {Q : α → Prop} (h : Q a) : NoPanic (pure a : X α) Q :=
  ⟨nofun, fun _ he => pure_ok he ▸ h⟩

theorem NoPanic.err {Q : α → Prop} : NoPanic (.error .error : X α) Q := ⟨nofun, nofun⟩

theorem NoPanic.bind {x : X α} {k : α → X β} {P : α → Prop} {Q : β → Prop} (h : NoPanic x P)
    (hk : ∀ a, x = .ok a → P a → NoPanic (k a) Q) : NoPanic (x >>= k) Q := by
  cases x with
  | error e => exact ⟨fun he => h.1 (by cases he; rfl), nofun⟩
  | ok a => exact hk a rfl (h.2 a rfl)

theorem NoPanic.mono {x : X α} {P Q : α → Prop} (h : NoPanic x P) (hq : ∀ a, P a → Q a) :
    NoPanic x Q := ⟨h.1, fun a ha => hq a (h.2 a ha)⟩

theorem NoPanic.need {b : Bool} : NoPanic (need b) fun _ => b = true := by
  unfold Valid.need
  cases b with
  | true => exact .pure rfl
  | false => exact .err

theorem NoPanic.ite {c : Prop} [Decidable c] {x y : X α} {Q : α → Prop} (h1 : c → NoPanic x Q)
    (h2 : ¬ c → NoPanic y Q) : NoPanic (if c then x else y) Q := by
  split
  · next h => exact h1 h
  · next h => exact h2 h

theorem NoPanic.orErr {o : Option α} : NoPanic (orErr o) fun a => o = some a := by
  cases o with
  | none => exact .err
  | some a => exact .pure rfl

theorem NoPanic.orPanic {o : Option α} {Q : α → Prop} (h : ∃ a, o = some a ∧ Q a) :
    NoPanic (orPanic o) Q := by
  obtain ⟨a, rfl, h⟩ := h
  exact .pure h

theorem NoPanic.ofRead {x : Except Err α} : NoPanic (ofRead x) fun a => x = .ok a := by
  cases x with
  | error e => exact .err
  | ok a => exact .pure rfl

theorem NoPanic.unit {x : X Unit} {Q : Unit → Prop} (h : NoPanic x Q) : NoPanic x fun _ => True :=
  h.mono fun _ _ => trivial

theorem NoPanic.eachFrom {item : R α} {g : σ → α → X σ} {I : σ → Prop} {P : α → Prop}
    (hi : Yields item P) (h : ∀ s a, I s → P a → NoPanic (g s a) I) :
    ∀ (n : Nat) (r : Reader) (s : σ), I s → NoPanic (eachFrom item g n r s) I
  | 0, _, _, hs => NoPanic.need.bind fun _ _ _ => .pure hs
  | n + 1, r, s, hs => NoPanic.ofRead.bind fun x _ hx =>
    (h s x.1 hs (hi _ _ _ hx)).bind fun s' _ hs' => NoPanic.eachFrom hi h n x.2 s' hs'

theorem NoPanic.eachItem {item : R α} {g : σ → α → X σ} {I : σ → Prop} {P : α → Prop}
    (hi : Yields item P) (h : ∀ s a, I s → P a → NoPanic (g s a) I) {sec : SectionLimited} {s : σ}
    (hs : I s) : NoPanic (eachItem item g sec s) I := NoPanic.eachFrom hi h _ _ _ hs

/-! ## What readers return -/

/-- The types in a `TypeRef` come from the bytes of a module. -/
def ModularTypeRef : TypeRef → Prop
  | .table t => ModularRef t.elementType
  | .global t => ModularVal t.contentType
  | _ => True

theorem yields_tableType (rf : Instr.Features) :
    Yields (readTableType rf) fun t => ModularRef t.elementType :=
  yields_modularRef.bind fun _ h => .bind' fun _ => .bind' fun _ => .ite (fun _ => .fail) fun _ =>
    .bind' fun _ => .bind' fun _ => .pure h

theorem yields_globalType : Yields readGlobalType fun t => ModularVal t.contentType :=
  yields_modularVal.bind fun _ h => .bind' fun _ => .bind' fun _ => .ite (fun _ => .fail)
    fun _ => .pure h

theorem yields_typeRef (rf : Instr.Features) : Yields (readTypeRef rf) ModularTypeRef := by
  refine .bind' fun k => ?_
  cases k with
  | table => exact (yields_tableType rf).bind fun _ h => .pure h
  | global => exact yields_globalType.bind fun _ h => .pure h
  | _ => exact .bind' fun _ => .pure trivial

/-- The expression has been read. -/
def ReadExpr (rf : Instr.Features) (e : ConstExpr) : Prop :=
  ∃ r r', readConstExpr rf r = .ok (e, r')

theorem yields_expr (rf : Instr.Features) : Yields (readConstExpr rf) (ReadExpr rf) :=
  fun r _ r' h => ⟨r, r', h⟩

/-- What is known of a table that has been read. -/
def TableRead (rf : Instr.Features) (t : Table) : Prop :=
  ModularRef t.ty.elementType ∧ ∀ e, t.init = .expr e → ReadExpr rf e

theorem yields_table (rf : Instr.Features) : Yields (readTable rf) (TableRead rf) := by
  refine .bind' fun b => (yields_tableType rf).bind fun ty h => ?_
  refine Yields.bind (P := fun i => ∀ e, i = .expr e → ReadExpr rf e) ?_ fun i hi => .pure ⟨h, hi⟩
  refine .ite (fun _ => (yields_expr rf).bind fun e he => .pure ?_) fun _ => .pure nofun
  rintro _ ⟨⟩
  exact he

/-- What is known of a global that has been read. -/
def GlobalRead (rf : Instr.Features) (g : Global) : Prop :=
  ModularVal g.ty.contentType ∧ ReadExpr rf g.initExpr

theorem yields_global (rf : Instr.Features) : Yields (readGlobal rf) (GlobalRead rf) :=
  yields_globalType.bind fun _ h => (yields_expr rf).bind fun _ he => .pure ⟨h, he⟩

/-- What is known of imports that have been read. -/
def ImportsRead : Imports → Prop
  | .single _ i => ModularTypeRef i.ty
  | .compact1 .. => True
  | .compact2 _ ty _ => ModularTypeRef ty

theorem yields_imports (rf : Items.Feats) : Yields (readImports rf) ImportsRead := by
  refine .bind' fun _ => .bind' fun _ => .bind' fun _ => .bind' fun _ => .ite (fun _ => ?_)
    fun _ => .ite (fun _ => ?_) fun _ => (yields_typeRef _).bind fun _ h => .pure h
  · exact .bind' fun _ => .ite (fun _ => .bind' fun _ => .bind' fun _ => .bind' fun _ =>
      .pure trivial) fun _ => .fail
  · exact .bind' fun _ => .ite (fun _ => .bind' fun _ => (yields_typeRef _).bind fun _ h =>
      .bind' fun _ => .bind' fun _ => .pure h) fun _ => .fail

theorem yields_importItem (rf : Instr.Features) :
    Yields (readImportItem rf) fun i => ModularTypeRef i.ty :=
  .bind' fun _ => (yields_typeRef _).bind fun _ h => .pure h

/-- What is known of an element segment that has been read. -/
def ElementRead (rf : Instr.Features) (e : Element) : Prop :=
  (∀ i o, e.kind = .active i o → ReadExpr rf o) ∧
  ∀ ty sec, e.items = .expressions ty sec → ModularRef ty

theorem modular_funcref : ModularRef RefType.funcref := ⟨.abstract false .func, by decide, trivial⟩

theorem yields_element (rf : Instr.Features) : Yields (readElement rf) (ElementRead rf) := by
  refine .bind' fun _ => .bind' fun fl => .bind' fun _ => .ite (fun _ => .fail) fun _ => ?_
  refine Yields.bind (P := fun k => ∀ i o, k = ElementKind.active i o → ReadExpr rf o) ?_
    fun k hk => ?_
  · refine .ite (fun _ => .pure ?_) fun _ => .bind' fun _ => (yields_expr rf).bind fun e he =>
      .pure ?_
    · split <;> nofun
    · rintro _ _ ⟨⟩
      exact he
  · refine Yields.bind (P := fun o => ∀ t, o = some t → ModularRef t) ?_ fun o ho => .bind' fun d => ?_
    · refine .ite (fun _ => .ite (fun _ => yields_modularRef.bind fun t ht => .pure ?_)
        fun _ => .bind' fun _ => .bind' fun _ => .ite (fun _ => .pure nofun) fun _ => .fail)
        fun _ => .pure nofun
      rintro _ ⟨⟩
      exact ht
    · refine Yields.bind (P := fun i => ∀ ty sec, i = ElementItems.expressions ty sec →
        ModularRef ty) ?_ fun i hi => .bind' fun _ => .pure ⟨hk, hi⟩
      refine .ite (fun _ => .bind' fun _ => .pure ?_) fun _ => .ite (fun _ => .fail) fun _ =>
        .bind' fun _ => .pure nofun
      rintro _ _ ⟨⟩
      cases o with
      | none => exact modular_funcref
      | some t => exact ho t rfl

/-- What is known of a data segment that has been read. -/
def DataRead (rf : Instr.Features) (d : Data) : Prop :=
  ∀ i o, d.kind = .active i o → ReadExpr rf o

theorem yields_data (rf : Instr.Features) : Yields (readData rf) (DataRead rf) := by
  refine .bind' fun _ => .bind' fun fl => ?_
  refine Yields.bind (P := fun k => ∀ i o, k = DataKind.active i o → ReadExpr rf o) ?_
    fun k hk => .bind' fun _ => .pure hk
  refine .ite (fun _ => .pure nofun) fun _ => .ite (fun _ => .bind' fun _ =>
    (yields_expr rf).bind fun e he => .pure ?_) fun _ => .fail
  rintro _ _ ⟨⟩
  exact he

/-! ## Types -/

theorem ofList_calm {x : TypeList.M α} {Q : α → Prop} (h1 : x ≠ .error .panic)
    (h2 : x ≠ .error .diverges) (h3 : ∀ a, x = .ok a → Q a) : NoPanic (ofList x) Q := by
  cases x with
  | ok a => exact .pure (h3 a rfl)
  | error e =>
    cases e with
    | error => exact .err
    | panic => exact absurd rfl h1
    | diverges => exact absurd rfl h2

/-- Neither a panic nor a loop. -/
def Still (x : TypeList.M α) : Prop := x ≠ .error .panic ∧ x ≠ .error .diverges

theorem Still.pure {a : α} : Still (pure a : TypeList.M α) := ⟨nofun, nofun⟩

theorem Still.require {b : Bool} {e : String} : Still (TypeList.require b e) := by
  unfold TypeList.require
  split <;> exact ⟨nofun, nofun⟩

theorem Still.bind {x : TypeList.M α} {k : α → TypeList.M β} (h : Still x)
    (hk : ∀ a, x = .ok a → Still (k a)) : Still (x >>= k) := by
  cases x with
  | error e => exact ⟨fun he => h.1 (by cases he; rfl), fun he => h.2 (by cases he; rfl)⟩
  | ok a => exact hk a rfl

theorem Still.ite {c : Prop} [Decidable c] {x y : TypeList.M α} (h1 : Still x) (h2 : Still y) :
    Still (if c then x else y) := by
  split
  · exact h1
  · exact h2

theorem Still.calm {x : TypeList.M α} (h : Still x) : NoPanic (ofList x) fun _ => True :=
  ofList_calm h.1 h.2 fun _ _ => trivial

theorem listCheckRef_calm {tf : TypeList.Features} {r : RefType} (h : ModularRef r) :
    NoPanic (ofList (TypeList.checkRefType tf r)) fun _ => True := by
  obtain ⟨a, ha, -⟩ := h
  refine Still.calm (Still.require.bind fun _ _ => ?_)
  rw [ha]
  refine Still.bind Still.pure fun b hb => ?_
  cases b with
  | concrete => exact .ite .pure .require
  | exact => exact .require
  | abstract s ty =>
    dsimp only
    refine .ite (Still.require.bind fun _ _ => ?_) ?_
    all_goals
      refine .ite (Still.bind .require fun _ _ => ?_) ?_
      all_goals cases ty <;> first | exact .require | exact .ite .pure .require

theorem checkRefType_calm (h : Hist f T m) {r : RefType} (hr : ModularRef r) :
    NoPanic (checkRefType f m r) fun x => RefIn (listOf T).length x := by
  refine (listCheckRef_calm hr).bind fun _ _ _ => ?_
  obtain ⟨a, ha, hm⟩ := hr
  rw [ha]
  have key : ∀ (id : Nat) (h : Op.Heap), id < (listOf T).length →
      (h = .concrete id ∨ h = .exact id) →
      NoPanic (orPanic (Op.mkRef r.isNullable h)) fun x => RefIn (listOf T).length x := by
    intro id hp hid hc
    have hl := h.len
    refine NoPanic.orPanic ⟨⟨r.isNullable, hp⟩, ?_, ?_⟩
    · rcases hc with rfl | rfl <;>
      · unfold Op.mkRef
        dsimp only
        rw [if_pos (by omega)]
    · intro i hi
      rcases hc with rfl | rfl <;>
      · cases List.mem_singleton.1 hi
        exact hid
  show NoPanic (m.checkHeapType a >>= fun h => orPanic (Op.mkRef r.isNullable h)) _
  cases a with
  | abstract s a =>
    exact NoPanic.orPanic ⟨_, rfl, nofun⟩
  | concrete u =>
    obtain ⟨i, rfl⟩ := hm
    unfold Op.Module.checkHeapType
    dsimp only
    cases ht : m.types[i.toNat]? with
    | none => exact .err
    | some id => exact key id _ (h.type_lt ht) (.inl rfl)
  | exact u =>
    obtain ⟨i, rfl⟩ := hm
    unfold Op.Module.checkHeapType
    dsimp only
    cases ht : m.types[i.toNat]? with
    | none => exact .err
    | some id => exact key id _ (h.type_lt ht) (.inr rfl)

theorem checkValueType_calm (h : Hist f T m) {t : ValType} (ht : ModularVal t) :
    NoPanic (checkValueType f m t) fun x => ValIn (listOf T).length x := by
  cases t with
  | ref r => exact (checkRefType_calm h ht).bind fun x _ hx => .pure hx
  | _ =>
    refine NoPanic.bind (P := fun _ => True) (Still.calm ?_) fun _ _ _ => .pure (numeric_in rfl)
    first | exact .require | exact .pure

theorem refIsShared_calm (h : Hist f T m) {r : Op.Ref} (hr : RefIn (listOf T).length r) :
    NoPanic (refIsShared T r) fun _ => True := by
  obtain ⟨x, h1, h2⟩ := h.ask_shared hr
  unfold refIsShared
  rw [h1]
  show NoPanic (ofList _) _
  rw [h2]
  exact .pure trivial

theorem valIsShared_calm (h : Hist f T m) {v : Op.Val} (hv : ValIn (listOf T).length v) :
    NoPanic (valIsShared T v) fun _ => True := by
  unfold valIsShared
  cases v with
  | ref r =>
    obtain ⟨x, h1, h2⟩ := h.ask_shared (a := r) hv
    rw [show Op.encVal (.ref r) = (Op.encRef r).map .ref from rfl, h1]
    show NoPanic (ofList (TypeList.reftypeIsShared T x)) _
    rw [h2]
    exact .pure trivial
  | _ => exact .pure trivial

theorem refIsSubtype_calm (h : Hist f T m) {a b : Op.Ref} (ha : RefIn (listOf T).length a)
    (hb : RefIn (listOf T).length b) : NoPanic (refIsSubtype T a b) fun _ => True := by
  obtain ⟨x, y, r, h1, h2, h3⟩ := h.ask_refSub ha hb
  unfold refIsSubtype
  rw [h1, h2]
  show NoPanic (ofList _) _
  rw [h3]
  exact .pure trivial

theorem subTypeAt_calm (h : Hist f T m) {i : BitVec 32} : NoPanic (subTypeAt T m i) fun x =>
    ∃ id, m.types[i.toNat]? = some id ∧ (listOf T)[id]? = some x := by
  refine NoPanic.orErr.bind fun id _ hid => NoPanic.orPanic ?_
  have := h.type_lt hid
  exact ⟨_, List.getElem?_eq_getElem this, id, hid, List.getElem?_eq_getElem this⟩

/-- The index is that of a function type. -/
def FuncIdx (L : List (SubT Nat)) (m : Op.Module) (i : BitVec 32) : Prop :=
  ∃ id x ps rs, m.types[i.toNat]? = some id ∧ L[id]? = some x ∧ x.comp = .func ps rs

theorem funcTypeAt_calm (h : Hist f T m) {i : BitVec 32} :
    NoPanic (funcTypeAt T m i) fun _ => FuncIdx (listOf T) m i := by
  refine (subTypeAt_calm h).bind fun x _ hx => ?_
  obtain ⟨id, h1, h2⟩ := hx
  split
  · next ps rs hc => exact .pure ⟨id, x, ps, rs, h1, h2, hc⟩
  · exact .err

theorem getFuncType_calm (h : Hist f T m) {i : BitVec 32} :
    NoPanic (getFuncType T m i) fun _ => True :=
  NoPanic.orErr.bind fun _ _ _ => (funcTypeAt_calm h).mono fun _ _ => trivial

theorem checkLimits_calm {a : BitVec 64} {b : Option (BitVec 64)} :
    NoPanic (checkLimits a b) fun _ => True := by
  unfold checkLimits
  split
  · exact NoPanic.need.unit
  · exact .pure trivial

theorem checkAtMost_calm {a : BitVec 64} {b : Option (BitVec 64)} {n : Nat} :
    NoPanic (checkAtMost a b n) fun _ => True := by
  refine NoPanic.need.bind fun _ _ _ => ?_
  cases b with
  | some => exact NoPanic.need.unit
  | none => exact .pure trivial

theorem needIf_calm {b c : Bool} : NoPanic (if b = true then need c else pure ()) fun _ => True :=
  .ite (fun _ => NoPanic.need.unit) fun _ => .pure trivial

theorem checkTableType_calm (h : Hist f T m) {t : TableType} (ht : ModularRef t.elementType) :
    NoPanic (checkTableType f T m t) fun ty => RefIn (listOf T).length ty.elem := by
  refine NoPanic.bind (P := fun e => RefIn (listOf T).length e)
    (.ite (fun _ => .pure nofun) fun _ => checkRefType_calm h ht) fun e _ he => ?_
  refine checkLimits_calm.bind fun _ _ _ => needIf_calm.bind fun _ _ _ =>
    needIf_calm.bind fun _ _ _ => checkAtMost_calm.bind fun _ _ _ => ?_
  refine NoPanic.bind (P := fun _ => True) ?_ fun _ _ _ => .pure he
  exact .ite (fun _ => (refIsShared_calm h he).bind fun _ _ _ => NoPanic.need.unit)
    fun _ => .pure trivial

theorem checkMemoryType_calm {t : MemoryType} : NoPanic (checkMemoryType f t) fun _ => True := by
  refine checkLimits_calm.bind fun _ _ _ => needIf_calm.bind fun _ _ _ =>
    needIf_calm.bind fun _ _ _ => ?_
  refine NoPanic.bind (P := fun _ => True) ?_ fun _ _ _ => checkAtMost_calm.bind fun _ _ _ => needIf_calm
  unfold pageSize
  split
  · exact .pure trivial
  · exact NoPanic.need.bind fun _ _ _ => .ite (fun _ => .err) fun _ => .pure trivial

theorem checkTagType_calm (h : Hist f T m) {t : TagType} :
    NoPanic (checkTagType f T m t) fun _ => FuncIdx (listOf T) m t.funcTypeIdx :=
  NoPanic.need.bind fun _ _ _ => (funcTypeAt_calm h).bind fun _ _ hx =>
    needIf_calm.mono fun _ _ => hx

theorem checkGlobalType_calm (h : Hist f T m) {t : GlobalType} (ht : ModularVal t.contentType) :
    NoPanic (checkGlobalType f T m t) fun ty => ValIn (listOf T).length ty.content := by
  refine (checkValueType_calm h ht).bind fun v _ hv => needIf_calm.bind fun _ _ _ => ?_
  refine NoPanic.bind (P := fun _ => True) ?_ fun _ _ _ => .pure hv
  exact .ite (fun _ => (valIsShared_calm h hv).bind fun _ _ _ => NoPanic.need.unit)
    fun _ => .pure trivial

theorem checkMax_calm {a b c : Nat} : NoPanic (checkMax a b c) fun _ => a + b ≤ c :=
  NoPanic.need.mono fun _ h => of_decide_eq_true h

theorem combine_calm {a b : Nat} : NoPanic (combineTypeSizes a b) fun _ => True :=
  .ite (fun _ => .pure trivial) fun _ => .err

/-! ## Good states -/

/-- The size of the type is small. -/
def SmallType (x : SubT Nat) : Prop :=
  ∀ ps rs, x.comp = .func ps rs → ps.length ≤ 1000 ∧ rs.length ≤ 1000

/-- What holds of the module between the additions of items. -/
structure Good (f : Feats) (T : TypeList) (s : ModuleState) : Prop where
  hist : Hist f T s.m
  items : ItemsIn (listOf T) s.m
  small : ∀ id ∈ s.m.types, ∀ x, (listOf T)[id]? = some x → SmallType x
  tagsIn : ∀ id ∈ s.m.tags, id ∈ s.m.types

theorem Good.refs {s : ModuleState} (h : Good f T s) (rs : List (BitVec 32)) :
    Good f T { s with m := setRefs s.m rs } :=
  ⟨h.hist.setRefs rs, ⟨h.items.globals, h.items.tables, h.items.elems, h.items.funcs⟩, h.small, h.tagsIn⟩

theorem Good.fine {s : ModuleState} (h : Good f T s) :
    Fine (env f bs T s.m).R (listOf T).length := h.hist.fine h.items

theorem infoSize_calm {s : ModuleState} (h : Good f T s) {id : Nat} (hid : id ∈ s.m.types)
    (hf : ∃ x ps rs, (listOf T)[id]? = some x ∧ x.comp = .func ps rs) :
    NoPanic (infoSize T id) fun _ => True := by
  obtain ⟨x, ps, rs, h1, h2⟩ := hf
  refine NoPanic.bind (P := fun y => y = x) (NoPanic.orPanic ⟨x, h1, rfl⟩) ?_
  rintro _ - rfl
  next y =>
  have := h.small id hid y h1 ps rs h2
  unfold subTypeSize
  rw [h2]
  dsimp only
  rw [if_pos (by omega)]
  exact .pure trivial

end Verif.Valid
