import Verif.Valid.AllItems
/-! # Items of valid modules are accepted, and lead to what the context says -/
namespace Verif.Valid
open Verif.Reader Verif.Items
open Spec
open Verif.Op.Typing Verif.Op.View
open Verif.Op (TableTy GlobalTy)
open Verif.Op.Calm (RefIn)
open Verif.Std (BSearch)
open Verif.TypeList (TypeList)
open Verif.TypeList.Spec (SubT RefSub)
open Verif.Instr (Operator)
open Verif.Types (RefType ValType HeapType)

variable {f : Feats} {bs : BSearch} {T : TypeList} {C : Ctx}

/-- How far the validator is. -/
structure Pos where
  funcs : Nat
  tables : Nat
  mems : Nat
  tags : Nat
  globals : Nat
  elems : Nat
  size : Nat
  imported : Nat
  dataCount : Option (BitVec 32)
  names : List (List UInt8)
  refs : BitVec 32 → Prop
  owned : Bool
  code : Option Nat
  snapshot : Option TypeList

/-- The module has the first items of the context. -/
structure At (f : Feats) (T : TypeList) (C : Ctx) (p : Pos) (s : ModuleState) : Prop where
  same : Same f T C s.m
  funcs : s.m.functions = C.funcs.take p.funcs
  tables : s.m.tables.map toTableT = C.tables.take p.tables
  mems : s.m.memories = C.mems.take p.mems
  tags : s.m.tags.map (tagType (listOf T)) = C.tags.take p.tags
  globals : s.m.globals.map toGlobalT = C.globals.take p.globals
  elems : s.m.elementTypes = C.elems.take p.elems
  size : s.typeSize = p.size
  imported : s.m.numImportedFunctions = p.imported
  dataCount : s.m.dataCount = p.dataCount
  names : s.exports = p.names
  refs : ∀ i, i ∈ s.m.functionReferences ↔ p.refs i
  owned : s.owned = p.owned
  code : s.codeIndex = p.code
  snapshot : s.snapshot = p.snapshot

/-- All items but elements are there. -/
structure Full (C : Ctx) (p : Pos) : Prop where
  funcs : C.funcs.length ≤ p.funcs
  tables : C.tables.length ≤ p.tables
  mems : C.mems.length ≤ p.mems
  tags : C.tags.length ≤ p.tags
  globals : C.globals.length ≤ p.globals

variable {p : Pos} {s s' : ModuleState}

theorem At.congr (h : At f T C p s) {q : BitVec 32 → Prop} (hq : ∀ i, p.refs i ↔ q i) :
    At f T C { p with refs := q } s :=
  { h with refs := fun i => (h.refs i).trans (hq i) }

theorem At.grow (h : At f T C p s) {P : BitVec 32 → Prop} (hg : Grows s s' P) :
    At f T C { p with refs := fun i => p.refs i ∨ P i } s' := by
  obtain ⟨he, hr⟩ := hg
  have hm : s'.m.types = s.m.types := by rw [he]; rfl
  exact {
    same := ⟨(Grows.mk he hr).hist h.same.hist, hm.trans h.same.types, h.same.defs⟩
    funcs := by rw [he]; exact h.funcs
    tables := by rw [he]; exact h.tables
    mems := by rw [he]; exact h.mems
    tags := by rw [he]; exact h.tags
    globals := by rw [he]; exact h.globals
    elems := by rw [he]; exact h.elems
    size := by rw [he]; exact h.size
    imported := by rw [he]; exact h.imported
    dataCount := by rw [he]; exact h.dataCount
    names := by rw [he]; exact h.names
    refs := fun i => (hr i).trans (or_congr_left (h.refs i))
    owned := by rw [he]; exact h.owned
    code := by rw [he]; exact h.code
    snapshot := by rw [he]; exact h.snapshot }

theorem At.mut (h : At f T C p s) (ho : p.owned = true) : s.assertMut = .ok () := by
  unfold ModuleState.assertMut
  rw [h.owned, ho]
  rfl

theorem At.const (ha : AllFeats f) (h : At f T C p s) (hfu : C.funcs.length ≤ p.funcs)
    {e : ConstExpr} {ty : V} {os : List Operator} (ho : ConstOps f.reader.toFeatures e os)
    (hn : Plainly os) (hown : p.owned = true ∨ ∀ i, ¬ Refs os i)
    (hc : ConstTy { C with globals := C.globals.take p.globals } os ty) :
    ∃ s', checkConstExpr f bs T s e ty = .ok s' ∧
      At f T C { p with refs := fun i => p.refs i ∨ Refs os i } s' := by
  obtain ⟨s', h1, h2⟩ := const_go (bs := bs) ha h.same
    (by rw [h.funcs, List.take_of_length_le hfu]) h.globals ho hn (h.owned ▸ hown) hc
  exact ⟨s', h1, h.grow h2⟩

theorem At.const' (ha : AllFeats f) (h : At f T C p s) (hfu : Full C p)
    {e : ConstExpr} {ty : V} {os : List Operator} (ho : ConstOps f.reader.toFeatures e os)
    (hn : Plainly os) (hown : p.owned = true ∨ ∀ i, ¬ Refs os i)
    (hc : ConstTy C os ty) :
    ∃ s', checkConstExpr f bs T s e ty = .ok s' ∧
      At f T C { p with refs := fun i => p.refs i ∨ Refs os i } s' := by
  refine h.const ha hfu.funcs ho hn hown ?_
  rw [List.take_of_length_le hfu.globals]
  exact hc

theorem go2 {α : Type} {x : X α} {P : α → Prop} {a : α} (h : x = .ok a) (hp : P a) :
    ∃ a, x = .ok a ∧ P a := ⟨a, h, hp⟩

/-! ## Functions, tables, memories, tags, globals -/

theorem At.func (h : At f T C p s) (ho : p.owned = true) {i : BitVec 32}
    (hi : C.funcs[p.funcs]? = some i) (ht : ∃ x ps rs, FuncAt C i x ps rs) :
    ∃ s', addFunction T s i = .ok s' ∧ At f T C { p with funcs := p.funcs + 1 } s' := by
  obtain ⟨x, ps, rs, hx⟩ := ht
  obtain ⟨id, h1, h2, h3⟩ := funcType_go h.same hx
  have hfs : s.m.functions ++ [i] = C.funcs.take (p.funcs + 1) := by rw [h.funcs, take_snoc hi]
  apply go2
  · unfold addFunction
    rw [h.mut ho]
    show (funcTypeAt T s.m i >>= _) = _
    rw [h3]
    rfl
  · exact { h with
      same := ⟨h.same.hist.of rfl h.same.hist.tags, h.same.types, h.same.defs⟩
      funcs := hfs }

theorem At.table (ha : AllFeats f) (h : At f T C p s) (ho : p.owned = true)
    (hfu : C.funcs.length ≤ p.funcs) {t : Table} {x : TableType × Option (List Operator)}
    {tt : TableT} (hi : C.tables[p.tables]? = some tt) (ht : TableOk C t.ty tt)
    (hs : TableSays f.reader.toFeatures t x)
    (hin : TableInitOk { C with globals := C.globals.take p.globals } tt x.2)
    (hn : NoExactVal (.ref x.1.elementType) ∧ ∀ os, x.2 = some os → Plainly os) :
    ∃ s', addTable f bs T s t = .ok s' ∧ At f T C { p with
      tables := p.tables + 1
      refs := fun i => p.refs i ∨ ∃ os, x.2 = some os ∧ Refs os i } s' := by
  obtain ⟨ty, o⟩ := x
  obtain ⟨rfl, hs⟩ := hs
  have h1 := checkTableType_go ha h.same ht hn.1
  obtain ⟨s1, h2, h3⟩ : ∃ s1, checkTableInit f bs T s ⟨tt.elem, tt.is64, tt.shared⟩ t.init = .ok s1 ∧
      At f T C { p with refs := fun i => p.refs i ∨ ∃ os, o = some os ∧ Refs os i } s1 := by
    cases hti : t.init with
    | refNull =>
      rw [hti] at hs
      cases o with
      | none =>
        refine ⟨s, ?_, h.congr fun i => by simp⟩
        show (need tt.elem.nullable >>= _) = _
        rw [need_go hin]
        rfl
      | some => exact hs.elim
    | expr e =>
      rw [hti] at hs
      cases o with
      | none => exact hs.elim
      | some os =>
        obtain ⟨s1, h2, h3⟩ := h.const (bs := bs) ha hfu hs (hn.2 os rfl) (.inl ho) hin
        refine ⟨s1, ?_, h3.congr fun i => ?_⟩
        · show (need f.functionReferences >>= fun _ => checkConstExpr f bs T s e (.ref tt.elem)) = _
          rw [need_go (by rw [ha.ops]; rfl)]
          exact h2
        · constructor
          · rintro (h | h)
            · exact .inl h
            · exact .inr ⟨os, rfl, h⟩
          · rintro (h | ⟨_, h, h'⟩)
            · exact .inl h
            · cases h; exact .inr h'
  have hfs : (s1.m.tables ++ [(⟨tt.elem, tt.is64, tt.shared⟩ : TableTy)]).map toTableT =
      C.tables.take (p.tables + 1) := by rw [List.map_append, h3.tables, take_snoc hi]; rfl
  apply go2
  · unfold addTable
    rw [h1]
    show (checkTableInit f bs T s _ t.init >>= _) = _
    rw [h2]
    show (s1.assertMut >>= _) = _
    rw [h3.mut ho]
    rfl
  · exact { h3 with
      same := ⟨h3.same.hist.of rfl h3.same.hist.tags, h3.same.types, h3.same.defs⟩
      tables := hfs }

theorem At.mem (ha : AllFeats f) (h : At f T C p s) (ho : p.owned = true) {t : MemoryType} {b : Bool}
    (hi : C.mems[p.mems]? = some b) (ht : MemOk t b) :
    ∃ s', addMemory f s t = .ok s' ∧ At f T C { p with mems := p.mems + 1 } s' := by
  obtain ⟨h1, rfl⟩ := checkMemoryType_go ha ht
  have hfs : s.m.memories ++ [t.memory64] = C.mems.take (p.mems + 1) := by
    rw [h.mems, take_snoc hi]
  apply go2
  · unfold addMemory
    rw [h.mut ho]
    show (checkMemoryType f t >>= _) = _
    rw [h1]
    rfl
  · exact { h with
      same := ⟨h.same.hist.of rfl h.same.hist.tags, h.same.types, h.same.defs⟩
      mems := hfs }

theorem Hist.tag {m : Op.Module} (h : Hist f T m) {t : TagType} {id : Nat}
    (hi : TagId (listOf T) m.types t id) : Hist f T { m with tags := m.tags ++ [id] } :=
  h.of rfl (tagsOk_append (is := [t]) h.tags (.cons hi .nil) rfl)

theorem At.tag (ha : AllFeats f) (h : At f T C p s) (ho : p.owned = true) {t : TagType}
    {ty : List V × List V} (hi : C.tags[p.tags]? = some ty) (ht : TagOk C t ty) :
    ∃ s', addTag f T s t = .ok s' ∧ At f T C { p with tags := p.tags + 1 } s' := by
  obtain ⟨h1, id, h2, h3, h4⟩ := checkTagType_go ha h.same ht
  have hfs : (s.m.tags ++ [id]).map (tagType (listOf T)) = C.tags.take (p.tags + 1) := by
    rw [List.map_append, h.tags, take_snoc hi, ← h3]; rfl
  apply go2
  · unfold addTag
    rw [h.mut ho]
    show (checkTagType f T s.m t >>= _) = _
    rw [h1]
    show (orPanic s.m.types[t.funcTypeIdx.toNat]? >>= _) = _
    rw [h2]
    rfl
  · exact { h with
      same := ⟨h.same.hist.tag h4, h.same.types, h.same.defs⟩
      tags := hfs }

theorem At.global (ha : AllFeats f) (h : At f T C p s) (ho : p.owned = true)
    (hfu : C.funcs.length ≤ p.funcs) {g : Global} {x : GlobalType × List Operator}
    {gt : GlobalT} (hi : C.globals[p.globals]? = some gt) (ht : GlobalOk C g.ty gt)
    (hs : GlobalSays f.reader.toFeatures g x)
    (hin : ConstTy { C with globals := C.globals.take p.globals } x.2 gt.content)
    (hn : NoExactVal x.1.contentType ∧ Plainly x.2) :
    ∃ s', addGlobal f bs T s g = .ok s' ∧ At f T C { p with
      globals := p.globals + 1
      refs := fun i => p.refs i ∨ Refs x.2 i } s' := by
  obtain ⟨ty, os⟩ := x
  obtain ⟨rfl, hs⟩ := hs
  have h1 := checkGlobalType_go ha h.same ht hn.1
  obtain ⟨s1, h2, h3⟩ := h.const (bs := bs) ha hfu hs hn.2 (.inl ho) hin
  have hfs : (s1.m.globals ++ [(⟨gt.content, gt.mutable, gt.shared⟩ : GlobalTy)]).map toGlobalT =
      C.globals.take (p.globals + 1) := by rw [List.map_append, h3.globals, take_snoc hi]; rfl
  apply go2
  · unfold addGlobal
    rw [h1]
    show (checkConstExpr f bs T s g.initExpr gt.content >>= _) = _
    rw [h2]
    show (s1.assertMut >>= _) = _
    rw [h3.mut ho]
    rfl
  · exact { h3 with
      same := ⟨h3.same.hist.of rfl h3.same.hist.tags, h3.same.types, h3.same.defs⟩
      globals := hfs }

/-! ## Imports -/

theorem info_go {id : Nat} {x : SubT Nat} {ps rs : List V} (h1 : (listOf T)[id]? = some x)
    (h2 : x.comp = .func ps rs) (h3 : sigSize ps rs < 1000000) : infoSize T id = .ok (sigSize ps rs) := by
  unfold infoSize
  rw [h1]
  show subTypeSize x = _
  unfold subTypeSize
  rw [h2]
  dsimp only
  unfold sigSize at h3 ⊢
  rw [if_pos (by omega)]
  congr 1
  omega

theorem typeSize_eq {i : BitVec 32} {x : SubT Nat} {ps rs : List V} (h : FuncAt C i x ps rs) :
    typeSize C i = sigSize ps rs := by
  unfold typeSize
  rw [h.1]
  show compSize x.comp = _
  rw [h.2]
  rfl

theorem checkMax_go {a b c : Nat} (h : a + b ≤ c) : checkMax a b c = .ok () :=
  need_go (decide_eq_true h)

theorem combine_go {a b : Nat} (h : a + b < 1000000) : combineTypeSizes a b = .ok (a + b) := by
  unfold combineTypeSizes
  rw [if_pos h]

/-- After some imports. -/
def Pos.imp (C : Ctx) (is : List Import) : Pos where
  funcs := (importedFuncs is).length
  tables := (importedTables is).length
  mems := (importedMems is).length
  tags := (importedTags is).length
  globals := (importedGlobals is).length
  elems := 0
  size := 1 + (is.map (importSize C)).sum
  imported := (importedFuncs is).length
  dataCount := none
  names := []
  refs := fun _ => False
  owned := true
  code := none
  snapshot := none

/-- Whether an import is one of those of the module. -/
structure ImpOk (C : Ctx) (is : List Import) (i : Import) : Prop where
  func : ∀ t, i.ty = .func t ∨ i.ty = .funcExact t →
    C.funcs[(importedFuncs is).length]? = some t ∧ ∃ x ps rs, FuncAt C t x ps rs
  table : ∀ t, i.ty = .table t → NoExactVal (.ref t.elementType) ∧
    ∃ tt, C.tables[(importedTables is).length]? = some tt ∧ TableOk C t tt
  mem : ∀ t, i.ty = .memory t → ∃ b, C.mems[(importedMems is).length]? = some b ∧ MemOk t b
  tag : ∀ t, i.ty = .tag t → ∃ ty, C.tags[(importedTags is).length]? = some ty ∧ TagOk C t ty
  global : ∀ t, i.ty = .global t → NoExactVal t.contentType ∧
    ∃ g, C.globals[(importedGlobals is).length]? = some g ∧ GlobalOk C t g
  size : 1 + ((is ++ [i]).map (importSize C)).sum < 1000000
  few : C.funcs.length ≤ 1000000 ∧ C.tables.length ≤ 100 ∧ C.mems.length ≤ 100 ∧
    C.tags.length ≤ 1000000 ∧ C.globals.length ≤ 1000000

theorem take_len_le {α : Type} {l : List α} {n m : Nat} (h : l.length ≤ m) : (l.take n).length ≤ m :=
  Nat.le_trans (by rw [List.length_take]; omega) h

theorem go3 {α β : Type} {x : X (β × α)} {b : β} {P : α → Prop} {a : α} (h : x = .ok (b, a))
    (hp : P a) : ∃ a, x = .ok (b, a) ∧ P a := ⟨a, h, hp⟩

theorem At.importType (ha : AllFeats f) {is : List Import} {i : Import}
    (h : At f T C (.imp C is) s) (hi : ImpOk C is i) :
    ∃ s', addImportType f T s i.ty = .ok (importSize C i, s') ∧
      At f T C { Pos.imp C (is ++ [i]) with size := 1 + (is.map (importSize C)).sum } s' := by
  obtain ⟨mod, name, ty⟩ := i
  have hsz := hi.size
  rw [List.map_append, List.sum_append] at hsz
  cases ty with
  | func t =>
    obtain ⟨h1, x, ps, rs, hx⟩ := hi.func t (.inl rfl)
    obtain ⟨id, h2, h3, h4⟩ := funcType_go h.same hx
    have hz : importSize C (⟨mod, name, .func t⟩ : Import) = sigSize ps rs := typeSize_eq hx
    simp only [List.map_cons, List.map_nil, List.sum_cons, List.sum_nil, hz] at hsz
    have hfs : s.m.functions ++ [t] = C.funcs.take ((importedFuncs is).length + 1) := by
      rw [h.funcs, take_snoc h1]; rfl
    have hc : Pos.imp C (is ++ [(⟨mod, name, .func t⟩ : Import)]) = { Pos.imp C is with
        funcs := (importedFuncs is).length + 1, imported := (importedFuncs is).length + 1
        size := 1 + ((is ++ [(⟨mod, name, .func t⟩ : Import)]).map (importSize C)).sum } := by
      unfold Pos.imp importedFuncs importedTables importedMems importedTags importedGlobals
      simp
    apply go3
    · show (funcTypeAt T s.m t >>= _) = _
      rw [h4]
      show (orPanic s.m.types[t.toNat]? >>= _) = _
      rw [h2]
      show (checkMax (s.m.functions ++ [t]).length 0 1000000 >>= _) = _
      rw [checkMax_go (by rw [hfs]; exact take_len_le hi.few.1)]
      show (infoSize T id >>= _) = _
      rw [info_go h3 hx.2 (by omega), hz]
      rfl
    · rw [hc]
      exact { h with
        same := ⟨h.same.hist.of rfl h.same.hist.tags, h.same.types, h.same.defs⟩
        funcs := hfs
        imported := congrArg (· + 1) h.imported
        size := h.size }
  | funcExact t =>
    obtain ⟨h1, x, ps, rs, hx⟩ := hi.func t (.inr rfl)
    obtain ⟨id, h2, h3, h4⟩ := funcType_go h.same hx
    have hz : importSize C (⟨mod, name, .funcExact t⟩ : Import) = sigSize ps rs := typeSize_eq hx
    simp only [List.map_cons, List.map_nil, List.sum_cons, List.sum_nil, hz] at hsz
    have hfs : s.m.functions ++ [t] = C.funcs.take ((importedFuncs is).length + 1) := by
      rw [h.funcs, take_snoc h1]; rfl
    have hc : Pos.imp C (is ++ [(⟨mod, name, .funcExact t⟩ : Import)]) = { Pos.imp C is with
        funcs := (importedFuncs is).length + 1, imported := (importedFuncs is).length + 1
        size := 1 + ((is ++ [(⟨mod, name, .funcExact t⟩ : Import)]).map (importSize C)).sum } := by
      unfold Pos.imp importedFuncs importedTables importedMems importedTags importedGlobals
      simp
    apply go3
    · show (funcTypeAt T s.m t >>= _) = _
      rw [h4]
      show (orPanic s.m.types[t.toNat]? >>= _) = _
      rw [h2]
      show (checkMax (s.m.functions ++ [t]).length 0 1000000 >>= _) = _
      rw [checkMax_go (by rw [hfs]; exact take_len_le hi.few.1)]
      show (infoSize T id >>= _) = _
      rw [info_go h3 hx.2 (by omega), hz]
      rfl
    · rw [hc]
      exact { h with
        same := ⟨h.same.hist.of rfl h.same.hist.tags, h.same.types, h.same.defs⟩
        funcs := hfs
        imported := congrArg (· + 1) h.imported
        size := h.size }
  | table t =>
    obtain ⟨hn, tt, h1, h2⟩ := hi.table t rfl
    have h3 := checkTableType_go ha h.same h2 hn
    have hfs : (s.m.tables ++ [(⟨tt.elem, tt.is64, tt.shared⟩ : TableTy)]).map toTableT =
        C.tables.take ((importedTables is).length + 1) := by
      rw [List.map_append, h.tables, take_snoc h1]; rfl
    have hc : Pos.imp C (is ++ [(⟨mod, name, .table t⟩ : Import)]) = { Pos.imp C is with
        tables := (importedTables is).length + 1
        size := 1 + ((is ++ [(⟨mod, name, .table t⟩ : Import)]).map (importSize C)).sum } := by
      unfold Pos.imp importedFuncs importedTables importedMems importedTags importedGlobals
      simp
    have hlen := congrArg List.length hfs
    rw [List.length_map] at hlen
    apply go3
    · show (checkTableType f T s.m t >>= _) = _
      rw [h3]
      show (checkMax (s.m.tables ++ [_]).length 0 (maxTables f) >>= _) = _
      have hmax : maxTables f = 100 := by
        unfold maxTables; rw [show f.referenceTypes = true by rw [ha.ops]; rfl]; rfl
      rw [checkMax_go (by rw [hlen, hmax]; exact take_len_le hi.few.2.1)]
      rfl
    · rw [hc]
      exact { h with
        same := ⟨h.same.hist.of rfl h.same.hist.tags, h.same.types, h.same.defs⟩
        tables := hfs
        size := h.size }
  | memory t =>
    obtain ⟨b, h1, h2⟩ := hi.mem t rfl
    obtain ⟨h3, rfl⟩ := checkMemoryType_go ha h2
    have hfs : s.m.memories ++ [t.memory64] = C.mems.take ((importedMems is).length + 1) := by
      rw [h.mems, take_snoc h1]; rfl
    have hc : Pos.imp C (is ++ [(⟨mod, name, .memory t⟩ : Import)]) = { Pos.imp C is with
        mems := (importedMems is).length + 1
        size := 1 + ((is ++ [(⟨mod, name, .memory t⟩ : Import)]).map (importSize C)).sum } := by
      unfold Pos.imp importedFuncs importedTables importedMems importedTags importedGlobals
      simp
    apply go3
    · show (checkMemoryType f t >>= _) = _
      rw [h3]
      show (checkMax (s.m.memories ++ [_]).length 0 (maxMemories f) >>= _) = _
      have hmax : maxMemories f = 100 := by
        unfold maxMemories; rw [ha.multiMemory]; rfl
      rw [checkMax_go (by rw [hfs, hmax]; exact take_len_le hi.few.2.2.1)]
      rfl
    · rw [hc]
      exact { h with
        same := ⟨h.same.hist.of rfl h.same.hist.tags, h.same.types, h.same.defs⟩
        mems := hfs
        size := h.size }
  | tag t =>
    obtain ⟨ty, h1, h2⟩ := hi.tag t rfl
    obtain ⟨x, hx⟩ := h2
    obtain ⟨h3, id, h4, h5, h6⟩ := checkTagType_go ha h.same ⟨x, hx⟩
    obtain ⟨id', h7, h8, h9⟩ := funcType_go h.same hx
    rw [h4] at h7
    cases h7
    have hz : importSize C (⟨mod, name, .tag t⟩ : Import) = sigSize ty.1 ty.2 := typeSize_eq hx
    simp only [List.map_cons, List.map_nil, List.sum_cons, List.sum_nil, hz] at hsz
    have hfs : (s.m.tags ++ [id]).map (tagType (listOf T)) =
        C.tags.take ((importedTags is).length + 1) := by
      rw [List.map_append, h.tags, take_snoc h1, ← h5]; rfl
    have hc : Pos.imp C (is ++ [(⟨mod, name, .tag t⟩ : Import)]) = { Pos.imp C is with
        tags := (importedTags is).length + 1
        size := 1 + ((is ++ [(⟨mod, name, .tag t⟩ : Import)]).map (importSize C)).sum } := by
      unfold Pos.imp importedFuncs importedTables importedMems importedTags importedGlobals
      simp
    have hlen := congrArg List.length hfs
    rw [List.length_map] at hlen
    apply go3
    · show (checkTagType f T s.m t >>= _) = _
      rw [h3]
      show (orPanic s.m.types[t.funcTypeIdx.toNat]? >>= _) = _
      rw [h4]
      show (checkMax (s.m.tags ++ [_]).length 0 1000000 >>= _) = _
      rw [checkMax_go (by rw [hlen]; exact take_len_le hi.few.2.2.2.1)]
      show (infoSize T id >>= _) = _
      rw [info_go h8 hx.2 (by omega), hz]
      rfl
    · rw [hc]
      exact { h with
        same := ⟨h.same.hist.tag h6, h.same.types, h.same.defs⟩
        tags := hfs
        size := h.size }
  | global t =>
    obtain ⟨hn, g, h1, h2⟩ := hi.global t rfl
    have h3 := checkGlobalType_go ha h.same h2 hn
    have hfs : (s.m.globals ++ [(⟨g.content, g.mutable, g.shared⟩ : GlobalTy)]).map toGlobalT =
        C.globals.take ((importedGlobals is).length + 1) := by
      rw [List.map_append, h.globals, take_snoc h1]; rfl
    have hc : Pos.imp C (is ++ [(⟨mod, name, .global t⟩ : Import)]) = { Pos.imp C is with
        globals := (importedGlobals is).length + 1
        size := 1 + ((is ++ [(⟨mod, name, .global t⟩ : Import)]).map (importSize C)).sum } := by
      unfold Pos.imp importedFuncs importedTables importedMems importedTags importedGlobals
      simp
    have hlen := congrArg List.length hfs
    rw [List.length_map] at hlen
    apply go3
    · show (checkGlobalType f T s.m t >>= _) = _
      rw [h3]
      show ((if g.mutable then need f.mutableGlobal else pure ()) >>= _) = _
      rw [reqIf_go fun _ => ha.mutableGlobal]
      show (checkMax (s.m.globals ++ [_]).length 0 1000000 >>= _) = _
      rw [checkMax_go (by rw [hlen]; exact take_len_le hi.few.2.2.2.2)]
      rfl
    · rw [hc]
      exact { h with
        same := ⟨h.same.hist.of rfl h.same.hist.tags, h.same.types, h.same.defs⟩
        globals := hfs
        size := h.size }

theorem At.import (ha : AllFeats f) {is : List Import} {i : Import}
    (h : At f T C (.imp C is) s) (hi : ImpOk C is i) :
    ∃ s', addImport f T s i = .ok s' ∧ At f T C (.imp C (is ++ [i])) s' := by
  obtain ⟨s1, h1, h2⟩ := h.importType ha hi
  have hz := hi.size
  have he : 1 + ((is ++ [i]).map (importSize C)).sum =
      1 + (is.map (importSize C)).sum + importSize C i := by simp; omega
  have hs1 : s1.typeSize = 1 + (is.map (importSize C)).sum := h2.size
  apply go2
  · unfold addImport
    rw [h1]
    show (combineTypeSizes s1.typeSize (importSize C i) >>= _) = _
    rw [hs1, combine_go (by omega), ← he]
    rfl
  · exact { h2 with
      same := ⟨h2.same.hist.of rfl h2.same.hist.tags, h2.same.types, h2.same.defs⟩
      size := rfl }

end Verif.Valid
