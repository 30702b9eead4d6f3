import Verif.Valid.AllSecs
/-! # Exports and segments of valid modules are accepted, and the loops over items -/
namespace Verif.Valid
open Verif.Reader Verif.Items
open Spec
open Verif.Op.Typing Verif.Op.View
open Verif.Op (TableTy GlobalTy)
open Verif.Std (BSearch)
open Verif.TypeList (TypeList)
open Verif.TypeList.Spec (SubT RefSub)
open Verif.Instr (Operator)
open Verif.Types (RefType ValType HeapType)

variable {f : Feats} {bs : BSearch} {T : TypeList} {C : Ctx} {p : Pos} {s s' : ModuleState}

/-! ## Exports -/

theorem insert_grows (i : BitVec 32) : Grows s { s with m := insertRef s.m i } (· = i) :=
  ⟨by rw [← insertRef_eq], fun _ => insertRef_mem⟩

theorem At.full_func (h : At f T C p s) (hf : Full C p) : s.m.functions = C.funcs := by
  rw [h.funcs, List.take_of_length_le hf.funcs]

theorem lt_at {α : Type} {l : List α} {n : Nat} (h : n < l.length) : ∃ a, l[n]? = some a :=
  ⟨l[n], List.getElem?_eq_getElem h⟩

theorem At.exportType (ha : AllFeats f) (h : At f T C p s) (hf : Full C p) {x : Export}
    (hx : ExportOk C x) (ht : ∀ i ∈ C.funcs, ∃ x ps rs, FuncAt C i x ps rs)
    (hz : exportSize C x < 1000000) :
    ∃ s', exportType f T s x.index x.kind = .ok (exportSize C x, s') ∧ At f T C { p with
      refs := fun i => p.refs i ∨ (x.kind = .func ∧ x.index = i) } s' := by
  obtain ⟨name, kind, i⟩ := x
  cases kind with
  | func =>
    obtain ⟨t, h1⟩ := lt_at (show i.toNat < C.funcs.length from hx)
    obtain ⟨x, ps, rs, h2⟩ := ht t (List.mem_of_getElem? h1)
    obtain ⟨id, h3, h4, h5⟩ := funcType_go h.same h2
    have he : exportSize C ⟨name, .func, i⟩ = sigSize ps rs := by
      show ((C.funcs[i.toNat]?).map (typeSize C)).getD 0 = _
      rw [h1]
      exact typeSize_eq h2
    rw [he] at hz
    refine ⟨_, ?_, (h.grow (insert_grows i)).congr fun j => ?_⟩
    · show (orErr s.m.functions[i.toNat]? >>= _) = _
      rw [h.full_func hf, h1]
      show (orPanic (insertRef s.m i).types[t.toNat]? >>= _) = _
      rw [insertRef_eq]
      show (orPanic s.m.types[t.toNat]? >>= _) = _
      rw [h3]
      show (infoSize T id >>= _) = _
      rw [info_go h4 h2.2 hz, he]
      rfl
    · refine or_congr_right ?_
      constructor
      · rintro rfl; exact ⟨rfl, rfl⟩
      · rintro ⟨-, rfl⟩; rfl
  | table =>
    obtain ⟨t, h1⟩ := lt_at (show i.toNat < C.tables.length from hx)
    obtain ⟨a, h2, -⟩ := map_at h.tables (Nat.lt_of_lt_of_le (get_lt h1) hf.tables) h1
    refine ⟨s, ?_, h.congr fun j => ?_⟩
    · show (orErr s.m.tables[i.toNat]? >>= _) = _
      rw [h2]
      rfl
    · exact ⟨.inl, fun h => h.elim id fun h => nomatch h.1⟩
  | memory =>
    obtain ⟨t, h1⟩ := lt_at (show i.toNat < C.mems.length from hx)
    refine ⟨s, ?_, h.congr fun j => ?_⟩
    · show (orErr s.m.memories[i.toNat]? >>= _) = _
      rw [h.mems, List.take_of_length_le hf.mems, h1]
      rfl
    · exact ⟨.inl, fun h => h.elim id fun h => nomatch h.1⟩
  | global =>
    obtain ⟨t, h1⟩ := lt_at (show i.toNat < C.globals.length from hx)
    obtain ⟨a, h2, -⟩ := map_at h.globals (Nat.lt_of_lt_of_le (get_lt h1) hf.globals) h1
    refine ⟨s, ?_, h.congr fun j => ?_⟩
    · show (orErr s.m.globals[i.toNat]? >>= _) = _
      rw [h2]
      show ((if a.mutable then need f.mutableGlobal else pure ()) >>= _) = _
      rw [reqIf_go fun _ => ha.mutableGlobal]
      rfl
    · exact ⟨.inl, fun h => h.elim id fun h => nomatch h.1⟩
  | tag =>
    obtain ⟨t, h1⟩ := lt_at (show i.toNat < C.tags.length from hx)
    obtain ⟨a, h2, h3⟩ := map_at h.tags (Nat.lt_of_lt_of_le (get_lt h1) hf.tags) h1
    obtain ⟨x, ps, rs, h4, h5⟩ := h.same.hist.tags a (List.mem_of_getElem? h2)
    have he : exportSize C ⟨name, .tag, i⟩ = sigSize ps rs := by
      show ((C.tags[i.toNat]?).map fun t => sigSize t.1 t.2).getD 0 = _
      rw [h1, ← h3]
      unfold tagType
      rw [h4]
      dsimp only [Option.map_some, Option.getD_some]
      rw [h5]
    rw [he] at hz
    refine ⟨s, ?_, h.congr fun j => ?_⟩
    · show (orErr s.m.tags[i.toNat]? >>= _) = _
      rw [h2]
      show (infoSize T a >>= _) = _
      rw [info_go h4 h5 hz, he]
      rfl
    · exact ⟨.inl, fun h => h.elim id fun h => nomatch h.1⟩
  | funcExact => exact hx.elim

theorem At.export (ha : AllFeats f) (h : At f T C p s) (ho : p.owned = true) (hf : Full C p)
    {x : Export} (hx : ExportOk C x) (ht : ∀ i ∈ C.funcs, ∃ x ps rs, FuncAt C i x ps rs)
    (hn : x.name ∉ p.names) (hz : p.size + exportSize C x < 1000000) :
    ∃ s', addExport f T s x = .ok s' ∧ At f T C { p with
      size := p.size + exportSize C x
      names := p.names ++ [x.name]
      refs := fun i => p.refs i ∨ (x.kind = .func ∧ x.index = i) } s' := by
  obtain ⟨s1, h1, h2⟩ := h.exportType ha hf hx ht (by omega)
  have e1 : s1.typeSize = p.size := h2.size
  have e2 : s1.exports = p.names := h2.names
  apply go2
  · unfold addExport
    rw [h.mut ho]
    show (Valid.exportType f T s x.index x.kind >>= _) = _
    rw [h1]
    show (combineTypeSizes s1.typeSize (exportSize C x) >>= _) = _
    rw [e1, combine_go hz]
    show (need (!s1.exports.contains x.name) >>= _) = _
    rw [need_go (by rw [e2]; simpa using hn)]
    rfl
  · exact { h2 with
      same := ⟨h2.same.hist.of rfl h2.same.hist.tags, h2.same.types, h2.same.defs⟩
      size := rfl
      names := by rw [← e2] }

/-! ## Element segments -/

theorem mem_snoc {α : Type} {xs : List α} {k : Nat} {x : α} (h : xs[k]? = some x) {Q : α → Prop} :
    (∃ a ∈ xs.take (k + 1), Q a) ↔ (∃ a ∈ xs.take k, Q a) ∨ Q x := by
  rw [take_snoc h]
  constructor
  · rintro ⟨a, h1, h2⟩
    rcases List.mem_append.1 h1 with h1 | h1
    · exact .inl ⟨a, h1, h2⟩
    · cases List.mem_singleton.1 h1; exact .inr h2
  · rintro (⟨a, h1, h2⟩ | h2)
    · exact ⟨a, List.mem_append_left _ h1, h2⟩
    · exact ⟨x, List.mem_append_right _ (by simp), h2⟩

theorem At.elemFuncs (h : At f T C p s) (ho : p.owned = true) (hf : Full C p)
    {is : List (BitVec 32)} (hi : ∀ i ∈ is, i.toNat < C.funcs.length)
    (ht : ∀ i ∈ C.funcs, ∃ x ps rs, FuncAt C i x ps rs) :
    ∃ s', fold (addElementFunc T) is s = .ok s' ∧
      At f T C { p with refs := fun i => p.refs i ∨ i ∈ is } s' := by
  obtain ⟨s', h1, h2⟩ := fold_at (g := addElementFunc T) (xs := is) (s := s) (P := fun k s =>
      At f T C { p with refs := fun i => p.refs i ∨ ∃ a ∈ is.take k, a = i } s)
    (fun k x s hk h => by
      obtain ⟨t, h1⟩ := lt_at (hi x (List.mem_of_getElem? hk))
      obtain ⟨y, ps, rs, h2⟩ := ht t (List.mem_of_getElem? h1)
      obtain ⟨id, h3, h4, h5⟩ := funcType_go h.same h2
      refine ⟨_, ?_, (h.grow (insert_grows x)).congr fun i => ?_⟩
      · unfold addElementFunc getFuncType
        rw [h.full_func ⟨hf.1, hf.2, hf.3, hf.4, hf.5⟩, h1]
        show (funcTypeAt T s.m t >>= _) = _
        rw [h5]
        show (s.assertMut >>= _) = _
        rw [h.mut ho]
        rfl
      · dsimp only
        rw [mem_snoc hk, or_assoc]
        exact or_congr_right (or_congr_right eq_comm))
    (h.congr fun i => by simp)
  refine ⟨s', h1, h2.congr fun i => ?_⟩
  simp

theorem At.elemExprs (ha : AllFeats f) (h : At f T C p s) (ho : p.owned = true) (hf : Full C p)
    {es : List ConstExpr} {oss : List (List Operator)} {ty : Op.Ref}
    (hs : List.Forall₂ (ConstOps f.reader.toFeatures) es oss)
    (hc : ∀ os ∈ oss, ConstTy C os (.ref ty)) (hn : ∀ os ∈ oss, Plainly os) :
    ∃ s', fold (fun s e => checkConstExpr f bs T s e (.ref ty)) es s = .ok s' ∧
      At f T C { p with refs := fun i => p.refs i ∨ ∃ os ∈ oss, Refs os i } s' := by
  obtain ⟨s', h1, h2⟩ := fold_at (g := fun s e => checkConstExpr f bs T s e (.ref ty)) (xs := es)
    (s := s) (P := fun k s =>
      At f T C { p with refs := fun i => p.refs i ∨ ∃ os ∈ oss.take k, Refs os i } s)
    (fun k x s hk h => by
      obtain ⟨os, h1, h2⟩ := forall₂_at hs hk
      have hm := List.mem_of_getElem? h1
      obtain ⟨s', h3, h4⟩ := h.const' (bs := bs) ha ⟨hf.1, hf.2, hf.3, hf.4, hf.5⟩ h2 (hn os hm)
        (.inl ho) (hc os hm)
      refine ⟨s', h3, h4.congr fun i => ?_⟩
      dsimp only
      rw [mem_snoc h1, or_assoc])
    (h.congr fun i => by simp)
  refine ⟨s', h1, h2.congr fun i => ?_⟩
  rw [hs.length_eq]
  simp

theorem At.elem (ha : AllFeats f) (h : At f T C p s) (ho : p.owned = true) (hf : Full C p)
    {e : Element} {x : ElemMode × ElemItems} {ty : Op.Ref} (hi : C.elems[p.elems]? = some ty)
    (hok : ElemOk C x ty) (hs : ElemSays f.reader.toFeatures e x) (hn : x.1.Plainly ∧ x.2.Plainly)
    (hl : x.2.length ≤ 10000000) (ht : ∀ i ∈ C.funcs, ∃ x ps rs, FuncAt C i x ps rs)
    (htab : ∀ tt ∈ C.tables, ∃ r, C.RefTy r tt.elem) :
    ∃ s', addElementSegment f bs T s e = .ok s' ∧ At f T C { p with
      elems := p.elems + 1
      refs := fun i => p.refs i ∨ (x.1.Mentions i ∨ x.2.Mentions i) } s' := by
  obtain ⟨mode, items⟩ := x
  obtain ⟨ek, ei, er⟩ := e
  obtain ⟨hm, hit⟩ := hok
  obtain ⟨hsm, hsi⟩ := hs
  dsimp only at hm hit hsm hsi hl hn
  -- the type
  obtain ⟨h1, hin⟩ : elementType f s.m ei = .ok ty ∧ Op.inList (listOf T) ty.heap.refs = true := by
    cases ei with
    | functions sec =>
      cases items with
      | funcs is => rw [hit.1]; exact ⟨rfl, rfl⟩
      | exprs => exact hsi.elim
    | expressions t sec =>
      cases items with
      | funcs => exact hsi.elim
      | exprs t' es =>
        obtain ⟨rfl, -⟩ := hsi
        exact ⟨checkRefType_go ha h.same hit.1 hn.2.1, refIn h.same hit.1⟩
  -- the mode
  obtain ⟨s1, h2, h3⟩ : ∃ s1, checkElementKind f bs T s ty ek = .ok s1 ∧
      At f T C { p with refs := fun i => p.refs i ∨ mode.Mentions i } s1 := by
    cases ek with
    | active i off =>
      cases mode with
      | active t os =>
        obtain ⟨rfl, ho'⟩ := hsm
        obtain ⟨tt, g1, g2, g3⟩ := hm
        obtain ⟨a, g4, g5⟩ := map_at h.tables (Nat.lt_of_lt_of_le (get_lt g1) hf.tables) g1
        subst g5
        obtain ⟨r, g6⟩ := htab _ (List.mem_of_getElem? g1)
        obtain ⟨s1, g7, g8⟩ := h.const' (bs := bs) ha hf ho' hn.1 (.inl ho) g3
        refine ⟨s1, ?_, g8⟩
        show (orErr s.m.tables[(i.getD 0).toNat]? >>= _) = _
        rw [g4]
        show (refIsSubtype T ty a.elem >>= _) = _
        rw [show refIsSubtype T ty a.elem = .ok true from subtype_go h.same hin (refIn h.same g6) g2]
        show checkConstExpr f bs T s off (Op.indexType a.table64) = _
        rw [indexType_eq]
        exact g7
      | _ => exact hsm.elim
    | passive =>
      cases mode with
      | passive =>
        refine ⟨s, ?_, h.congr fun i => ⟨.inl, fun h => h.elim id False.elim⟩⟩
        show (need f.bulkMemory >>= _) = _
        rw [need_go (by rw [ha.ops]; rfl)]
        rfl
      | _ => exact hsm.elim
    | declared =>
      cases mode with
      | declared =>
        refine ⟨s, ?_, h.congr fun i => ⟨.inl, fun h => h.elim id False.elim⟩⟩
        show (need f.bulkMemory >>= _) = _
        rw [need_go (by rw [ha.ops]; rfl)]
        rfl
      | _ => exact hsm.elim
  -- the items
  obtain ⟨s2, h4, h5⟩ : ∃ s2, checkElementItems f bs T s1 ty ei = .ok s2 ∧ At f T C { p with
      refs := fun i => p.refs i ∨ (mode.Mentions i ∨ items.Mentions i) } s2 := by
    cases ei with
    | functions sec =>
      cases items with
      | funcs is =>
        have hc : sec.collect readVarU32 = .ok is := hsi
        have hcl := collect_length hc
        obtain ⟨s2, g1, g2⟩ := h3.elemFuncs ho ⟨hf.1, hf.2, hf.3, hf.4, hf.5⟩ hit.2 ht
        refine ⟨s2, ?_, g2.congr fun i => or_assoc⟩
        show (validateCount sec.count >>= _) = _
        rw [show validateCount sec.count = .ok () from need_go (decide_eq_true (hcl ▸ hl))]
        exact eachItem_of hc g1
      | exprs => exact hsi.elim
    | expressions t sec =>
      cases items with
      | funcs => exact hsi.elim
      | exprs t' es =>
        obtain ⟨rfl, ces, hc, hall⟩ := hsi
        have hcl := collect_length hc
        obtain ⟨s2, g1, g2⟩ := h3.elemExprs (bs := bs) ha ho ⟨hf.1, hf.2, hf.3, hf.4, hf.5⟩ hall
          hit.2 hn.2.2
        refine ⟨s2, ?_, g2.congr fun i => or_assoc⟩
        show (validateCount sec.count >>= _) = _
        rw [show validateCount sec.count = .ok () from
          need_go (decide_eq_true (by rw [← hcl, hall.length_eq]; exact hl))]
        exact eachItem_of hc g1
  have hfs : s2.m.elementTypes ++ [ty] = C.elems.take (p.elems + 1) := by
    rw [h5.elems, take_snoc hi]
  apply go2
  · unfold addElementSegment
    rw [h1]
    show (checkElementKind f bs T s ty ek >>= _) = _
    rw [h2]
    show (checkElementItems f bs T s1 ty ei >>= _) = _
    rw [h4]
    show (s2.assertMut >>= _) = _
    rw [h5.mut ho]
    rfl
  · exact { h5 with
      same := ⟨h5.same.hist.of rfl h5.same.hist.tags, h5.same.types, h5.same.defs⟩
      elems := hfs }

/-! ## Data segments -/

theorem data_refs {d : Option (BitVec 32 × List Operator)} (h : DataOk C d) {j : BitVec 32}
    {os : List Operator} (hd : d = some (j, os)) (i : BitVec 32) : ¬ Refs os i := by
  subst hd
  obtain ⟨b, -, h⟩ := h
  exact const_int h i

theorem At.data (ha : AllFeats f) (h : At f T C p s) (hf : Full C p) {d : Data}
    {x : Option (BitVec 32 × List Operator)} (hok : DataOk C x)
    (hs : DataSays f.reader.toFeatures d x) (hn : ∀ i os, x = some (i, os) → Plainly os) :
    ∃ s', addDataSegment f bs T s d = .ok s' ∧ At f T C p s' := by
  unfold DataSays at hs
  unfold addDataSegment
  cases hk : d.kind with
  | passive =>
    refine ⟨s, ?_, h⟩
    show (need f.bulkMemory >>= _) = _
    rw [need_go (by rw [ha.ops]; rfl)]
    rfl
  | active i off =>
    rw [hk] at hs
    cases x with
    | none => exact hs.elim
    | some x =>
      obtain ⟨j, os⟩ := x
      obtain ⟨rfl, ho⟩ := hs
      have hr := data_refs hok rfl
      obtain ⟨b, g1, g2⟩ := hok
      obtain ⟨s1, g3, g4⟩ := h.const' (bs := bs) ha hf ho (hn _ _ rfl) (.inr hr) g2
      refine ⟨s1, ?_, g4.congr fun i => ⟨fun h => h.elim id fun h => absurd h (hr i), .inl⟩⟩
      show (orErr s.m.memories[j.toNat]? >>= _) = _
      rw [h.mems, List.take_of_length_le hf.mems, g1]
      show checkConstExpr f bs T s off (Op.indexType b) = _
      rw [indexType_eq]
      exact g3

/-! ## Loops -/

theorem at_right {α : Type} {pre xs : List α} {n k : Nat} {x : α} (hn : pre.length = n)
    (h : xs[k]? = some x) : (pre ++ xs)[n + k]? = some x := by
  rw [List.getElem?_append_right (by omega)]
  rw [show n + k - pre.length = k by omega]
  exact h

theorem rel_right {α β : Type} {R : α → β → Prop} {pre xs : List α} {ys : List β} {n k : Nat} {x : α}
    (h : List.Forall₂ R (pre ++ xs) ys) (hn : pre.length = n) (hx : xs[k]? = some x) :
    ∃ y, ys[n + k]? = some y ∧ R x y := forall₂_at h (at_right hn hx)

theorem At.funcSec (h : At f T C p s) (ho : p.owned = true) {pre xs : List (BitVec 32)}
    (hC : C.funcs = pre ++ xs) (hn : pre.length = p.funcs)
    (ht : ∀ i ∈ C.funcs, ∃ x ps rs, FuncAt C i x ps rs) :
    ∃ s', fold (addFunction T) xs s = .ok s' ∧
      At f T C { p with funcs := p.funcs + xs.length } s' :=
  fold_at (g := addFunction T) (xs := xs) (s := s) (P := fun k s =>
      At f T C { p with funcs := p.funcs + k } s)
    (fun k x s hk h => by
      have h1 : C.funcs[p.funcs + k]? = some x := by rw [hC]; exact at_right hn hk
      exact At.func h ho h1 (ht x (List.mem_of_getElem? h1)))
    h

theorem At.tableSec (ha : AllFeats f) (h : At f T C p s) (ho : p.owned = true)
    (hfu : C.funcs.length ≤ p.funcs) {ts : List Table}
    {xs : List (TableType × Option (List Operator))} {pre : List TableType}
    (hs : List.Forall₂ (TableSays f.reader.toFeatures) ts xs) (hn : pre.length = p.tables)
    (hC : List.Forall₂ (TableOk C) (pre ++ xs.map (·.1)) C.tables)
    (hin : List.Forall₂ (TableInitOk { C with globals := C.globals.take p.globals })
      (C.tables.drop p.tables) (xs.map (·.2)))
    (hp : ∀ t ∈ xs, NoExactVal (.ref t.1.elementType) ∧ ∀ os, t.2 = some os → Plainly os) :
    ∃ s', fold (addTable f bs T) ts s = .ok s' ∧ At f T C { p with
      tables := p.tables + xs.length
      refs := fun i => p.refs i ∨ ∃ t ∈ xs, ∃ os, t.2 = some os ∧ Refs os i } s' := by
  obtain ⟨s', h1, h2⟩ := fold_at (g := addTable f bs T) (xs := ts) (s := s) (P := fun k s =>
      At f T C { p with
        tables := p.tables + k
        refs := fun i => p.refs i ∨ ∃ t ∈ xs.take k, ∃ os, t.2 = some os ∧ Refs os i } s)
    (fun k t s hk h => by
      obtain ⟨x, h1, h2⟩ := forall₂_at hs hk
      have h3 : (xs.map (·.1))[k]? = some x.1 := by rw [List.getElem?_map, h1]; rfl
      obtain ⟨tt, h4, h5⟩ := rel_right hC hn h3
      have h6 : (C.tables.drop p.tables)[k]? = some tt := by rw [List.getElem?_drop]; exact h4
      obtain ⟨o, h7, h8⟩ := forall₂_at hin h6
      rw [List.getElem?_map, h1] at h7
      cases h7
      obtain ⟨s', h9, h10⟩ := At.table (bs := bs) ha h ho hfu h4 (h2.1 ▸ h5) h2 h8
        (hp x (List.mem_of_getElem? h1))
      refine ⟨s', h9, h10.congr fun i => ?_⟩
      dsimp only
      rw [mem_snoc h1, or_assoc])
    (h.congr fun i => by simp)
  rw [hs.length_eq] at h2
  exact ⟨s', h1, h2.congr fun i => by simp⟩

theorem At.memSec (ha : AllFeats f) (h : At f T C p s) (ho : p.owned = true)
    {pre xs : List MemoryType} (hC : List.Forall₂ MemOk (pre ++ xs) C.mems)
    (hn : pre.length = p.mems) :
    ∃ s', fold (addMemory f) xs s = .ok s' ∧ At f T C { p with mems := p.mems + xs.length } s' :=
  fold_at (g := addMemory f) (xs := xs) (s := s) (P := fun k s =>
      At f T C { p with mems := p.mems + k } s)
    (fun k x s hk h => by
      obtain ⟨b, h1, h2⟩ := rel_right hC hn hk
      exact At.mem ha h ho h1 h2)
    h

theorem At.tagSec (ha : AllFeats f) (h : At f T C p s) (ho : p.owned = true)
    {pre xs : List TagType} (hC : List.Forall₂ (TagOk C) (pre ++ xs) C.tags)
    (hn : pre.length = p.tags) :
    ∃ s', fold (addTag f T) xs s = .ok s' ∧ At f T C { p with tags := p.tags + xs.length } s' :=
  fold_at (g := addTag f T) (xs := xs) (s := s) (P := fun k s =>
      At f T C { p with tags := p.tags + k } s)
    (fun k x s hk h => by
      obtain ⟨b, h1, h2⟩ := rel_right hC hn hk
      exact At.tag ha h ho h1 h2)
    h

theorem At.globalSec (ha : AllFeats f) (h : At f T C p s) (ho : p.owned = true)
    (hfu : C.funcs.length ≤ p.funcs) {gs : List Global} {xs : List (GlobalType × List Operator)}
    {pre : List GlobalType} (hs : List.Forall₂ (GlobalSays f.reader.toFeatures) gs xs)
    (hn : pre.length = p.globals)
    (hC : List.Forall₂ (GlobalOk C) (pre ++ xs.map (·.1)) C.globals)
    (hin : ∀ (k : Nat) t os g, xs[k]? = some (t, os) → C.globals[p.globals + k]? = some g →
      ConstTy { C with globals := C.globals.take (p.globals + k) } os g.content)
    (hp : ∀ g ∈ xs, NoExactVal g.1.contentType ∧ Plainly g.2) :
    ∃ s', fold (addGlobal f bs T) gs s = .ok s' ∧ At f T C { p with
      globals := p.globals + xs.length
      refs := fun i => p.refs i ∨ ∃ g ∈ xs, Refs g.2 i } s' := by
  obtain ⟨s', h1, h2⟩ := fold_at (g := addGlobal f bs T) (xs := gs) (s := s) (P := fun k s =>
      At f T C { p with
        globals := p.globals + k
        refs := fun i => p.refs i ∨ ∃ g ∈ xs.take k, Refs g.2 i } s)
    (fun k t s hk h => by
      obtain ⟨⟨ty, os⟩, h1, h2⟩ := forall₂_at hs hk
      have h3 : (xs.map (·.1))[k]? = some ty := by rw [List.getElem?_map, h1]; rfl
      obtain ⟨gt, h4, h5⟩ := rel_right hC hn h3
      obtain ⟨s', h9, h10⟩ := At.global (bs := bs) ha h ho hfu h4 (h2.1 ▸ h5) h2
        (hin k ty os gt h1 h4) (hp _ (List.mem_of_getElem? h1))
      refine ⟨s', h9, h10.congr fun i => ?_⟩
      dsimp only
      rw [mem_snoc h1, or_assoc])
    (h.congr fun i => by simp)
  rw [hs.length_eq] at h2
  exact ⟨s', h1, h2.congr fun i => by simp⟩

theorem At.exportSec (ha : AllFeats f) (h : At f T C p s) (ho : p.owned = true) (hf : Full C p)
    {xs : List Export} (hx : ∀ x ∈ xs, ExportOk C x)
    (ht : ∀ i ∈ C.funcs, ∃ x ps rs, FuncAt C i x ps rs) (hnm : p.names = [])
    (hnd : (xs.map (·.name)).Nodup) (hz : p.size + (xs.map (exportSize C)).sum < 1000000) :
    ∃ s', fold (addExport f T) xs s = .ok s' ∧ At f T C { p with
      size := p.size + (xs.map (exportSize C)).sum
      names := xs.map (·.name)
      refs := fun i => p.refs i ∨ ∃ x ∈ xs, x.kind = .func ∧ x.index = i } s' := by
  obtain ⟨s', h1, h2⟩ := fold_at (g := addExport f T) (xs := xs) (s := s) (P := fun k s =>
      At f T C { p with
        size := p.size + ((xs.take k).map (exportSize C)).sum
        names := (xs.take k).map (·.name)
        refs := fun i => p.refs i ∨ ∃ x ∈ xs.take k, x.kind = .func ∧ x.index = i } s)
    (fun k x s hk h => by
      have hsum : ((xs.take (k + 1)).map (exportSize C)).sum =
          ((xs.take k).map (exportSize C)).sum + exportSize C x := by
        rw [take_snoc hk]; simp
      have hle : ((xs.take (k + 1)).map (exportSize C)).sum ≤ (xs.map (exportSize C)).sum := by
        conv => rhs; rw [← List.take_append_drop (k + 1) xs, List.map_append, List.sum_append]
        omega
      have hnn : x.name ∉ (xs.take k).map (·.name) := by
        intro hm
        rw [← List.take_append_drop (k + 1) xs, List.map_append, take_snoc hk, List.map_append] at hnd
        have := (List.nodup_append.1 (List.nodup_append.1 hnd).1).2.2 _ hm x.name (by simp)
        exact this rfl
      obtain ⟨s', h9, h10⟩ := At.export ha h ho ⟨hf.1, hf.2, hf.3, hf.4, hf.5⟩
        (hx x (List.mem_of_getElem? hk)) ht hnn (by dsimp only; omega)
      refine ⟨s', h9, ?_⟩
      have := h10.congr (q := fun i => p.refs i ∨ ∃ x ∈ xs.take (k + 1), x.kind = .func ∧ x.index = i)
        fun i => by
          dsimp only
          rw [mem_snoc hk, or_assoc]
      dsimp only at this
      rw [hsum, take_snoc hk, List.map_append, ← Nat.add_assoc]
      rw [take_snoc hk] at this
      exact this)
    (by
      have := h.congr (q := fun i => p.refs i ∨ ∃ x ∈ xs.take 0, x.kind = .func ∧ x.index = i)
        fun i => by simp
      obtain ⟨⟩ := p
      cases hnm
      exact this)
  rw [List.take_length] at h2
  exact ⟨s', h1, h2⟩

theorem At.elemSec (ha : AllFeats f) (h : At f T C p s) (ho : p.owned = true) (hf : Full C p)
    {es : List Element} {xs : List (ElemMode × ElemItems)} (he : p.elems = 0)
    (hs : List.Forall₂ (ElemSays f.reader.toFeatures) es xs)
    (hC : List.Forall₂ (ElemOk C) xs C.elems) (hn : ∀ e ∈ xs, e.1.Plainly ∧ e.2.Plainly)
    (hl : ∀ e ∈ xs, e.2.length ≤ 10000000) (ht : ∀ i ∈ C.funcs, ∃ x ps rs, FuncAt C i x ps rs)
    (htab : ∀ tt ∈ C.tables, ∃ r, C.RefTy r tt.elem) :
    ∃ s', fold (addElementSegment f bs T) es s = .ok s' ∧ At f T C { p with
      elems := xs.length
      refs := fun i => p.refs i ∨ ∃ e ∈ xs, e.1.Mentions i ∨ e.2.Mentions i } s' := by
  obtain ⟨s', h1, h2⟩ := fold_at (g := addElementSegment f bs T) (xs := es) (s := s) (P := fun k s =>
      At f T C { p with
        elems := k
        refs := fun i => p.refs i ∨ ∃ e ∈ xs.take k, e.1.Mentions i ∨ e.2.Mentions i } s)
    (fun k t s hk h => by
      obtain ⟨x, h1, h2⟩ := forall₂_at hs hk
      obtain ⟨ty, h4, h5⟩ := forall₂_at hC h1
      have hm := List.mem_of_getElem? h1
      obtain ⟨s', h9, h10⟩ := At.elem (bs := bs) ha h ho ⟨hf.1, hf.2, hf.3, hf.4, hf.5⟩ h4 h5 h2
        (hn x hm) (hl x hm) ht htab
      refine ⟨s', h9, h10.congr fun i => ?_⟩
      dsimp only
      rw [mem_snoc h1, or_assoc])
    (by
      have := h.congr (q := fun i => p.refs i ∨ ∃ e ∈ xs.take 0, e.1.Mentions i ∨ e.2.Mentions i)
        fun i => by simp
      obtain ⟨⟩ := p
      cases he
      exact this)
  rw [hs.length_eq] at h2
  exact ⟨s', h1, h2.congr fun i => by simp⟩

theorem At.dataSec (ha : AllFeats f) (h : At f T C p s) (hf : Full C p) {ds : List Data}
    {xs : List (Option (BitVec 32 × List Operator))}
    (hs : List.Forall₂ (DataSays f.reader.toFeatures) ds xs) (hok : ∀ d ∈ xs, DataOk C d)
    (hn : ∀ d ∈ xs, ∀ i os, d = some (i, os) → Plainly os) :
    ∃ s', fold (addDataSegment f bs T) ds s = .ok s' ∧ At f T C p s' :=
  fold_at (g := addDataSegment f bs T) (xs := ds) (s := s) (P := fun _ s => At f T C p s)
    (fun k t s hk h => by
      obtain ⟨x, h1, h2⟩ := forall₂_at hs hk
      have hm := List.mem_of_getElem? h1
      exact h.data ha hf (hok x hm) h2 (hn x hm))
    h

/-! ## Imports -/

theorem filter_at {α β : Type} (g : α → Option β) (a c : List α) {i : α} {b : β} (h : g i = some b) :
    ((a ++ i :: c).filterMap g)[(a.filterMap g).length]? = some b := by
  rw [List.filterMap_append, List.filterMap_cons, h]
  exact at_right rfl (k := 0) rfl

theorem left_at {α : Type} {l pre : List α} {n : Nat} {a : α} (h : l[n]? = some a) :
    (l ++ pre)[n]? = some a := by
  rw [List.getElem?_append_left (get_lt h)]
  exact h

theorem impOk {tr : List Parser.Event} {M : Mod} {body} (hm : ModuleOk C body M) (hf : Fits f tr C M)
    {is rest : List Import} {i : Import} (h : M.imports = is ++ i :: rest) : ImpOk C is i where
  func := by
    intro t ht
    have h1 : C.funcs[(importedFuncs is).length]? = some t := by
      rw [hm.funcs, h]
      refine left_at (filter_at _ _ _ ?_)
      rcases ht with ht | ht <;> rw [ht]
    exact ⟨h1, hm.funcTypes t (List.mem_of_getElem? h1)⟩
  table := by
    intro t ht
    have := hf.plainImports i (by rw [h]; simp)
    rw [ht] at this
    refine ⟨this, forall₂_at hm.tables (left_at ?_)⟩
    rw [h]
    exact filter_at _ _ _ (by rw [ht])
  mem := by
    intro t ht
    refine forall₂_at hm.mems (left_at ?_)
    rw [h]
    exact filter_at _ _ _ (by rw [ht])
  tag := by
    intro t ht
    refine forall₂_at hm.tags (left_at ?_)
    rw [h]
    exact filter_at _ _ _ (by rw [ht])
  global := by
    intro t ht
    have := hf.plainImports i (by rw [h]; simp)
    rw [ht] at this
    refine ⟨this, forall₂_at hm.globals (left_at ?_)⟩
    rw [h]
    exact filter_at _ _ _ (by rw [ht])
  size := by
    have := hf.size
    rw [h] at this
    simp only [List.map_append, List.map_cons, List.sum_append, List.sum_cons, List.map_nil,
      List.sum_nil] at this ⊢
    omega
  few := ⟨hf.funcs, hf.tables, hf.mems, hf.tags, hf.globals⟩

theorem At.imports (ha : AllFeats f) {tr : List Parser.Event} {M : Mod} {body}
    (hm : ModuleOk C body M) (hf : Fits f tr C M) : ∀ {is pre rest : List Import} {s : ModuleState},
    M.imports = pre ++ is ++ rest → At f T C (.imp C pre) s →
    ∃ s', fold (addImport f T) is s = .ok s' ∧ At f T C (.imp C (pre ++ is)) s'
  | [], pre, rest, s, _, h => ⟨s, rfl, by rw [List.append_nil]; exact h⟩
  | i :: is, pre, rest, s, he, h => by
    obtain ⟨s1, h1, h2⟩ := h.import ha (impOk (i := i) hm hf (rest := is ++ rest) (by rw [he]; simp))
    obtain ⟨s2, h3, h4⟩ := At.imports ha hm hf (is := is) (pre := pre ++ [i]) (rest := rest)
      (by rw [he]; simp) h2
    refine ⟨s2, ?_, by rw [List.append_assoc] at h4; exact h4⟩
    show (addImport f T s i >>= fun s => fold (addImport f T) is s) = _
    rw [h1]
    exact h3

theorem imports_of {i : Imports} {is : List Import} (h : ImportsAre f.reader.toFeatures i is)
    (hmut : s.assertMut = .ok ()) (hfo : fold (addImport f T) is s = .ok s') :
    addImports f T s i = .ok s' := by
  unfold addImports
  rw [hmut]
  cases i with
  | single _ i =>
    cases h
    obtain ⟨s1, h1, h2⟩ := fold_cons hfo
    cases pure_ok h2
    exact h1
  | compact1 module items =>
    obtain ⟨xs, h2, rfl⟩ := h
    rw [fold_map] at hfo
    exact eachItem_of h2 hfo
  | compact2 module ty names =>
    obtain ⟨xs, h2, rfl⟩ := h
    rw [fold_map] at hfo
    exact eachItem_of h2 hfo

theorem At.importSec (ha : AllFeats f) {tr : List Parser.Event} {M : Mod} {body}
    (hm : ModuleOk C body M) (hf : Fits f tr C M) {es : List Imports} {parts : List (List Import)}
    (hp : List.Forall₂ (ImportsAre f.reader.toFeatures) es parts) :
    ∀ {pre : List Import} {s : ModuleState}, M.imports = pre ++ parts.flatten →
    At f T C (.imp C pre) s →
    ∃ s', fold (addImports f T) es s = .ok s' ∧ At f T C (.imp C M.imports) s' := by
  induction hp with
  | nil =>
    intro pre s he h
    rw [List.flatten_nil, List.append_nil] at he
    exact ⟨s, rfl, he ▸ h⟩
  | @cons e is es parts h1 _ ih =>
    intro pre s he h
    rw [List.flatten_cons, ← List.append_assoc] at he
    obtain ⟨s1, h2, h3⟩ := At.imports ha hm hf he h
    obtain ⟨s2, h4, h5⟩ := ih he h3
    refine ⟨s2, ?_, h5⟩
    show (addImports f T s e >>= fun s => fold (addImports f T) es s) = _
    rw [imports_of h1 (h.mut rfl) h2]
    exact h4

end Verif.Valid
