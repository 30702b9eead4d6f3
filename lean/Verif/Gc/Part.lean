import Verif.Gc.Shape
/-! The result of `encode` is a part of the module. -/
namespace Verif.Gc
open Verif.Reader Verif.Instr Verif.Items Verif.Reenc Verif.Reenc.Spec Spec

variable {f : Instr.Features} {m : Module} {main : Option (List UInt8)} {L : Live}
  {o : Out} {e : Encoder} {si : Option Nat} {x : Lists}

/-! ### Lists -/

theorem forall₂_get {α β : Type} {R : α → β → Prop} {xs : List α} {ys : List β}
    (h : List.Forall₂ R xs ys) : ∀ {k : Nat} {a : α}, xs[k]? = some a →
      ∃ b, ys[k]? = some b ∧ R a b := by
  induction h with
  | nil => intro k a h; cases h
  | cons h1 _ ih =>
    intro k a hk
    cases k with
    | zero => cases hk; exact ⟨_, rfl, h1⟩
    | succ k => exact ih hk

theorem forall₂_get' {α β : Type} {R : α → β → Prop} {xs : List α} {ys : List β}
    (h : List.Forall₂ R xs ys) : ∀ {k : Nat} {b : β}, ys[k]? = some b →
      ∃ a, xs[k]? = some a ∧ R a b := by
  induction h with
  | nil => intro k a h; cases h
  | cons h1 _ ih =>
    intro k a hk
    cases k with
    | zero => cases hk; exact ⟨_, rfl, h1⟩
    | succ k => exact ih hk

theorem forall₂_append {α β : Type} {R : α → β → Prop} {xs xs' : List α} {ys ys' : List β}
    (h : List.Forall₂ R xs ys) (h' : List.Forall₂ R xs' ys') :
    List.Forall₂ R (xs ++ xs') (ys ++ ys') := by
  induction h with
  | nil => exact h'
  | cons h1 _ ih => exact .cons h1 ih

/-- In which the one kind comes first. -/
theorem split_filter {α : Type} {p : α → Bool} : ∀ {xs : List α},
    xs.Pairwise (fun a b => p b = true → p a = true) →
    xs.filter p ++ xs.filter (fun a => !p a) = xs
  | [], _ => rfl
  | a :: xs, h => by
    have h' := List.pairwise_cons.1 h
    by_cases ha : p a = true
    · rw [List.filter_cons_of_pos ha, List.filter_cons_of_neg (by simp [ha]), List.cons_append,
        split_filter h'.2]
    · have hx : ∀ b ∈ xs, ¬ p b = true := fun b hb hpb => ha (h'.1 b hb hpb)
      rw [List.filter_eq_nil_iff.2 (by
        intro b hb
        rcases List.mem_cons.1 hb with rfl | hb
        · exact ha
        · exact hx b hb)]
      rw [List.nil_append, List.filter_eq_self]
      intro b hb
      rcases List.mem_cons.1 hb with rfl | hb
      · simpa using ha
      · simpa using hx b hb

theorem mem_index {α : Type} {xs : List α} {a : α} (h : a ∈ xs) : ∃ k : Nat, xs[k]? = some a :=
  let ⟨k, hk, e⟩ := List.getElem_of_mem h
  ⟨k, by rw [List.getElem?_eq_getElem hk, e]⟩

/-! ### Maps -/

theorem map_at {α : Type} {xs : List (BitVec 32 × α)} {r : Remap}
    (hr : r = ({} : Remap).pushAll (xs.map (·.1))) (hn : (xs.map (·.1)).Nodup)
    (hl : xs.length < 2 ^ 32) {k : Nat} {p : BitVec 32 × α} (h : xs[k]? = some p) :
    ((r.get? p.1).getD p.1).toNat = k := by
  have hk : k < xs.length := (List.getElem?_eq_some_iff.1 h).1
  rw [hr, pushAll_get hn (k := k) (by rw [List.getElem?_map, h]; rfl), Option.getD_some,
    BitVec.toNat_ofNat]
  exact (Nat.mod_eq_of_lt (by rw [show (({} : Remap).next) = 0 from rfl]; omega)).trans
    (Nat.zero_add k)

theorem map_known {α : Type} {xs : List (BitVec 32 × α)} {r : Remap}
    (hr : r = ({} : Remap).pushAll (xs.map (·.1))) {i : BitVec 32} (h : (r.get? i).isSome) :
    ∃ a, (i, a) ∈ xs := by
  rw [hr] at h
  rcases pushAll_mem h with h | h
  · obtain ⟨p, hp, rfl⟩ := List.mem_map.1 h
    exact ⟨p.2, hp⟩
  · cases h

theorem iter_inj {α : Type} {s : BitSet} {xs : List α} (hl : xs.length < 2 ^ 32)
    {r : Remap} (hr : r = ({} : Remap).pushAll ((liveIter s xs).map (·.1))) {i j : BitVec 32}
    (hi : i.toNat < xs.length) (hj : j.toNat < xs.length) (si : s.contains i = true)
    (sj : s.contains j = true) (h : (r.get? i).getD i = (r.get? j).getD j) : i = j := by
  have hn := liveIter_nodup (s := s) hl
  have hlen := liveIter_length s xs
  obtain ⟨k, hk⟩ := mem_index ((liveIter_mem hl (p := (i, xs[i.toNat]))).2
    ⟨List.getElem?_eq_getElem hi, si⟩)
  obtain ⟨l, hl'⟩ := mem_index ((liveIter_mem hl (p := (j, xs[j.toNat]))).2
    ⟨List.getElem?_eq_getElem hj, sj⟩)
  have a := map_at hr hn (by omega) hk
  have b := map_at hr hn (by omega) hl'
  simp only at a b
  rw [h, b] at a
  rw [← a, hl'] at hk
  exact (congrArg Prod.fst (Option.some.inj hk)).symm

/-! ### What the encoder knows is live -/

def spaceOf : Method → Space
  | .type => .type
  | .func => .func
  | .table => .table
  | .memory => .memory
  | .global => .global
  | .tag => .tag
  | .data => .data
  | .elem => .elem

theorem sub_knows {e e' : Encoder} (hs : e.Sub e') {c : Method × BitVec 32}
    (h : e.knows c = true) : e'.knows c = true := by
  have key : ∀ {r r' : Remap} {i : BitVec 32}, r.Sub r' → (r.get? i).isSome → (r'.get? i).isSome := by
    intro r r' i hs h
    obtain ⟨j, hj⟩ := Option.isSome_iff_exists.1 h
    rw [hs i j hj]
    rfl
  obtain ⟨k, i⟩ := c
  cases k with
  | type => exact key hs.types h
  | func => exact key hs.funcs h
  | table => exact key hs.tables h
  | memory => exact key hs.memories h
  | global => exact key hs.globals h
  | tag => exact h
  | data => exact h
  | elem => exact h

theorem Shape.known (hp : Parsed f m) (h : Shape f m main L o e si x) {c : Method × BitVec 32}
    (hk : e.knows c = true) (hc : collected (spaceOf c.1) = true) :
    Present m (spaceOf c.1, c.2) ∧ live L (spaceOf c.1, c.2) = true := by
  have lt : ∀ {α : Type} {xs : List α} {i : Nat} {a : α}, xs[i]? = some a → i < xs.length :=
    fun h => (List.getElem?_eq_some_iff.1 h).1
  obtain ⟨k, i⟩ := c
  cases k with
  | type =>
    obtain ⟨a, ha⟩ := map_known h.types hk
    have := (liveIter_mem (by have := hp.types; omega)).1 ha
    exact ⟨lt this.1, this.2⟩
  | func =>
    obtain ⟨p, ha, rfl⟩ := List.mem_map.1 (h.mapMem i hk)
    have := (liveIter_mem (by have := hp.numFuncs; omega)).1 ha
    exact ⟨lt this.1, this.2⟩
  | table =>
    have : (e.tables.get? i).isSome := hk
    rw [h.tables] at this
    cases this
  | memory =>
    obtain ⟨a, ha⟩ := map_known h.memories hk
    have := (liveIter_mem hp.numMemories).1 ha
    exact ⟨lt this.1, this.2⟩
  | global =>
    obtain ⟨a, ha⟩ := map_known h.globals hk
    have := (liveIter_mem hp.numGlobals).1 ha
    exact ⟨lt this.1, this.2⟩
  | tag => cases hc
  | data => cases hc
  | elem => cases hc

/-! ### References and calls -/

/-- The reference is passed to the method for its index space. -/
def Called (y : Item) (cs : List (Method × BitVec 32)) : Prop :=
  ∃ c ∈ cs, (spaceOf c.1, c.2) = y

theorem index_called {u : Types.UnpackedIndex} {y : Item} (h : y ∈ indexRefs u) :
    Called y (indexCalls u) := by
  cases u with
  | module i => rw [List.mem_singleton.1 h]; exact ⟨(.type, i), by simp [indexCalls, Types.UnpackedIndex.asModuleIndex], rfl⟩
  | _ => cases h

theorem heap_called {t : Types.HeapType} {y : Item} (h : y ∈ heapRefs t) :
    Called y (heapCalls t) := by
  cases t with
  | abstract => cases h
  | concrete u => exact index_called h
  | exact u => exact index_called h

theorem ref_called {t : Types.RefType} {y : Item} (h : y ∈ refRefs t) : Called y (refCalls t) := by
  unfold refRefs at h
  unfold refCalls
  cases e : t.heapType with
  | none => rw [e] at h; cases h
  | some t' => rw [e] at h; exact heap_called h

theorem val_called {t : Types.ValType} {y : Item} (h : y ∈ valRefs t) : Called y (valCalls t) := by
  cases t with
  | ref r => exact ref_called h
  | _ => cases h

theorem Called.left {y : Item} {a b} (h : Called y a) : Called y (a ++ b) :=
  let ⟨c, h1, h2⟩ := h
  ⟨c, List.mem_append.2 (.inl h1), h2⟩

theorem Called.right {y : Item} {a b} (h : Called y b) : Called y (a ++ b) :=
  let ⟨c, h1, h2⟩ := h
  ⟨c, List.mem_append.2 (.inr h1), h2⟩

theorem flat_called {α : Type} {xs : List α} {g : α → List (Method × BitVec 32)} {a : α} {y : Item}
    (ha : a ∈ xs) (h : Called y (g a)) : Called y (xs.flatMap g) :=
  let ⟨c, h1, h2⟩ := h
  ⟨c, List.mem_flatMap.2 ⟨a, ha, h1⟩, h2⟩

theorem block_called {t : BlockType} {y : Item} (h : y ∈ blockRefs t) :
    Called y (blockCalls t) := by
  cases t with
  | empty => cases h
  | funcType i => rw [List.mem_singleton.1 h]; exact ⟨(.type, i), List.mem_singleton.2 rfl, rfl⟩
  | type t => exact val_called h

theorem idx_called (op : Idx) (i : BitVec 32) (hc : collected (idxSpace op) = true) :
    Called (idxSpace op, i) (fieldCalls (idxField op) i) := by
  cases op <;> first | (cases hc; done) | exact ⟨_, List.mem_singleton.2 rfl, rfl⟩

theorem idx2_called1 (op : Idx2) (i : BitVec 32) (hc : collected (idx2Space op).1 = true) :
    Called ((idx2Space op).1, i) (fieldCalls (idx2Fields op).1 i) := by
  cases op <;> first | (cases hc; done) | exact ⟨_, List.mem_singleton.2 rfl, rfl⟩

theorem idx2_called2 (op : Idx2) (i : BitVec 32) (hc : collected (idx2Space op).2 = true) :
    Called ((idx2Space op).2, i) (fieldCalls (idx2Fields op).2 i) := by
  cases op <;> first | (cases hc; done) | exact ⟨_, List.mem_singleton.2 rfl, rfl⟩

theorem two_mem {y a b : Item} (h : y ∈ [a, b]) : y = a ∨ y = b := by simpa using h

theorem catch_called {c : Catch} {y : Item} (h : y ∈ catchRefs c) (hc : collected y.1 = true) :
    False := by
  cases c with
  | one => rcases two_mem h with rfl | rfl <;> cases hc
  | oneRef => rcases two_mem h with rfl | rfl <;> cases hc
  | all => obtain rfl := List.mem_singleton.1 h; cases hc
  | allRef => obtain rfl := List.mem_singleton.1 h; cases hc

theorem handle_called {c : Handle} {y : Item} (h : y ∈ handleRefs c) (hc : collected y.1 = true) :
    False := by
  cases c with
  | onLabel => rcases two_mem h with rfl | rfl <;> cases hc
  | onSwitch => obtain rfl := List.mem_singleton.1 h; cases hc

theorem one_called {k : Method} {s : Space} {i : BitVec 32} {y : Item} (hs : spaceOf k = s)
    (h : y ∈ [(s, i)]) : Called y [(k, i)] := by
  rw [List.mem_singleton.1 h, ← hs]
  exact ⟨(k, i), List.mem_singleton.2 rfl, rfl⟩

theorem op_called {op : Operator} {y : Item} (h : y ∈ opRefs op) (hc : collected y.1 = true) :
    Called y (calls op) := by
  cases op
  case block o t => exact block_called h
  case tryTable t cs =>
    rcases List.mem_append.1 h with h | h
    · exact (block_called h).left
    · obtain ⟨c, -, h⟩ := List.mem_flatMap.1 h
      exact (catch_called h hc).elim
  case idx o i =>
    obtain rfl := List.mem_singleton.1 h
    exact idx_called o i hc
  case catch_ t => obtain rfl := List.mem_singleton.1 h; cases hc
  case memorySize i => exact one_called (k := .memory) rfl h
  case memoryGrow i => exact one_called (k := .memory) rfl h
  case idx2 o i j =>
    rcases two_mem h with rfl | rfl
    · exact (idx2_called1 o i hc).left
    · exact (idx2_called2 o j hc).right
  case callIndirect t i =>
    rcases two_mem h with rfl | rfl
    · exact ⟨(.type, t), List.mem_cons_self, rfl⟩
    · exact ⟨(.table, i), List.mem_cons_of_mem _ List.mem_cons_self, rfl⟩
  case returnCallIndirect t i =>
    rcases two_mem h with rfl | rfl
    · exact ⟨(.type, t), List.mem_cons_self, rfl⟩
    · exact ⟨(.table, i), List.mem_cons_of_mem _ List.mem_cons_self, rfl⟩
  case memoryInit d i =>
    rcases two_mem h with rfl | rfl
    · cases hc
    · exact ⟨(.memory, i), List.mem_cons_of_mem _ List.mem_cons_self, rfl⟩
  case tableInit d i =>
    rcases two_mem h with rfl | rfl
    · cases hc
    · exact ⟨(.table, i), List.mem_cons_of_mem _ List.mem_cons_self, rfl⟩
  case mem o a => exact one_called (k := .memory) rfl h
  case memLane o a l => exact one_called (k := .memory) rfl h
  case heap o t => exact heap_called h
  case cast o d a b =>
    rcases List.mem_append.1 h with h | h
    · exact (ref_called h).left
    · exact (ref_called h).right
  case atomic o d i =>
    obtain rfl := List.mem_singleton.1 h
    cases o <;> exact ⟨_, List.mem_singleton.2 rfl, rfl⟩
  case atomic2 o d i j =>
    rcases two_mem h with rfl | rfl
    · cases o <;> exact ⟨_, List.mem_cons_self, rfl⟩
    · cases hc
  case typedSelect t => exact val_called h
  case typedSelectMulti ts =>
    obtain ⟨t, ht, h⟩ := List.mem_flatMap.1 h
    exact flat_called ht (val_called h)
  case resume t hs =>
    rcases List.mem_cons.1 h with rfl | h
    · exact ⟨(.type, t), List.mem_cons_self, rfl⟩
    · obtain ⟨c, -, h⟩ := List.mem_flatMap.1 h
      exact (handle_called h hc).elim
  case resumeThrow t tag hs =>
    rcases List.mem_cons.1 h with rfl | h
    · exact ⟨(.type, t), List.mem_cons_self, rfl⟩
    · rcases List.mem_cons.1 h with rfl | h
      · cases hc
      · obtain ⟨c, -, h⟩ := List.mem_flatMap.1 h
        exact (handle_called h hc).elim
  case resumeThrowRef t hs =>
    rcases List.mem_cons.1 h with rfl | h
    · exact ⟨(.type, t), List.mem_cons_self, rfl⟩
    · obtain ⟨c, -, h⟩ := List.mem_flatMap.1 h
      exact (handle_called h hc).elim
  all_goals (cases h)

/-! ### The index spaces -/

theorem Shape.fit (hp : Parsed f m) (h : Shape f m main L o e si x) : MapsFit e.maps f where
  type i hi := by
    refine Nat.lt_of_le_of_lt ?_ hi
    refine Remap.Of.le (is := (liveIter L.types m.types).map (·.1)) ?_ ?_ i
    · rw [h.types]
      exact of_pushAll (liveIter_nodup (by have := hp.types; omega))
    · rw [List.map_map]
      exact liveIter_sorted (by have := hp.types; omega)
  memory := by
    right
    have := Remap.Of.le (r := e.memories) (is := (liveIter L.memories m.memories).map (·.1))
      (by rw [h.memories]; exact of_pushAll (liveIter_nodup hp.numMemories))
      (by rw [List.map_map]; exact liveIter_sorted hp.numMemories) 0
    exact BitVec.eq_of_toNat_eq (Nat.le_zero.1 this)
  table := by
    right
    show (e.tables.get? 0).getD 0 = 0
    rw [h.tables]
    rfl

theorem typeEnc_ren {p : BitVec 32 × Types.FuncType} {t : Types.Enc.FuncType}
    (h : TypeEnc e p t) : FuncTypeRen e.maps p.2 t := by
  obtain ⟨e0, hs, u, h1, h2⟩ := h
  rw [funcType_congr (agree_of_check hs h1)] at h2
  exact funcType_ren h2

theorem globalEnc_ren (hm : MapsFit e.maps f) {p : BitVec 32 × Global} {g : OutGlobal}
    (hi : ∀ c, p.2.dfn = .loc c → ∃ r r', readConstExpr f r = .ok (c, r'))
    (h : GlobalEnc f e p g) : GlobalRen e.maps f p.2 g := by
  obtain ⟨e0, hs, u, h1, t, h2, h3⟩ := h
  rw [globalType_congr (agree_of_check hs h1)] at h2
  have ht := globalType_ren h2
  obtain ⟨i, d, ty⟩ := p
  cases d with
  | imp a b =>
    obtain rfl := h3
    exact ⟨rfl, ht⟩
  | loc c =>
    obtain ⟨u', k, h4, h5, rfl⟩ := h3
    obtain ⟨r, r', hr⟩ := hi c rfl
    rw [const_congr hr (agree_of_check hs h4)] at h5
    exact ⟨ht, c, rfl, const_ren hm hr h5⟩

theorem imports_nil {α β : Type} {xs : List α} {g : α → Option OutImport}
    {k : OutImport → Option β} (h : ∀ a b, g a = some b → k b = none) :
    (xs.filterMap g).filterMap k = [] := by
  rw [List.filterMap_filterMap, List.filterMap_eq_nil_iff]
  intro a _
  cases e : g a with
  | none => rfl
  | some b => exact h a b e

theorem imports_all {α : Type} {xs : List α} {g : α → Option OutImport}
    {k : OutImport → Option α} (h : ∀ a ∈ xs, ∃ b, g a = some b ∧ k b = some a) :
    (xs.filterMap g).filterMap k = xs := by
  rw [List.filterMap_filterMap]
  induction xs with
  | nil => rfl
  | cons a xs ih =>
    obtain ⟨b, h1, h2⟩ := h a List.mem_cons_self
    rw [List.filterMap_cons_some (by rw [h1]; exact h2), ih fun a ha => h a (List.mem_cons_of_mem _ ha)]

theorem memImp_func {p y} (h : memImp p = some y) : importedFunc y = none := by
  unfold memImp at h
  split at h <;> cases h
  rfl

theorem memImp_global {p y} (h : memImp p = some y) : importedGlobal y = none := by
  unfold memImp at h
  split at h <;> cases h
  rfl

theorem gImp_func {p y} (h : gImp p = some y) : importedFunc y = none := by
  unfold gImp at h
  split at h <;> cases h
  rfl

theorem gImp_memory {p y} (h : gImp p = some y) : importedMemory y = none := by
  unfold gImp at h
  split at h <;> cases h
  rfl

theorem fImp_global {p y} (h : fImp p = some y) : importedGlobal y = none := by
  unfold fImp at h
  split at h <;> cases h
  rfl

theorem fImp_memory {p y} (h : fImp p = some y) : importedMemory y = none := by
  unfold fImp at h
  split at h <;> cases h
  rfl

def isImpG : OutGlobal → Bool
  | .imp _ _ _ => true
  | .loc _ => false

theorem gImp_global (outs : List OutGlobal) :
    (outs.filterMap gImp).filterMap importedGlobal = outs.filter isImpG := by
  induction outs with
  | nil => rfl
  | cons a xs ih =>
    cases a with
    | imp a b c =>
      rw [List.filterMap_cons_some (by rfl : gImp (.imp a b c) = some (a, b, .global c)),
        List.filterMap_cons_some (by rfl : importedGlobal (a, b, .global c) = some (.imp a b c)),
        ih, List.filter_cons_of_pos rfl]
    | loc g =>
      rw [List.filterMap_cons_none rfl, ih, List.filter_cons_of_neg (by simp [isImpG])]

theorem gLoc_loc (outs : List OutGlobal) :
    (outs.filterMap gLoc).map OutGlobal.loc = outs.filter fun a => !isImpG a := by
  induction outs with
  | nil => rfl
  | cons a xs ih =>
    cases a with
    | imp a b c =>
      rw [List.filterMap_cons_none rfl, ih, List.filter_cons_of_neg (by simp [isImpG])]
    | loc g =>
      rw [List.filterMap_cons_some (by rfl : gLoc (.loc g) = some g), List.map_cons, ih,
        List.filter_cons_of_pos rfl]

theorem pairwise_right {α β : Type} {R : α → β → Prop} {P : α → α → Prop} {Q : β → β → Prop}
    (hPQ : ∀ a a' b b', R a b → R a' b' → P a a' → Q b b') {xs : List α} {ys : List β}
    (h : List.Forall₂ R xs ys) (hx : xs.Pairwise P) : ys.Pairwise Q := by
  induction h with
  | nil => exact .nil
  | @cons a b xs ys h1 h2 ih =>
    have hx' := List.pairwise_cons.1 hx
    refine .cons ?_ (ih hx'.2)
    intro b' hb'
    obtain ⟨k, hk⟩ := mem_index hb'
    obtain ⟨a', ha', hr⟩ := forall₂_get' h2 hk
    exact hPQ a a' b b' h1 hr (hx'.1 a' (List.mem_of_getElem? ha'))

theorem globalEnc_isImp {p : BitVec 32 × Global} {g : OutGlobal} (h : GlobalEnc f e p g) :
    isImpG g = Def.isImp p.2.dfn := by
  obtain ⟨e0, hs, u, h1, t, h2, h3⟩ := h
  obtain ⟨i, d, ty⟩ := p
  cases d with
  | imp a b => obtain rfl := h3; rfl
  | loc c => obtain ⟨u', k, h4, h5, rfl⟩ := h3; rfl

theorem Shape.outGlobals (hp : Parsed f m) (h : Shape f m main L o e si x) :
    outGlobals o = x.outs := by
  unfold Spec.outGlobals
  rw [h.imports, h.oglobals]
  simp only [List.filterMap_append]
  rw [imports_nil (fun _ _ => memImp_global), imports_nil (xs := x.fs) (fun _ _ => fImp_global),
    imports_nil (xs := x.ex) (fun _ _ => fImp_global), gImp_global, gLoc_loc, List.append_nil,
    List.append_nil, List.nil_append]
  refine split_filter (pairwise_right (P := fun a b : BitVec 32 × Global =>
    Def.isImp b.2.dfn = true → Def.isImp a.2.dfn = true) ?_ h.gEnc ?_)
  · intro a a' b b' ha ha' hP
    rw [globalEnc_isImp ha, globalEnc_isImp ha']
    exact hP
  · have := hp.globals
    unfold ImportsFirst at this
    rw [List.pairwise_map] at this
    have := List.Pairwise.sublist (liveIter_snd L.globals m.globals) this
    rw [List.pairwise_map] at this
    exact this

/-- A function that is defined in the result. -/
def LocEnc (f : Instr.Features) (m : Module) (e : Encoder) (si : Option Nat)
    (p : BitVec 32 × Func) : OutFunc → Prop
  | .imp _ _ _ => False
  | .loc ty b => e.types.get? p.2.ty = some ty ∧
      (isLoc p = true → CodeEnc f m e si p b) ∧ (isLoc p = false → b = reallocBody)

theorem zip_forall₂ {α β γ δ : Type} {R : α → β → Prop} {S : α → γ → Prop} {T : α → δ → Prop}
    {g : β → γ → δ} (hT : ∀ a b c, R a b → S a c → T a (g b c)) {xs : List α} {ys : List β}
    {zs : List γ} (h : List.Forall₂ R xs ys) :
    List.Forall₂ S xs zs → List.Forall₂ T xs (List.zipWith g ys zs) := by
  induction h generalizing zs with
  | nil => intro h'; cases h'; exact .nil
  | cons h1 _ ih => intro h'; cases h' with | cons h2 h3 => exact .cons (hT _ _ _ h1 h2) (ih h3)

theorem Shape.codeLoc (hp : Parsed f m) (h : Shape f m main L o e si x) :
    List.Forall₂ (fun p b => (isLoc p = true → CodeEnc f m e si p b) ∧
      (isLoc p = false → b = reallocBody)) (locFuncs m main L)
      (((locFuncs m main L).filter fun p => !isLoc p).map (fun _ => reallocBody) ++ x.bodies) := by
  have hsplit : (locFuncs m main L).filter (fun p => !isLoc p) ++
      (liveIter L.funcs m.funcs).filter isLoc = locFuncs m main L := by
    have h1 : (liveIter L.funcs m.funcs).filter isLoc = (locFuncs m main L).filter isLoc := by
      rw [List.filter_filter]
      refine List.filter_congr ?_
      intro p _
      unfold isLoc staysImport
      cases p.2.dfn <;> rfl
    rw [h1]
    have hs : (locFuncs m main L).Pairwise fun a b => (!isLoc b) = true → (!isLoc a) = true := by
      have := hp.funcs
      unfold ImportsFirst at this
      rw [List.pairwise_map] at this
      have := List.Pairwise.sublist (liveIter_snd L.funcs m.funcs) this
      rw [List.pairwise_map] at this
      have := List.Pairwise.sublist (List.filter_sublist (p := fun p => !staysImport main p.2)) this
      refine this.imp ?_
      intro a b hab
      simpa [isLoc] using hab
    have := split_filter hs
    simpa using this
  have key := forall₂_append
    (R := fun p b => (isLoc p = true → CodeEnc f m e si p b) ∧ (isLoc p = false → b = reallocBody))
    (xs := (locFuncs m main L).filter fun p => !isLoc p)
    (ys := ((locFuncs m main L).filter fun p => !isLoc p).map (fun _ => reallocBody))
    (xs' := (liveIter L.funcs m.funcs).filter isLoc) (ys' := x.bodies) ?_ ?_
  · rw [hsplit] at key
    exact key
  · have : ∀ ps : List (BitVec 32 × Func), (∀ p ∈ ps, isLoc p = false) → List.Forall₂ (fun p b =>
        (isLoc p = true → CodeEnc f m e si p b) ∧ (isLoc p = false → b = reallocBody)) ps
        (ps.map (fun _ => reallocBody)) := by
      intro ps
      induction ps with
      | nil => intro _; exact .nil
      | cons p ps ih =>
        intro hps
        refine .cons ⟨fun hl => ?_, fun _ => rfl⟩ (ih fun q hq => hps q (List.mem_cons_of_mem _ hq))
        rw [hps p List.mem_cons_self] at hl
        cases hl
    refine this _ ?_
    intro p hp
    simpa using (List.mem_filter.1 hp).2
  · have : ∀ {ps : List (BitVec 32 × Func)} {bs : List (List UInt8)},
        List.Forall₂ (CodeEnc f m e si) ps bs → (∀ p ∈ ps, isLoc p = true) →
        List.Forall₂ (fun p b => (isLoc p = true → CodeEnc f m e si p b) ∧
          (isLoc p = false → b = reallocBody)) ps bs := by
      intro ps bs hb
      induction hb with
      | nil => intro _; exact .nil
      | cons h1 _ ih =>
        intro hps
        refine .cons ⟨fun _ => h1, fun hl => ?_⟩ (ih fun q hq => hps q (List.mem_cons_of_mem _ hq))
        rw [hps _ List.mem_cons_self] at hl
        cases hl
    exact this h.bEnc fun p hp => (List.mem_filter.1 hp).2

theorem Shape.exLen (h : Shape f m main L o e si x) : x.ex.length ≤ 1 := by
  rcases h.ex with h | ⟨n, ty, h, -⟩ <;> rw [h]
  · exact Nat.zero_le _
  · exact Nat.le_refl _

theorem Shape.exHelper (h : Shape f m main L o e si x) :
    ∀ y ∈ x.ex, Helper main o.types y ∧ (fImp y).isSome := by
  intro y hy
  rcases h.ex with h | ⟨n, ty, h, h1, h2⟩ <;> rw [h] at hy
  · cases hy
  · rw [List.mem_singleton.1 hy]
    exact ⟨⟨rfl, h1, h2⟩, rfl⟩

theorem Shape.moreHelper (h : Shape f m main L o e si x) :
    ∀ y ∈ List.zipWith OutFunc.loc x.moreFuncs x.moreCode, Helper main o.types y := by
  intro y hy
  rw [h.more, List.mem_append, List.mem_append] at hy
  rcases hy with (hy | hy) | hy
  · rcases h.lz with ⟨-, h1, -⟩ | ⟨-, -, ty, b, r, p, h1, -, -, h2, h3⟩ <;> rw [h1] at hy
    · cases hy
    · rw [List.mem_singleton.1 hy]
      exact .inr ⟨h3, _, _, _, h2⟩
  · rcases h.rl with ⟨h1, -⟩ | ⟨ty, -, h1, h2, -⟩ <;> rw [h1] at hy
    · cases hy
    · rw [List.mem_singleton.1 hy]
      exact .inl ⟨reallocFunction_eq, h2⟩
  · rcases h.st with ⟨h1, -⟩ | ⟨ty, b, p, p', r, h1, -, -, -, -, -, -, h2, h3⟩ <;> rw [h1] at hy
    · cases hy
    · rw [List.mem_singleton.1 hy]
      exact .inr ⟨h3, _, _, _, h2⟩

theorem Shape.outFuncs (hp : Parsed f m) (h : Shape f m main L o e si x) :
    ∃ locs, outFuncs o = x.fs ++ (x.ex ++ (locs ++
        List.zipWith OutFunc.loc x.moreFuncs x.moreCode)) ∧
      List.Forall₂ (LocEnc f m e si) (locFuncs m main L) locs ∧ o.code.length = o.funcs.length := by
  have hc := h.codeLoc hp
  refine ⟨List.zipWith OutFunc.loc x.ltys
    (((locFuncs m main L).filter fun p => !isLoc p).map (fun _ => reallocBody) ++ x.bodies), ?_,
    zip_forall₂ (fun a b c h1 h2 => ⟨h1, h2⟩) h.lEnc hc, ?_⟩
  · unfold Spec.outFuncs
    rw [h.imports, h.funcs, h.code]
    simp only [List.filterMap_append]
    rw [imports_nil (fun _ _ => memImp_func), imports_nil (xs := x.outs) (fun _ _ => gImp_func),
      imports_all (xs := x.fs), imports_all (xs := x.ex), List.nil_append, List.nil_append,
      List.zipWith_append (by rw [← forall₂_len h.lEnc, forall₂_len hc]), List.append_assoc]
    · intro y hy
      have := (h.exHelper y hy).2
      cases y with
      | imp a b c => exact ⟨_, rfl, rfl⟩
      | loc a b => cases this
    · intro y hy
      obtain ⟨k, hk⟩ := mem_index hy
      obtain ⟨p, -, mm, n, ty, -, -, rfl⟩ := forall₂_get' h.fEnc hk
      exact ⟨_, rfl, rfl⟩
  · rw [h.code, h.funcs, List.length_append, List.length_append (as := x.ltys), ← h.moreLen,
      ← forall₂_len h.lEnc, ← forall₂_len hc]

theorem mem_iff_part {p : BitVec 32 × Func} (h : p ∈ liveIter L.funcs m.funcs) :
    p ∈ impFuncs m main L ∨ p ∈ locFuncs m main L := by
  by_cases hs : staysImport main p.2 = true
  · exact .inl (List.mem_filter.2 ⟨h, hs⟩)
  · exact .inr (List.mem_filter.2 ⟨h, by simpa using hs⟩)

/-- The operators before those of exported functions. -/
def firstOps : Option Nat → List Operator
  | some k => [.idx .call (BitVec.ofNat 32 k)]
  | none => []

theorem exported_iff {i : BitVec 32} : (exportedFuncs m).contains i = true ↔
    ∃ e ∈ m.exports, e.kind = .func ∧ e.index = i := by
  unfold exportedFuncs
  rw [List.contains_iff_mem, List.mem_filterMap]
  constructor
  · rintro ⟨a, h1, h2⟩
    split at h2
    · next hk => cases h2; exact ⟨a, h1, hk, rfl⟩
    · cases h2
  · rintro ⟨a, h1, h2, h3⟩
    exact ⟨a, h1, by rw [if_pos h2, h3]⟩

theorem codeEnc_ren (hm : MapsFit e.maps f) {p : BitVec 32 × Func} {b : List UInt8}
    {body : Reader} (hb : p.2.dfn = .loc body) (h : CodeEnc f m e si p b) :
    BodyRen e.maps f (if ∃ e ∈ m.exports, e.kind = .func ∧ e.index = p.1 then firstOps si else [])
      body b := by
  obtain ⟨body', h1, h2⟩ := h
  rw [hb] at h1
  cases h1
  obtain ⟨u, h3, h4⟩ := ebind_ok h2
  by_cases hx : (exportedFuncs m).contains p.1 = true
  · rw [hx] at h4
    rw [if_pos (exported_iff.1 hx)]
    cases si with
    | none => exact body_ren hm (orErr_ok h4)
    | some k => exact call_ren hm (orErr_ok h4)
  · rw [if_neg (fun h => hx (exported_iff.2 h))]
    rw [Bool.not_eq_true] at hx
    rw [hx] at h4
    cases si with
    | none => exact body_ren hm (orErr_ok h4)
    | some k => exact body_ren hm (orErr_ok h4)

theorem get_type (h : Shape f m main L o e si x) {i ty : BitVec 32}
    (ht : e.types.get? i = some ty) : ty = e.maps.type i := by
  show ty = (e.types.get? i).getD i
  rw [ht]
  rfl

/-- Where a function is. -/
theorem Shape.place (hp : Parsed f m) (h : Shape f m main L o e si x) {p : BitVec 32 × Func}
    (hmem : p ∈ liveIter L.funcs m.funcs) :
    (∃ k, (impFuncs m main L)[k]? = some p ∧ (e.maps.func p.1).toNat = k) ∨
    (∃ k, (locFuncs m main L)[k]? = some p ∧
      (e.maps.func p.1).toNat = (impFuncs m main L).length + x.ex.length + k) := by
  have hl := liveIter_length L.funcs m.funcs
  have hsum : (impFuncs m main L).length + (locFuncs m main L).length =
      (liveIter L.funcs m.funcs).length := by
    have := List.length_eq_length_filter_add (l := liveIter L.funcs m.funcs)
      (fun p => staysImport main p.2)
    exact this.symm
  have := hp.numFuncs
  have := h.exLen
  rcases mem_iff_part (main := main) hmem with hm | hm
  · obtain ⟨k, hk⟩ := mem_index hm
    have hlt := (List.getElem?_eq_some_iff.1 hk).1
    refine .inl ⟨k, hk, ?_⟩
    show ((e.funcs.get? p.1).getD p.1).toNat = k
    rw [h.mapImp k p.1 (by rw [List.getElem?_map, hk]; rfl), Option.getD_some, BitVec.toNat_ofNat]
    exact Nat.mod_eq_of_lt (by omega)
  · obtain ⟨k, hk⟩ := mem_index hm
    have hlt := (List.getElem?_eq_some_iff.1 hk).1
    refine .inr ⟨k, hk, ?_⟩
    show ((e.funcs.get? p.1).getD p.1).toNat = _
    rw [h.mapLoc k p.1 (by rw [List.getElem?_map, hk]; rfl), Option.getD_some, BitVec.toNat_ofNat]
    exact Nat.mod_eq_of_lt (by omega)

theorem memories_ren : ∀ {xs : List (BitVec 32 × Memory)}, xs.filterMap memLoc = [] →
    List.Forall₂ (fun p y => p.2.dfn = .imp y.1 y.2.1 ∧ MemoryRen p.2.ty y.2.2) xs
      ((xs.filterMap memImp).filterMap importedMemory)
  | [], _ => .nil
  | ⟨i, d, t⟩ :: xs, h => by
    cases d with
    | loc u =>
      rw [List.filterMap_cons_some (by rfl : memLoc (i, ⟨.loc u, t⟩) = _)] at h
      cases h
    | imp a b =>
      rw [List.filterMap_cons_none (by rfl : memLoc (i, ⟨.imp a b, t⟩) = _)] at h
      rw [List.filterMap_cons_some (by rfl : memImp (i, ⟨.imp a b, t⟩) = _),
        List.filterMap_cons_some (by rfl : importedMemory _ = _)]
      exact .cons ⟨rfl, rfl, rfl, rfl, rfl, rfl⟩ (memories_ren h)

theorem iter_present {α : Type} {s : BitSet} {xs : List α} (hl : xs.length < 2 ^ 32)
    {i : BitVec 32} (hi : i.toNat < xs.length) (hs : s.contains i = true) :
    (i, xs[i.toNat]) ∈ liveIter s xs :=
  (liveIter_mem hl (p := (i, xs[i.toNat]))).2 ⟨List.getElem?_eq_getElem hi, hs⟩

theorem check_called {e0 : Encoder} {cs : List (Method × BitVec 32)} {u : Unit}
    (hp : Parsed f m) (h : Shape f m main L o e si x) (hs : e0.Sub e)
    (hc : e0.check cs = .ok u) {y : Item} (hy : Called y cs) (hcol : collected y.1 = true) :
    Present m y ∧ live L y = true := by
  obtain ⟨c, h1, rfl⟩ := hy
  exact h.known hp (sub_knows hs (check_ok hc c h1)) hcol

theorem Shape.closed (hp : Parsed f m) (h : Shape f m main L o e si x) {a y : Item}
    (ha : Present m a) (hl : live L a = true) (hr : Refs f m a y) (hc : collected y.1 = true) :
    Present m y ∧ live L y = true := by
  have nF : m.funcs.length < 2 ^ 32 := by have := hp.numFuncs; omega
  have nT : m.types.length < 2 ^ 32 := by have := hp.types; omega
  obtain ⟨locs, -, hlocs, -⟩ := h.outFuncs hp
  -- the check of a body
  have hbody : ∀ {i : BitVec 32} {fn : Func} {body : Reader}, m.funcs[i.toNat]? = some fn →
      L.funcs.contains i = true → fn.dfn = .loc body →
      ∃ u, e.check (bodyCalls f body) = .ok u := by
    intro i fn body h1 h2 h3
    have hmem : (i, fn) ∈ (liveIter L.funcs m.funcs).filter isLoc := by
      refine List.mem_filter.2 ⟨(liveIter_mem nF).2 ⟨h1, h2⟩, ?_⟩
      simp [isLoc, h3, Def.isImp]
    obtain ⟨k, hk⟩ := mem_index hmem
    obtain ⟨b, -, body', h4, h5⟩ := forall₂_get h.bEnc hk
    rw [h3] at h4
    cases h4
    obtain ⟨u, h6, -⟩ := ebind_ok h5
    exact ⟨u, h6⟩
  have hglobal : ∀ {i : BitVec 32} {g : Global}, m.globals[i.toNat]? = some g →
      L.globals.contains i = true → ∃ e0 : Encoder, e0.Sub e ∧
        (∃ u, e0.check (valCalls g.ty.contentType) = .ok u) ∧
        ∀ c, g.dfn = .loc c → ∃ u, e0.check (constCalls f c) = .ok u := by
    intro i g h1 h2
    obtain ⟨k, hk⟩ := mem_index ((liveIter_mem hp.numGlobals (p := (i, g))).2 ⟨h1, h2⟩)
    obtain ⟨g', -, e0, h3, u, h4, t, h5, h6⟩ := forall₂_get h.gEnc hk
    refine ⟨e0, h3, ⟨u, h4⟩, ?_⟩
    intro c hc
    obtain ⟨d, ty⟩ := g
    cases hc
    obtain ⟨u', i', h7, -⟩ := h6
    exact ⟨u', h7⟩
  cases hr with
  | @funcType i fn h1 =>
    obtain ⟨k, hk⟩ := mem_index ((liveIter_mem nF (p := (i, fn))).2 ⟨h1, hl⟩)
    have hty : (e.types.get? fn.ty).isSome := by
      rcases mem_iff_part (main := main) ((liveIter_mem nF (p := (i, fn))).2 ⟨h1, hl⟩) with hm | hm
      · obtain ⟨k, hk⟩ := mem_index hm
        obtain ⟨b, -, mm, n, ty, -, h2, -⟩ := forall₂_get h.fEnc hk
        rw [h2]; rfl
      · obtain ⟨k, hk⟩ := mem_index hm
        obtain ⟨ty, -, h2⟩ := forall₂_get h.lEnc hk
        rw [h2]; rfl
    exact h.known hp (c := (.type, fn.ty)) hty rfl
  | @funcLocal i fn body ds d _ h1 h2 h3 h4 h5 =>
    obtain ⟨u, hu⟩ := hbody h1 hl h2
    refine check_called hp h (.refl e) hu (Called.left ?_) hc
    unfold localCalls
    rw [h3]
    exact flat_called h4 (val_called h5)
  | @funcOp i fn body ops s op _ h1 h2 h3 h4 h5 =>
    obtain ⟨u, hu⟩ := hbody h1 hl h2
    refine check_called hp h (.refl e) hu (Called.right ?_) hc
    unfold operatorsOf at h3
    cases h6 : operatorsReader body with
    | error err => rw [h6] at h3; cases h3
    | ok s0 =>
      rw [h6] at h3
      show Called y (readerCalls f s0)
      unfold readerCalls
      rw [show s0.collect f = .ok (ops, s) from h3]
      exact flat_called h4 (op_called h5 hc)
  | @globalType i g _ h1 h2 =>
    obtain ⟨e0, h3, ⟨u, h4⟩, -⟩ := hglobal h1 hl
    exact check_called hp h h3 h4 (val_called h2) hc
  | @globalOp i g c ops s op _ h1 h2 h3 h4 h5 =>
    obtain ⟨e0, h6, -, h7⟩ := hglobal h1 hl
    obtain ⟨u, h8⟩ := h7 c h2
    refine check_called hp h h6 h8 ?_ hc
    unfold constCalls readerCalls
    rw [show (OperatorsReader.new c.reader).collect f = .ok (ops, s) from h3]
    exact flat_called h4 (op_called h5 hc)
  | @table i t _ h1 h2 =>
    exfalso
    have hlt := (List.getElem?_eq_some_iff.1 h1).1
    have hl' : L.tables.contains i = true := hl
    have hmem : ∃ p, p ∈ liveIter L.tables m.tables := by
      refine ⟨(BitVec.ofNat 32 i.toNat, t), ?_⟩
      unfold liveIter
      refine List.mem_filter.2 ⟨List.mem_map.2 ⟨(t, i.toNat), ?_, rfl⟩, ?_⟩
      · exact List.mk_mem_zipIdx_iff_getElem?.2 h1
      · show L.tables.contains (BitVec.ofNat 32 i.toNat) = true
        rw [BitVec.ofNat_toNat, BitVec.setWidth_eq]
        exact hl'
    obtain ⟨p, hp⟩ := hmem
    rw [h.noTables] at hp
    cases hp
  | @type i t v _ h1 h2 h3 =>
    obtain ⟨k, hk⟩ := mem_index ((liveIter_mem nT (p := (i, t))).2 ⟨h1, hl⟩)
    obtain ⟨t', -, e0, h4, u, h5, -⟩ := forall₂_get h.tyEnc hk
    exact check_called hp h h4 h5 (flat_called (List.mem_append.2 h2) (val_called h3)) hc

theorem export_ren {a : Export} {b : Items.Enc.Export} (h : encodeExport e a = .ok b) :
    ExportRen e.maps a b := by
  have key : ∀ {r : Remap} {i j : BitVec 32}, r.remap i = .ok j → j = (r.get? i).getD i := by
    intro r i j h
    rw [remap_ok h]
    rfl
  obtain ⟨n, k, i⟩ := a
  cases k with
  | func => obtain ⟨j, h1, h⟩ := ebind_ok h; cases h; exact ⟨rfl, key h1, trivial⟩
  | table => obtain ⟨j, h1, h⟩ := ebind_ok h; cases h; exact ⟨rfl, key h1, trivial⟩
  | memory => obtain ⟨j, h1, h⟩ := ebind_ok h; cases h; exact ⟨rfl, key h1, trivial⟩
  | global => obtain ⟨j, h1, h⟩ := ebind_ok h; cases h; exact ⟨rfl, key h1, trivial⟩
  | tag => cases h
  | funcExact => cases h

theorem export_knows {a : Export} {b : Items.Enc.Export} (h : encodeExport e a = .ok b) :
    ∃ k, e.knows (k, a.index) = true ∧ spaceOf k = exportSpace a.kind ∧
      collected (spaceOf k) = true := by
  have key : ∀ {r : Remap} {i j : BitVec 32}, r.remap i = .ok j → (r.get? i).isSome = true := by
    intro r i j h
    rw [remap_ok h]
    rfl
  obtain ⟨n, k, i⟩ := a
  cases k with
  | func => obtain ⟨j, h1, h⟩ := ebind_ok h; exact ⟨.func, key h1, rfl, rfl⟩
  | table => obtain ⟨j, h1, h⟩ := ebind_ok h; exact ⟨.table, key h1, rfl, rfl⟩
  | memory => obtain ⟨j, h1, h⟩ := ebind_ok h; exact ⟨.memory, key h1, rfl, rfl⟩
  | global => obtain ⟨j, h1, h⟩ := ebind_ok h; exact ⟨.global, key h1, rfl, rfl⟩
  | tag => cases h
  | funcExact => cases h

theorem Shape.part (hp : Parsed f m) (h : Shape f m main L o e si x) :
    Part f m main L o e.maps (firstOps si) := by
  have nF : m.funcs.length < 2 ^ 32 := by have := hp.numFuncs; omega
  have nT : m.types.length < 2 ^ 32 := by have := hp.types; omega
  have lT := liveIter_length L.types m.types
  have lG := liveIter_length L.globals m.globals
  have lM := liveIter_length L.memories m.memories
  have hm := h.fit hp
  obtain ⟨locs, ho, hlocs, hcode⟩ := h.outFuncs hp
  have hg := h.outGlobals hp
  have himpM : o.imports.filterMap importedMemory =
      ((liveIter L.memories m.memories).filterMap memImp).filterMap importedMemory := by
    rw [h.imports]
    simp only [List.filterMap_append]
    rw [imports_nil (xs := x.outs) (fun _ _ => gImp_memory),
      imports_nil (xs := x.fs) (fun _ _ => fImp_memory),
      imports_nil (xs := x.ex) (fun _ _ => fImp_memory)]
    simp
  have hmem := memories_ren h.mems
  have hfl := forall₂_len h.fEnc
  have hll := forall₂_len hlocs
  have funcAt : ∀ {p : BitVec 32 × Func} {k : Nat}, (impFuncs m main L)[k]? = some p →
      (Spec.outFuncs o)[k]? = x.fs[k]? := by
    intro p k hk
    have hlt := (List.getElem?_eq_some_iff.1 hk).1
    rw [ho, List.getElem?_append_left (by omega)]
  have locAt : ∀ {p : BitVec 32 × Func} {k : Nat}, (locFuncs m main L)[k]? = some p →
      (Spec.outFuncs o)[(impFuncs m main L).length + x.ex.length + k]? = locs[k]? := by
    intro p k hk
    have hlt := (List.getElem?_eq_some_iff.1 hk).1
    rw [ho, List.getElem?_append_right (by omega), List.getElem?_append_right (by omega),
      List.getElem?_append_left (by omega)]
    congr 1
    omega
  refine {
    inj := ?_
    roots := by
      intro a ha
      obtain ⟨k, hk⟩ := mem_index ha
      obtain ⟨b, -, hb⟩ := forall₂_get h.exports hk
      obtain ⟨k, h1, h2, h3⟩ := export_knows hb
      rw [← h2]
      exact h.known hp h1 h3
    closed := fun a y h1 h2 h3 h4 => h.closed hp h1 h2 h3 h4
    code := hcode
    type := ?_
    func := ?_
    global := ?_
    memory := ?_
    typeOnly := ?_
    funcOnly := ?_
    globalOnly := ?_
    memoryOnly := ?_
    rest := ⟨h.otables, h.noMems, ?_⟩
    exports := h.exports.imp fun _ _ => export_ren }
  · intro s i j pi pj hi hj hij
    cases s with
    | type => exact iter_inj nT h.types pi pj hi hj hij
    | global => exact iter_inj hp.numGlobals h.globals pi pj hi hj hij
    | memory => exact iter_inj hp.numMemories h.memories pi pj hi hj hij
    | table =>
      have : e.maps.table i = e.maps.table j := hij
      unfold Encoder.maps at this
      simp only [h.tables] at this
      exact this
    | func =>
      have hij : e.maps.func i = e.maps.func j := hij
      rcases h.place hp (iter_present nF pi hi) with ⟨k, hk, ek⟩ | ⟨k, hk, ek⟩ <;>
        rcases h.place hp (iter_present nF pj hj) with ⟨l, hl, el⟩ | ⟨l, hl, el⟩ <;>
        simp only [hij] at ek <;> rw [el] at ek
      · rw [ek, hk] at hl
        exact congrArg Prod.fst (Option.some.inj hl)
      · have := (List.getElem?_eq_some_iff.1 hk).1
        omega
      · have := (List.getElem?_eq_some_iff.1 hl).1
        omega
      · have : l = k := by omega
        rw [this, hk] at hl
        exact congrArg Prod.fst (Option.some.inj hl)
    | _ => cases pi
  · intro i t ht hl
    obtain ⟨k, hk⟩ := mem_index ((liveIter_mem nT (p := (i, t))).2 ⟨ht, hl⟩)
    obtain ⟨t', h1, h2⟩ := forall₂_get h.tyEnc hk
    refine ⟨t', ?_, typeEnc_ren h2⟩
    rw [show (e.maps.type i).toNat = k from map_at h.types (liveIter_nodup nT) (by omega) hk,
      h.otypes, List.getElem?_append_left (List.getElem?_eq_some_iff.1 h1).1]
    exact h1
  · intro i fn hfn hl
    rcases h.place hp ((liveIter_mem nF (p := (i, fn))).2 ⟨hfn, hl⟩) with ⟨k, hk, ek⟩ | ⟨k, hk, ek⟩
    · obtain ⟨y, h1, mm, n, ty, h2, h3, rfl⟩ := forall₂_get h.fEnc hk
      refine ⟨.imp mm (if isRealloc mm n then main.getD n else n) ty,
        (by rw [ek, funcAt hk]; exact h1), get_type h h3, n, h2, ?_⟩
      have hst := (List.mem_filter.1 (List.mem_of_getElem? hk)).2
      unfold staysImport at hst
      have h2' : fn.dfn = .imp mm n := h2
      simp only [h2'] at hst
      by_cases hr : isRealloc mm n = true
      · rw [if_pos hr, if_pos hr]
        rw [hr] at hst
        cases main with
        | none => cases hst
        | some r => rfl
      · rw [if_neg hr, if_neg hr]
    · obtain ⟨y, h1, h2⟩ := forall₂_get hlocs hk
      refine ⟨y, (by rw [ek, locAt hk]; exact h1), ?_⟩
      cases y with
      | imp a b c => exact h2.elim
      | loc ty b =>
        obtain ⟨h3, h4, h5⟩ := h2
        refine ⟨get_type h h3, ?_⟩
        have hst := (List.mem_filter.1 (List.mem_of_getElem? hk)).2
        obtain ⟨d, t⟩ := fn
        cases d with
        | imp mm n =>
          rw [h5 rfl]
          unfold staysImport at hst
          simp only [Bool.not_or, Bool.not_not, Bool.and_eq_true, Option.not_isSome,
            Option.isNone_iff_eq_none] at hst
          exact ⟨hst.1, hst.2, reallocFunction_eq⟩
        | loc body => exact codeEnc_ren hm rfl (h4 rfl)
  · intro i g hgl hl
    obtain ⟨k, hk⟩ := mem_index ((liveIter_mem hp.numGlobals (p := (i, g))).2 ⟨hgl, hl⟩)
    obtain ⟨g', h1, h2⟩ := forall₂_get h.gEnc hk
    refine ⟨g', ?_, globalEnc_ren hm (fun c hc => hp.inits g (List.mem_of_getElem? hgl) c hc) h2⟩
    rw [show (e.maps.global i).toNat = k from
      map_at h.globals (liveIter_nodup hp.numGlobals) (by have := hp.numGlobals; omega) hk, hg]
    exact h1
  · intro i t ht hl
    obtain ⟨k, hk⟩ := mem_index ((liveIter_mem hp.numMemories (p := (i, t))).2 ⟨ht, hl⟩)
    obtain ⟨⟨a, b, c⟩, h1, h2, h3⟩ := forall₂_get hmem hk
    refine ⟨a, b, c, ?_, h2, h3⟩
    rw [show (e.maps.memory i).toNat = k from
      map_at h.memories (liveIter_nodup hp.numMemories) (by have := hp.numMemories; omega) hk,
      himpM]
    exact h1
  · intro k t' hk
    rw [h.otypes] at hk
    by_cases hlt : k < x.tys.length
    · rw [List.getElem?_append_left hlt] at hk
      obtain ⟨p, h1, -⟩ := forall₂_get' h.tyEnc hk
      have := (liveIter_mem nT).1 (List.mem_of_getElem? h1)
      exact .inl ⟨p.1, p.2, this.1, this.2, map_at h.types (liveIter_nodup nT) (by omega) h1⟩
    · rw [List.getElem?_append_right (by omega)] at hk
      exact .inr (h.moreTys t' (List.mem_of_getElem? hk))
  · intro k fn' hk
    rw [ho] at hk
    by_cases h1 : k < x.fs.length
    · rw [List.getElem?_append_left h1] at hk
      obtain ⟨p, h2, -⟩ := forall₂_get' h.fEnc hk
      have hmem' := (List.mem_filter.1 (List.mem_of_getElem? h2)).1
      have := (liveIter_mem nF).1 hmem'
      refine .inl ⟨p.1, p.2, this.1, this.2, ?_⟩
      show ((e.funcs.get? p.1).getD p.1).toNat = k
      rw [h.mapImp k p.1 (by rw [List.getElem?_map, h2]; rfl), Option.getD_some,
        BitVec.toNat_ofNat]
      have : (impFuncs m main L).length ≤ (liveIter L.funcs m.funcs).length :=
        List.length_filter_le ..
      have := liveIter_length L.funcs m.funcs
      have := (List.getElem?_eq_some_iff.1 h2).1
      exact Nat.mod_eq_of_lt (by omega)
    · rw [List.getElem?_append_right (by omega)] at hk
      by_cases h2 : k - x.fs.length < x.ex.length
      · rw [List.getElem?_append_left h2] at hk
        exact .inr (h.exHelper fn' (List.mem_of_getElem? hk)).1
      · rw [List.getElem?_append_right (by omega)] at hk
        by_cases h3 : k - x.fs.length - x.ex.length < locs.length
        · rw [List.getElem?_append_left h3] at hk
          obtain ⟨p, h4, -⟩ := forall₂_get' hlocs hk
          have hmem' := (List.mem_filter.1 (List.mem_of_getElem? h4)).1
          have hin := (liveIter_mem nF).1 hmem'
          refine .inl ⟨p.1, p.2, hin.1, hin.2, ?_⟩
          show ((e.funcs.get? p.1).getD p.1).toNat = k
          rw [h.mapLoc _ p.1 (by rw [List.getElem?_map, h4]; rfl), Option.getD_some,
            BitVec.toNat_ofNat]
          have hsum : (impFuncs m main L).length + (locFuncs m main L).length =
              (liveIter L.funcs m.funcs).length :=
            (List.length_eq_length_filter_add (l := liveIter L.funcs m.funcs)
              (fun p => staysImport main p.2)).symm
          have := liveIter_length L.funcs m.funcs
          have := hp.numFuncs
          have := h.exLen
          rw [Nat.mod_eq_of_lt (by omega)]
          omega
        · rw [List.getElem?_append_right (by omega)] at hk
          exact .inr (h.moreHelper fn' (List.mem_of_getElem? hk))
  · intro k g' hk
    rw [hg] at hk
    obtain ⟨p, h1, -⟩ := forall₂_get' h.gEnc hk
    have := (liveIter_mem hp.numGlobals).1 (List.mem_of_getElem? h1)
    exact ⟨p.1, p.2, this.1, this.2, map_at h.globals (liveIter_nodup hp.numGlobals)
      (by have := hp.numGlobals; omega) h1⟩
  · intro k e' hk
    rw [himpM] at hk
    obtain ⟨p, h1, -⟩ := forall₂_get' hmem hk
    have := (liveIter_mem hp.numMemories).1 (List.mem_of_getElem? h1)
    exact ⟨p.1, p.2, this.1, this.2, map_at h.memories (liveIter_nodup hp.numMemories)
      (by have := hp.numMemories; omega) h1⟩
  · intro y hy
    rw [h.imports] at hy
    simp only [List.mem_append, List.mem_filterMap] at hy
    rcases hy with ((⟨p, -, h1⟩ | ⟨p, -, h1⟩) | ⟨p, -, h1⟩) | ⟨p, -, h1⟩
    · unfold memImp at h1
      split at h1 <;> cases h1
      exact .inr (.inr rfl)
    · cases p <;> cases h1
      exact .inr (.inl rfl)
    · cases p <;> cases h1
      exact .inl rfl
    · cases p <;> cases h1
      exact .inl rfl

end Verif.Gc
