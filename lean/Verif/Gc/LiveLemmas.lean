import Verif.Gc.Spec
/-! Lemmas about the worklist algorithm of `liveness`. -/
namespace Verif.Gc
open Verif.Reader Verif.Instr Verif.Items Verif.Reenc Verif.Reenc.Spec Spec

/-! ### Sets of bits -/

theorem bit_test (w : BitVec 64) {k : Nat} (hk : k < 64) :
    (w &&& 1#64 <<< k ≠ 0) ↔ w.getLsbD k = true := by
  have e : w &&& 1#64 <<< k = w &&& BitVec.twoPow 64 k := rfl
  rw [e, BitVec.and_twoPow]
  by_cases h : w.getLsbD k
  · simp only [h, if_true, iff_true]
    intro h0
    have := congrArg (fun x => BitVec.getLsbD x k) h0
    simp [hk] at this
  · simp [h]

theorem contains_eq (s : BitSet) (i : BitVec 32) :
    s.contains i = (((s.bits[i.toNat / 64]?).getD 0).getLsbD (i.toNat % 64)) := by
  unfold BitSet.contains idxBit
  have hk : i.toNat % 64 < 64 := Nat.mod_lt _ (by decide)
  cases h : s.bits[i.toNat / 64]? with
  | none => simp
  | some w =>
    have := bit_test w hk
    simp only [Option.getD_some]
    by_cases hw : w.getLsbD (i.toNat % 64) = true
    · rw [hw]; exact decide_eq_true (this.2 hw)
    · rw [Bool.eq_false_iff.2 hw]; exact decide_eq_false (fun h => hw (this.1 h))

theorem insert_fst (s : BitSet) (i : BitVec 32) : (s.insert i).1 = !s.contains i := by
  unfold BitSet.insert BitSet.contains
  cases h : s.bits[(idxBit i).1]? with
  | none => rfl
  | some w =>
    by_cases hw : w &&& (idxBit i).2 ≠ 0
    · simp only [if_pos hw, decide_eq_true hw]; rfl
    · simp only [if_neg hw, decide_eq_false hw]; rfl

theorem eq_of_split {i j : BitVec 32} (h1 : j.toNat / 64 = i.toNat / 64)
    (h2 : j.toNat % 64 = i.toNat % 64) : j = i := by
  apply BitVec.eq_of_toNat_eq
  omega

theorem contains_insert (s : BitSet) (i j : BitVec 32) :
    (s.insert i).2.contains j = true ↔ j = i ∨ s.contains j = true := by
  have hi : i.toNat % 64 < 64 := Nat.mod_lt _ (by decide)
  have hj : j.toNat % 64 < 64 := Nat.mod_lt _ (by decide)
  by_cases hc : s.contains i
  · have : (s.insert i).2 = s := by
      have h := insert_fst s i
      unfold BitSet.insert at h ⊢
      split at h
      · next w hw =>
        by_cases hb : w &&& (idxBit i).2 ≠ 0
        · rw [if_pos hb]
        · rw [if_neg hb, hc] at h
          cases h
      · simp [hc] at h
    rw [this]
    constructor
    · exact .inr
    · rintro (rfl | h)
      · exact hc
      · exact h
  · have hb : ∀ w, s.bits[i.toNat / 64]? = some w → ¬ (w &&& 1#64 <<< (i.toNat % 64) ≠ 0) := by
      intro w hw h
      rw [contains_eq, hw] at hc
      exact hc ((bit_test w hi).1 h)
    have key : ∀ k, (((s.insert i).2.bits[k]?).getD 0) =
        (if k = i.toNat / 64 then (s.bits[k]?).getD 0 ||| 1#64 <<< (i.toNat % 64)
          else (s.bits[k]?).getD 0) := by
      intro k
      unfold BitSet.insert idxBit
      cases h : s.bits[i.toNat / 64]? with
      | some w =>
        have hl := (List.getElem?_eq_some_iff.1 h).1
        have := hb w h
        simp only [this, if_false]
        by_cases hk : k = i.toNat / 64
        · subst hk
          rw [List.getElem?_set_self hl, h]
          simp
        · simp [List.getElem?_set, hk, Ne.symm hk]
      | none =>
        have hl := List.getElem?_eq_none_iff.1 h
        simp only
        by_cases hk : k = i.toNat / 64
        · subst hk
          rw [List.getElem?_set_self (by simp; omega)]
          simp [h]
        · rw [List.getElem?_set_ne (Ne.symm hk)]
          simp only [hk, if_false]
          rw [List.getElem?_append]
          split
          · rfl
          · next hlt =>
            have : s.bits[k]? = none := List.getElem?_eq_none_iff.2 (by omega)
            rw [this, List.getElem?_replicate]
            split <;> rfl
    rw [contains_eq, contains_eq, key]
    by_cases hq : j.toNat / 64 = i.toNat / 64
    · simp only [hq, if_true]
      rw [BitVec.getLsbD_or, show (1#64 <<< (i.toNat % 64)) = BitVec.twoPow 64 (i.toNat % 64) from rfl,
        BitVec.getLsbD_twoPow]
      by_cases hr : j.toNat % 64 = i.toNat % 64
      · have : j = i := eq_of_split hq hr
        simp [this, hi]
      · have : ¬ j = i := by rintro rfl; exact hr rfl
        simp [this, hr, Ne.symm hr]
    · have : ¬ j = i := by rintro rfl; exact hq rfl
      simp [hq, this]

/-! ### Marking -/

/-- The item of an entry of the worklist. -/
def itemOf : BitVec 32 × Kind → Item
  | (i, .func) => (.func, i)
  | (i, .global) => (.global, i)
  | (i, .table) => (.table, i)
  | (i, .type) => (.type, i)

theorem itemOf_inj {w w' : BitVec 32 × Kind} (h : itemOf w = itemOf w') : w = w' := by
  obtain ⟨i, k⟩ := w
  obtain ⟨j, l⟩ := w'
  cases k <;> cases l <;> simp [itemOf] at h ⊢ <;> exact h

/-- The entries of the worklist are different and marked. -/
def Nd (L : Live) : Prop := L.work.Nodup ∧ ∀ w ∈ L.work, live L (itemOf w) = true

/-- The second state is the first after marking the items. -/
structure Ext (L L' : Live) (S : List Item) : Prop where
  live : ∀ x, collected x.1 = true → (live L' x = true ↔ live L x = true ∨ x ∈ S)
  work : ∀ w, w ∈ L'.work ↔ w ∈ L.work ∨ (itemOf w ∈ S ∧ ¬ Spec.live L (itemOf w) = true)
  nd : Nd L → Nd L'

theorem collected_item (w : BitVec 32 × Kind) : collected (itemOf w).1 = true := by
  obtain ⟨i, k⟩ := w
  cases k <;> rfl

theorem Ext.refl (L : Live) {S : List Item} (h : ∀ x ∈ S, collected x.1 = false) : Ext L L S := by
  refine ⟨fun x hx => ⟨.inl, ?_⟩, fun w => ⟨.inl, ?_⟩, id⟩
  · rintro (h' | h')
    · exact h'
    · rw [h x h'] at hx; cases hx
  · rintro (h' | ⟨h', -⟩)
    · exact h'
    · have := h _ h'
      rw [collected_item] at this; cases this

theorem Ext.trans {L L' L'' : Live} {S S' : List Item} (h : Ext L L' S) (h' : Ext L' L'' S') :
    Ext L L'' (S ++ S') := by
  refine ⟨fun x hx => ?_, fun w => ?_, fun hn => h'.nd (h.nd hn)⟩
  · rw [h'.live x hx, h.live x hx, List.mem_append, or_assoc]
  · rw [h'.work w, h.work w, List.mem_append, h.live _ (collected_item w)]
    constructor
    · rintro ((h | h) | h)
      · exact .inl h
      · exact .inr ⟨.inl h.1, h.2⟩
      · exact .inr ⟨.inr h.1, fun g => h.2 (.inl g)⟩
    · rintro (h | ⟨h | h, g⟩)
      · exact .inl (.inl h)
      · exact .inl (.inr ⟨h, g⟩)
      · by_cases hw : itemOf w ∈ S
        · exact .inl (.inr ⟨hw, g⟩)
        · exact .inr ⟨h, fun k => k.elim g hw⟩

theorem Ext.cons {L L' L'' : Live} {x : Item} {S' : List Item} (h : Ext L L' [x])
    (h' : Ext L' L'' S') : Ext L L'' (x :: S') := h.trans h'

theorem ext_func (L : Live) (i : BitVec 32) : Ext L (L.func i) [(.func, i)] := by
  unfold Live.func
  have h1 := insert_fst L.funcs i
  have h2 := contains_insert L.funcs i
  rcases h : L.funcs.insert i with ⟨b, s⟩
  rw [h] at h1 h2
  cases b with
  | false =>
    have hc : L.funcs.contains i = true := by simpa using h1.symm
    refine ⟨fun x _ => ⟨.inl, ?_⟩, fun w => ⟨.inl, ?_⟩, id⟩
    · rintro (h' | h')
      · exact h'
      · cases List.mem_singleton.1 h'; exact hc
    · rintro (h' | ⟨h', h''⟩)
      · exact h'
      · rw [List.mem_singleton.1 h'] at h''; exact absurd hc h''
  | true =>
    have hc : L.funcs.contains i = false := by simpa using h1.symm
    have hl : ∀ x, collected x.1 = true →
        (live { L with funcs := s, work := (i, .func) :: L.work } x = true ↔
          live L x = true ∨ x ∈ [((.func, i) : Item)]) := by
      rintro ⟨sp, j⟩ hx
      rw [List.mem_singleton]
      cases sp <;> simp [collected] at hx <;> simp [live]
      rw [h2]
      exact Or.comm
    refine ⟨hl, fun w => ?_, fun hn => ⟨?_, ?_⟩⟩
    · simp only [List.mem_cons, List.not_mem_nil, or_false]
      constructor
      · rintro (rfl | h')
        · exact .inr ⟨rfl, by simp [itemOf, live, hc]⟩
        · exact .inl h'
      · rintro (h' | ⟨h', -⟩)
        · exact .inr h'
        · exact .inl (itemOf_inj (w' := (i, .func)) h')
    · refine List.nodup_cons.2 ⟨fun hm => ?_, hn.1⟩
      have := hn.2 _ hm
      simp [itemOf, live, hc] at this
    · intro w hw
      rw [hl _ (collected_item w)]
      rcases List.mem_cons.1 hw with rfl | hw
      · exact .inr (List.mem_singleton.2 rfl)
      · exact .inl (hn.2 w hw)

theorem ext_global (L : Live) (i : BitVec 32) : Ext L (L.global i) [(.global, i)] := by
  unfold Live.global
  have h1 := insert_fst L.globals i
  have h2 := contains_insert L.globals i
  rcases h : L.globals.insert i with ⟨b, s⟩
  rw [h] at h1 h2
  cases b with
  | false =>
    have hc : L.globals.contains i = true := by simpa using h1.symm
    refine ⟨fun x _ => ⟨.inl, ?_⟩, fun w => ⟨.inl, ?_⟩, id⟩
    · rintro (h' | h')
      · exact h'
      · cases List.mem_singleton.1 h'; exact hc
    · rintro (h' | ⟨h', h''⟩)
      · exact h'
      · rw [List.mem_singleton.1 h'] at h''; exact absurd hc h''
  | true =>
    have hc : L.globals.contains i = false := by simpa using h1.symm
    have hl : ∀ x, collected x.1 = true →
        (live { L with globals := s, work := (i, .global) :: L.work } x = true ↔
          live L x = true ∨ x ∈ [((.global, i) : Item)]) := by
      rintro ⟨sp, j⟩ hx
      rw [List.mem_singleton]
      cases sp <;> simp [collected] at hx <;> simp [live]
      rw [h2]
      exact Or.comm
    refine ⟨hl, fun w => ?_, fun hn => ⟨?_, ?_⟩⟩
    · simp only [List.mem_cons, List.not_mem_nil, or_false]
      constructor
      · rintro (rfl | h')
        · exact .inr ⟨rfl, by simp [itemOf, live, hc]⟩
        · exact .inl h'
      · rintro (h' | ⟨h', -⟩)
        · exact .inr h'
        · exact .inl (itemOf_inj (w' := (i, .global)) h')
    · refine List.nodup_cons.2 ⟨fun hm => ?_, hn.1⟩
      have := hn.2 _ hm
      simp [itemOf, live, hc] at this
    · intro w hw
      rw [hl _ (collected_item w)]
      rcases List.mem_cons.1 hw with rfl | hw
      · exact .inr (List.mem_singleton.2 rfl)
      · exact .inl (hn.2 w hw)

theorem ext_table (L : Live) (i : BitVec 32) : Ext L (L.table i) [(.table, i)] := by
  unfold Live.table
  have h1 := insert_fst L.tables i
  have h2 := contains_insert L.tables i
  rcases h : L.tables.insert i with ⟨b, s⟩
  rw [h] at h1 h2
  cases b with
  | false =>
    have hc : L.tables.contains i = true := by simpa using h1.symm
    refine ⟨fun x _ => ⟨.inl, ?_⟩, fun w => ⟨.inl, ?_⟩, id⟩
    · rintro (h' | h')
      · exact h'
      · cases List.mem_singleton.1 h'; exact hc
    · rintro (h' | ⟨h', h''⟩)
      · exact h'
      · rw [List.mem_singleton.1 h'] at h''; exact absurd hc h''
  | true =>
    have hc : L.tables.contains i = false := by simpa using h1.symm
    have hl : ∀ x, collected x.1 = true →
        (live { L with tables := s, work := (i, .table) :: L.work } x = true ↔
          live L x = true ∨ x ∈ [((.table, i) : Item)]) := by
      rintro ⟨sp, j⟩ hx
      rw [List.mem_singleton]
      cases sp <;> simp [collected] at hx <;> simp [live]
      rw [h2]
      exact Or.comm
    refine ⟨hl, fun w => ?_, fun hn => ⟨?_, ?_⟩⟩
    · simp only [List.mem_cons, List.not_mem_nil, or_false]
      constructor
      · rintro (rfl | h')
        · exact .inr ⟨rfl, by simp [itemOf, live, hc]⟩
        · exact .inl h'
      · rintro (h' | ⟨h', -⟩)
        · exact .inr h'
        · exact .inl (itemOf_inj (w' := (i, .table)) h')
    · refine List.nodup_cons.2 ⟨fun hm => ?_, hn.1⟩
      have := hn.2 _ hm
      simp [itemOf, live, hc] at this
    · intro w hw
      rw [hl _ (collected_item w)]
      rcases List.mem_cons.1 hw with rfl | hw
      · exact .inr (List.mem_singleton.2 rfl)
      · exact .inl (hn.2 w hw)

theorem ext_type (L : Live) (i : BitVec 32) : Ext L (L.type i) [(.type, i)] := by
  unfold Live.type
  have h1 := insert_fst L.types i
  have h2 := contains_insert L.types i
  rcases h : L.types.insert i with ⟨b, s⟩
  rw [h] at h1 h2
  cases b with
  | false =>
    have hc : L.types.contains i = true := by simpa using h1.symm
    refine ⟨fun x _ => ⟨.inl, ?_⟩, fun w => ⟨.inl, ?_⟩, id⟩
    · rintro (h' | h')
      · exact h'
      · cases List.mem_singleton.1 h'; exact hc
    · rintro (h' | ⟨h', h''⟩)
      · exact h'
      · rw [List.mem_singleton.1 h'] at h''; exact absurd hc h''
  | true =>
    have hc : L.types.contains i = false := by simpa using h1.symm
    have hl : ∀ x, collected x.1 = true →
        (live { L with types := s, work := (i, .type) :: L.work } x = true ↔
          live L x = true ∨ x ∈ [((.type, i) : Item)]) := by
      rintro ⟨sp, j⟩ hx
      rw [List.mem_singleton]
      cases sp <;> simp [collected] at hx <;> simp [live]
      rw [h2]
      exact Or.comm
    refine ⟨hl, fun w => ?_, fun hn => ⟨?_, ?_⟩⟩
    · simp only [List.mem_cons, List.not_mem_nil, or_false]
      constructor
      · rintro (rfl | h')
        · exact .inr ⟨rfl, by simp [itemOf, live, hc]⟩
        · exact .inl h'
      · rintro (h' | ⟨h', -⟩)
        · exact .inr h'
        · exact .inl (itemOf_inj (w' := (i, .type)) h')
    · refine List.nodup_cons.2 ⟨fun hm => ?_, hn.1⟩
      have := hn.2 _ hm
      simp [itemOf, live, hc] at this
    · intro w hw
      rw [hl _ (collected_item w)]
      rcases List.mem_cons.1 hw with rfl | hw
      · exact .inr (List.mem_singleton.2 rfl)
      · exact .inl (hn.2 w hw)

theorem ext_memory (L : Live) (i : BitVec 32) : Ext L (L.memory i) [(.memory, i)] := by
  refine ⟨?_, fun w => ⟨.inl, ?_⟩, fun hn => ⟨hn.1, fun w hw => ?_⟩⟩
  · rintro ⟨sp, j⟩ hx
    rw [List.mem_singleton]
    cases sp <;> simp [collected] at hx <;> simp [live, Live.memory]
    rw [contains_insert]
    exact Or.comm
  · rintro (h | ⟨h, -⟩)
    · exact h
    · obtain ⟨j, k⟩ := w
      cases k <;> simp [itemOf] at h
  · have := hn.2 w hw
    obtain ⟨j, k⟩ := w
    cases k <;> exact this

theorem ext_index {L L' : Live} {u : Types.UnpackedIndex} (h : L.index u = .ok L') :
    Ext L L' (indexRefs u) := by
  unfold Live.index at h
  cases u <;> simp [Types.UnpackedIndex.asModuleIndex] at h
  cases h
  exact ext_type L _

theorem ext_heap {L L' : Live} {t : Types.HeapType} (h : L.heapty t = .ok L') :
    Ext L L' (heapRefs t) := by
  cases t with
  | abstract => cases h; exact .refl _ (by simp [heapRefs])
  | concrete u => exact ext_index h
  | exact u => exact ext_index h

theorem ext_ref {L L' : Live} {t : Types.RefType} (h : L.refty t = .ok L') :
    Ext L L' (refRefs t) := by
  unfold Live.refty at h
  unfold refRefs
  split at h
  · next hh e => rw [e]; exact ext_heap h
  · cases h

theorem ext_val {L L' : Live} {t : Types.ValType} (h : L.valty t = .ok L') :
    Ext L L' (valRefs t) := by
  cases t with
  | ref r => exact ext_ref h
  | _ => cases h; exact .refl _ (by simp [valRefs])

theorem ext_vals {ts : List Types.ValType} : ∀ {L L' : Live}, L.valtys ts = .ok L' →
    Ext L L' (ts.flatMap valRefs) := by
  induction ts with
  | nil => intro L L' h; cases h; exact .refl _ (by simp)
  | cons t ts ih =>
    intro L L' h
    unfold Live.valtys at h
    split at h
    · cases h
    · next L1 e =>
      rw [List.flatMap_cons]
      exact (ext_val e).trans (ih h)

/-- What the visitor marks are references of the operator, and it marks all of them in simple
operators. -/
def Marks (op : Operator) (S : List Item) : Prop :=
  (∀ x ∈ S, x ∈ opRefs op) ∧ (OpSimple op → ∀ x ∈ opRefs op, collected x.1 = true → x ∈ S)

theorem marks_all (op : Operator) : Marks op (opRefs op) := ⟨fun _ h => h, fun _ _ h _ => h⟩

theorem Marks.skip {op : Operator} (h : OpSimple op → ∀ x ∈ opRefs op, collected x.1 = false) :
    Marks op [] := ⟨nofun, fun hs x hx hc => by rw [h hs x hx] at hc; cases hc⟩

macro "one_ext" : tactic => `(tactic| first
  | exact ext_func _ _ | exact ext_type _ _ | exact ext_table _ _ | exact ext_global _ _
  | exact ext_memory _ _ | exact Ext.refl _ (by simp [collected, idxSpace, idx2Space]))

theorem visit_idx (L : Live) (o : Idx) (i : BitVec 32) :
    ∃ S, Ext L (L.field (idxField o) i) S ∧ Marks (.idx o i) S := by
  by_cases h : o = .contNew
  · subst h
    exact ⟨[], .refl _ (by simp), nofun, fun h => h.elim⟩
  · refine ⟨_, ?_, marks_all _⟩
    cases o <;> first | exact absurd rfl h | (show Ext L _ [_]; one_ext)

theorem visit_idx2 (L : Live) (o : Idx2) (i j : BitVec 32) :
    ∃ S, Ext L ((L.field (idx2Fields o).1 i).field (idx2Fields o).2 j) S ∧
      Marks (.idx2 o i j) S := by
  by_cases h : o = .contBind ∨ o = .switch
  · rcases h with rfl | rfl
    · exact ⟨[], .refl _ (by simp), nofun, fun h => h.elim⟩
    · exact ⟨[], .refl _ (by simp), nofun, fun h => h.elim⟩
  · refine ⟨_, ?_, marks_all _⟩
    show Ext L _ [_, _]
    refine Ext.cons (L' := L.field (idx2Fields o).1 i) ?_ ?_ <;> cases o <;>
      first | exact absurd (.inl rfl) h | exact absurd (.inr rfl) h | one_ext

theorem visit_ext {L L' : Live} {op : Operator} (h : L.visit op = .ok L') :
    ∃ S, Ext L L' S ∧ Marks op S := by
  cases op
  case block o ty =>
    cases h
    cases ty with
    | empty => exact ⟨[], .refl _ (by simp), .skip (by simp [opRefs, blockRefs])⟩
    | funcType i => exact ⟨_, ext_type _ _, marks_all _⟩
    | type t => exact ⟨[], .refl _ (by simp), .skip fun hs => by
        show ∀ x ∈ valRefs t, _
        rw [show valRefs t = [] from hs]; simp⟩
  case tryTable => cases h
  case idx o i => cases h; exact visit_idx L o i
  case memorySize i => cases h; exact ⟨_, ext_memory _ _, marks_all _⟩
  case memoryGrow i => cases h; exact ⟨_, ext_memory _ _, marks_all _⟩
  case idx2 o i j => cases h; exact visit_idx2 L o i j
  case callIndirect ty t => cases h; exact ⟨_, (ext_type _ _).cons (ext_table _ _), marks_all _⟩
  case returnCallIndirect ty t =>
    cases h; exact ⟨_, (ext_type _ _).cons (ext_table _ _), marks_all _⟩
  case memoryInit d i =>
    cases h
    exact ⟨_, (Ext.refl L (S := [(.data, d)]) (by simp [collected])).cons (ext_memory _ _),
      marks_all _⟩
  case tableInit d i =>
    cases h
    exact ⟨_, (Ext.refl L (S := [(.elem, d)]) (by simp [collected])).cons (ext_table _ _),
      marks_all _⟩
  case mem o a => cases h; exact ⟨_, ext_memory _ _, marks_all _⟩
  case memLane o a l => cases h; exact ⟨_, ext_memory _ _, marks_all _⟩
  case heap o t => exact ⟨_, ext_heap h, marks_all _⟩
  case cast o d a b =>
    rw [show L.visit (.cast o d a b) = (match L.refty a with
      | .error e => .error e | .ok L' => L'.refty b) from rfl] at h
    split at h
    · cases h
    · next e => exact ⟨_, (ext_ref e).trans (ext_ref h), marks_all _⟩
  case atomic o x i =>
    cases h
    refine ⟨_, ?_, marks_all _⟩
    show Ext L _ [_]
    cases o <;> one_ext
  case atomic2 o x i j =>
    cases h
    exact ⟨_, (ext_type _ _).cons (Ext.refl _ (by simp [collected])), marks_all _⟩
  case typedSelect t => exact ⟨_, ext_val h, marks_all _⟩
  case typedSelectMulti ts => exact ⟨_, ext_vals h, marks_all _⟩
  case resume => cases h
  case resumeThrow => cases h
  case resumeThrowRef => cases h
  case catch_ => cases h; exact ⟨[], .refl _ (by simp), .skip (by simp [opRefs, collected])⟩
  all_goals (cases h; exact ⟨[], .refl _ (by simp), .skip (by simp [opRefs])⟩)

end Verif.Gc
