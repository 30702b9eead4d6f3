import Verif.Types.Codec
import Verif.Types.Reenc
/-! What the type readers can return, and re-encoding of such values. -/
namespace Verif.Reader

/-- Every value `f` returns satisfies `P`. -/
def Yields (f : R α) (P : α → Prop) : Prop := ∀ r a r', f r = .ok (a, r') → P a

theorem Yields.mono {f : R α} {P Q : α → Prop} (h : Yields f P) (hpq : ∀ a, P a → Q a) :
    Yields f Q := fun r a r' e => hpq a (h r a r' e)

theorem Yields.triv (f : R α) : Yields f (fun _ => True) := fun _ _ _ _ => trivial

theorem Yields.pure {a : α} {P : α → Prop} (h : P a) : Yields (pure a : R α) P := by
  intro r a' r' e; cases e; exact h

theorem Yields.fail {m o} {P : α → Prop} : Yields (R.fail m o : R α) P := by
  intro r a' r' e; cases e

theorem Yields.bind {f : R α} {g : α → R β} {P : α → Prop} {Q : β → Prop}
    (h1 : Yields f P) (h2 : ∀ a, P a → Yields (g a) Q) : Yields (f >>= g) Q := by
  intro r b r' e
  obtain ⟨a, r1, e1, e2⟩ := bind_ok.mp e
  exact h2 a (h1 _ _ _ e1) _ _ _ e2

theorem Yields.bind' {f : R α} {g : α → R β} {Q : β → Prop}
    (h2 : ∀ a, Yields (g a) Q) : Yields (f >>= g) Q :=
  (Yields.triv f).bind fun a _ => h2 a

theorem Yields.ite {c : Prop} [Decidable c] {f g : R α} {P : α → Prop} (h1 : c → Yields f P)
    (h2 : ¬ c → Yields g P) : Yields (if c then f else g) P := by
  by_cases h : c
  · rw [if_pos h]; exact h1 h
  · rw [if_neg h]; exact h2 h

theorem Yields.many {f : R α} {P : α → Prop} (h : Yields f P) (n : Nat) :
    Yields (readMany f n) (fun l => l.length = n ∧ ∀ a ∈ l, P a) := by
  induction n with
  | zero => exact .pure ⟨rfl, by simp⟩
  | succ n ih =>
    refine h.bind fun a ha => ih.bind fun as has => .pure ⟨by simp [has.1], ?_⟩
    intro x hx
    rcases List.mem_cons.mp hx with rfl | hx
    · exact ha
    · exact has.2 x hx

theorem Yields.iter {f : R α} {P : α → Prop} (h : Yields f P) (limit : Nat) (desc : String) :
    Yields (readIter f limit desc) (fun l => l.length ≤ limit ∧ ∀ a ∈ l, P a) := by
  have hs : Yields (readSize limit desc) (· ≤ limit) :=
    .bind' fun pos => .bind' fun size => .ite (fun _ => .fail) fun hc => .pure (by omega)
  exact hs.bind fun n hn => (h.many n).mono fun l hl => ⟨by omega, hl.2⟩

end Verif.Reader

namespace Verif.Types
open Verif.Reader Verif.Leb

theorem Yields.mapErr {g} {f : R α} {P : α → Prop} (h : Yields f P) : Yields (mapErr g f) P := by
  intro r a r' e
  unfold Types.mapErr at e
  split at e
  · rename_i x hx
    cases e
    exact h _ _ _ hx
  · cases e

theorem new_denote {n : Bool} {e : Enc.HeapType} {t : RefType}
    (h : RefType.new n e.denote = some t) : (Enc.ValType.ref ⟨n, e⟩).Fits := (new_is h).2.2

theorem yields_heapType : Yields readHeapType (fun h => ∃ e : Enc.HeapType, h = e.denote) := by
  intro r a r' h
  unfold readHeapType at h
  split at h
  · cases h
  · rename_i s33 clone _
    split at h
    · rename_i h0
      revert h
      rw [fromModuleIndex_eq]
      split
      · rename_i hi
        dsimp only
        rw [show (PackedIndex.mk (PackedIndex.moduleKind ||| s33.setWidth 32)).unpack = _ from
          packed_unpack hi]
        intro h
        cases h
        exact ⟨.concrete _, rfl⟩
      · intro h; cases h
    · refine Yields.bind' (Q := fun h => ∃ e : Enc.HeapType, h = e.denote) ?_ r a r' h
      intro b
      refine .ite (fun _ => ?_) fun _ => .ite (fun _ => ?_) fun _ => ?_
      · exact .bind' fun _ => .bind' fun ty => .pure ⟨.abstract true ty, rfl⟩
      · exact .bind' fun _ => .bind' fun i => .pure ⟨.exact i, rfl⟩
      · exact .bind' fun ty => .pure ⟨.abstract false ty, rfl⟩

theorem yields_refType : Yields readRefType
    (fun t => ∃ e : Enc.RefType, RefType.new e.nullable e.heapType.denote = some t) := by
  refine .bind' fun pos => .bind' fun b => .ite (fun _ => ?_) fun _ => .ite (fun _ => .fail) fun _ => ?_
  · refine .bind' fun c => yields_heapType.bind ?_
    rintro _ ⟨e, rfl⟩
    cases h : RefType.new (c == 0x63) e.denote with
    | none => exact .fail
    | some t => exact .pure ⟨⟨_, e⟩, h⟩
  · have : ∀ s ty, Yields (match RefType.new true (.abstract s ty) with
        | some t => pure t
        | none => R.fail "panic: unwrap" 0 : R RefType)
        (fun t => ∃ e : Enc.RefType, RefType.new e.nullable e.heapType.denote = some t) := by
      intro s ty
      cases h : RefType.new true (.abstract s ty) with
      | none => exact .fail
      | some t => exact .pure ⟨⟨true, .abstract s ty⟩, h⟩
    refine .bind' fun c => .ite (fun _ => ?_) fun _ => ?_
    · exact .bind' fun _ => .bind' fun ty => this _ ty
    · exact .bind' fun ty => this _ ty

theorem yields_valType : Yields readValType (fun v => ∃ e : Enc.ValType, v.Is e ∧ e.Fits) := by
  refine .bind' fun b => ?_
  refine .ite (fun _ => .bind' fun _ => .pure ⟨.i32, trivial, trivial⟩) fun _ => ?_
  refine .ite (fun _ => .bind' fun _ => .pure ⟨.i64, trivial, trivial⟩) fun _ => ?_
  refine .ite (fun _ => .bind' fun _ => .pure ⟨.f32, trivial, trivial⟩) fun _ => ?_
  refine .ite (fun _ => .bind' fun _ => .pure ⟨.f64, trivial, trivial⟩) fun _ => ?_
  refine .ite (fun _ => .bind' fun _ => .pure ⟨.v128, trivial, trivial⟩) fun _ => ?_
  refine (Yields.mapErr yields_refType).bind ?_
  rintro t ⟨e, he⟩
  exact .pure ⟨.ref e, he, new_denote he⟩

theorem yields_storageType :
    Yields readStorageType (fun v => ∃ e : Enc.StorageType, v.Is e ∧ e.Fits) := by
  refine .bind' fun b => ?_
  refine .ite (fun _ => .bind' fun _ => .pure ⟨.i8, trivial, trivial⟩) fun _ => ?_
  refine .ite (fun _ => .bind' fun _ => .pure ⟨.i16, trivial, trivial⟩) fun _ => ?_
  refine yields_valType.bind ?_
  rintro t ⟨e, he⟩
  exact .pure ⟨.val e, he⟩

theorem yields_fieldType :
    Yields readFieldType (fun v => ∃ e : Enc.FieldType, v.Is e ∧ e.elementType.Fits) := by
  refine yields_storageType.bind ?_
  rintro t ⟨e, he, hf⟩
  refine .bind' fun b => .ite (fun _ => ?_) fun _ => .ite (fun _ => ?_) fun _ => ?_
  · exact .pure ⟨⟨e, false⟩, ⟨he, rfl⟩, hf⟩
  · exact .pure ⟨⟨e, true⟩, ⟨he, rfl⟩, hf⟩
  · exact .bind' fun _ => .fail

/-- Elementwise related lists from elementwise existence. -/
theorem exists_forall₂ {P : α → β → Prop} {Q : β → Prop} {l : List α}
    (h : ∀ a ∈ l, ∃ b, P a b ∧ Q b) : ∃ m, List.Forall₂ P l m ∧ ∀ b ∈ m, Q b := by
  induction l with
  | nil => exact ⟨[], .nil, by simp⟩
  | cons a l ih =>
    obtain ⟨b, h1, h2⟩ := h a (List.mem_cons_self ..)
    obtain ⟨m, h3, h4⟩ := ih fun x hx => h x (List.mem_cons_of_mem _ hx)
    refine ⟨b :: m, .cons h1 h3, ?_⟩
    intro x hx
    rcases List.mem_cons.mp hx with rfl | hx
    · exact h2
    · exact h4 x hx

theorem yields_packed {x : BitVec 32} {k : PackedIndex → R α} {Q : α → Prop}
    (h : ∀ p : PackedIndex, p.Is x → x.toNat < 2 ^ 20 → Yields (k p) Q) :
    Yields (match PackedIndex.fromModuleIndex x with
      | some p => k p
      | none => limitFail) Q := by
  rw [fromModuleIndex_eq]
  by_cases hx : x.toNat < 2 ^ 20
  · rw [if_pos hx]
    exact h _ (packed_is hx) hx
  · rw [if_neg hx]
    exact Yields.bind' fun _ => .fail

theorem yields_packedIndex :
    Yields readPackedIndex (fun p => ∃ i, p.Is i ∧ i.toNat < 2 ^ 20) :=
  .bind' fun i => yields_packed fun p hp hi => .pure ⟨i, hp, hi⟩

theorem yields_compositeInner (op : UInt8) :
    Yields (readCompositeInner op) (fun c => ∃ e : Enc.CompositeInnerType, c.Is e ∧ e.Fits) := by
  refine .ite (fun _ => ?_) fun _ => .ite (fun _ => ?_) fun _ => .ite (fun _ => ?_) fun _ =>
    .ite (fun _ => ?_) fun _ => .bind' fun _ => .fail
  · refine Yields.bind (P := fun t => ∃ e : Enc.FuncType, t.Is e ∧
      (Enc.CompositeInnerType.func e).Fits) ?_ ?_
    · refine (yields_valType.iter _ _).bind fun ps hps => ?_
      refine (yields_valType.iter _ _).bind fun rs hrs => .pure ?_
      obtain ⟨eps, h1, h2⟩ := exists_forall₂ hps.2
      obtain ⟨ers, h3, h4⟩ := exists_forall₂ hrs.2
      have l1 := h1.length_eq
      have l2 := h3.length_eq
      have := hps.1
      have := hrs.1
      refine ⟨⟨eps, ers⟩, ⟨?_, ?_, by simp⟩, ?_, ?_, h2, h4⟩
      · simpa [FuncType.params] using h1
      · simpa [FuncType.results] using h3
      · simp only [maxWasmFunctionParams] at *; omega
      · simp only [maxWasmFunctionReturns] at *; omega
    · rintro t ⟨e, he, hf⟩
      exact .pure ⟨.func e, he, hf⟩
  · refine yields_fieldType.bind ?_
    rintro t ⟨e, he, hf⟩
    exact .pure ⟨.array e, he, hf⟩
  · refine (yields_fieldType.iter _ _).bind fun fs hfs => .pure ?_
    obtain ⟨es, h1, h2⟩ := exists_forall₂ hfs.2
    refine ⟨.struct es, h1, ?_, h2⟩
    have := h1.length_eq
    have := hfs.1
    simp only [maxWasmStructFields] at *; omega
  · refine Yields.bind (P := fun p => ∃ i, p.Is i ∧ i.toNat < 2 ^ 20) ?_ ?_
    · exact .bind' fun s => .ite (fun _ => yields_packed fun p hp hi => .pure ⟨_, hp, hi⟩)
        fun _ => .bind' fun _ => .fail
    · rintro p ⟨i, hp, hi⟩
      exact .pure ⟨.cont i, hp, hi⟩

/-- An optional packed index and the module index it stands for. -/
def OptOk (o : Option PackedIndex) : Prop := ∃ e, OptIs PackedIndex.Is o e ∧ OptFits e

theorem OptOk.none : OptOk none := ⟨.none, trivial, by simp [OptFits]⟩

theorem OptOk.some {p : PackedIndex} {i : BitVec 32} (h : p.Is i) (hi : i.toNat < 2 ^ 20) :
    OptOk (some p) := ⟨.some i, h, by simpa [OptFits] using hi⟩

theorem yields_compositeType (op : UInt8) : Yields (readCompositeType op)
    (fun c => ∃ e : Enc.CompositeType, c.Is e ∧ OptFits e.describes ∧ OptFits e.descriptor ∧
      e.inner.Fits) := by
  refine .bind' fun ⟨sh, op⟩ => ?_
  have hattr : ∀ (c op : UInt8), Yields (if op = c then do
      let idx ← readPackedIndex
      pure (some idx, ← readU8)
    else pure (none, op) : R (Option PackedIndex × UInt8)) (fun x => OptOk x.1) := by
    intro c op
    refine .ite (fun _ => ?_) fun _ => .pure .none
    refine yields_packedIndex.bind ?_
    rintro p ⟨i, hp, hi⟩
    exact .bind' fun b => .pure (.some hp hi)
  refine (hattr _ _).bind ?_
  rintro ⟨o1, op⟩ ⟨e1, i1, f1⟩
  refine (hattr _ _).bind ?_
  rintro ⟨o2, op⟩ ⟨e2, i2, f2⟩
  refine (yields_compositeInner _).bind ?_
  rintro inner ⟨e, he, hf⟩
  exact .pure ⟨⟨e, sh, e2, e1⟩, ⟨he, rfl, i2, i1⟩, f1, f2, hf⟩

theorem yields_subType : Yields readSubType (fun t => ∃ e : Enc.SubType, t.Is e ∧ e.Fits) := by
  refine .bind' fun pos => .bind' fun op => .ite (fun _ => ?_) fun _ => ?_
  · refine .bind' fun idxs => .ite (fun _ => .fail) fun _ => ?_
    refine Yields.bind (P := OptOk) ?_ ?_
    · cases idxs with
      | nil => exact .pure .none
      | cons i is => exact yields_packed fun p hp hi => .pure (.some hp hi)
    · rintro o ⟨es, h1, h2⟩
      refine .bind' fun op' => (yields_compositeType op').bind ?_
      rintro c ⟨e, he, f1, f2, f3⟩
      exact .pure ⟨⟨op == 0x4f, es, e⟩, ⟨rfl, h1, he⟩, h2, f1, f2, f3⟩
  · refine (yields_compositeType op).bind ?_
    rintro c ⟨e, he, f1, f2, f3⟩
    exact .pure ⟨⟨true, none, e⟩, ⟨rfl, trivial, he⟩, by simp [OptFits], f1, f2, f3⟩

/-! ### Uniqueness -/

theorem yields_recGroup : Yields readRecGroup (fun g =>
    (∃ o t e, g = .implicit o t ∧ SubType.Is t e ∧ e.Fits) ∨
    ∃ ts es, g = .explicit ts ∧ List.Forall₂ SubType.Is (ts.map (·.2)) es ∧
      es.length ≤ 1000000 ∧ ∀ e ∈ es, e.Fits) := by
  refine .bind' fun b => .ite (fun _ => ?_) fun _ => ?_
  · refine .bind' fun _ => ?_
    have ho : Yields readOffsetSubType (fun p => ∃ e : Enc.SubType, p.2.Is e ∧ e.Fits) :=
      .bind' fun _ => yields_subType.bind fun t ht => .pure ht
    refine (ho.iter _ _).bind fun ts hts => .pure (.inr ?_)
    obtain ⟨es, h1, h2⟩ := exists_forall₂ hts.2
    refine ⟨ts, es, rfl, ?_, ?_, h2⟩
    · rw [List.forall₂_map_left_iff]; exact h1
    · have := h1.length_eq
      have := hts.1
      simp only [maxWasmTypes] at this
      omega
  · refine .bind' fun o => yields_subType.bind ?_
    rintro t ⟨e, h1, h2⟩
    exact .pure (.inl ⟨o, t, e, rfl, h1, h2⟩)

/-- A relation that is a partial function to the left. -/
def LeftUnique (P : α → β → Prop) : Prop := ∀ a a' b, P a b → P a' b → a = a'

theorem LeftUnique.forall₂ {P : α → β → Prop} (h : LeftUnique P) :
    LeftUnique (List.Forall₂ P) := by
  intro l l' m h1
  induction h1 generalizing l' with
  | nil => intro h2; cases h2; rfl
  | cons p _ ih =>
    intro h2
    cases h2 with
    | cons p' h2 => rw [h _ _ _ p p', ih _ h2]

theorem lu_val : LeftUnique ValType.Is := by
  intro a a' b h h'
  cases b <;> cases a <;> first | (cases h; done) | skip
  all_goals cases a' <;> first | (cases h'; done) | skip
  all_goals first | rfl | skip
  simp only [ValType.Is] at h h'
  rw [h] at h'
  injection h' with h'
  rw [h']

theorem lu_packed : LeftUnique PackedIndex.Is := by
  intro a a' b h h'
  unfold PackedIndex.Is at h h'
  rw [h] at h'
  injection h'

theorem LeftUnique.opt {P : α → β → Prop} (h : LeftUnique P) : LeftUnique (OptIs P) := by
  intro a a' b h1 h2
  cases b <;> cases a <;> first | (cases h1; done) | skip
  all_goals cases a' <;> first | (cases h2; done) | skip
  · rfl
  · rw [h _ _ _ h1 h2]

theorem lu_storage : LeftUnique StorageType.Is := by
  intro a a' b h h'
  cases b <;> cases a <;> first | (cases h; done) | skip
  all_goals cases a' <;> first | (cases h'; done) | skip
  all_goals first | rfl | skip
  rw [lu_val _ _ _ h h']

theorem lu_field : LeftUnique FieldType.Is := by
  rintro ⟨a, m⟩ ⟨a', m'⟩ b ⟨h1, h2⟩ ⟨h1', h2'⟩
  simp only at *
  rw [lu_storage _ _ _ h1 h1', h2, h2']

theorem lu_func : LeftUnique FuncType.Is := by
  rintro ⟨a, n⟩ ⟨a', n'⟩ b ⟨h1, h2, h3⟩ ⟨h1', h2', h3'⟩
  have e1 := lu_val.forall₂ _ _ _ h1 h1'
  have e2 := lu_val.forall₂ _ _ _ h2 h2'
  have l1 := h1.length_eq
  have l2 := h1'.length_eq
  simp only [FuncType.params, FuncType.results, List.length_take] at *
  have e : a = a' := by rw [← List.take_append_drop n a, e1, e2, List.take_append_drop]
  have : n = n' := by omega
  rw [e, this]

theorem lu_inner : LeftUnique CompositeInnerType.Is := by
  intro a a' b h h'
  cases b <;> cases a <;> first | (cases h; done) | skip
  all_goals cases a' <;> first | (cases h'; done) | skip
  · rw [lu_func _ _ _ h h']
  · rw [lu_field _ _ _ h h']
  · rw [lu_field.forall₂ _ _ _ h h']
  · rw [lu_packed _ _ _ h h']

theorem lu_composite : LeftUnique CompositeType.Is := by
  rintro ⟨a, s, x, y⟩ ⟨a', s', x', y'⟩ b ⟨h1, h2, h3, h4⟩ ⟨h1', h2', h3', h4'⟩
  simp only at *
  rw [lu_inner _ _ _ h1 h1', h2, h2', lu_packed.opt _ _ _ h3 h3', lu_packed.opt _ _ _ h4 h4']

theorem lu_sub : LeftUnique SubType.Is := by
  rintro ⟨a, s, x⟩ ⟨a', s', x'⟩ b ⟨h1, h2, h3⟩ ⟨h1', h2', h3'⟩
  simp only at *
  rw [h1, h1', lu_packed.opt _ _ _ h2 h2', lu_composite _ _ _ h3 h3']

/-! ### Re-encoding -/
section
variable (f : BitVec 32 → BitVec 32)

theorem mapM_forall₂ {P : α → β → Prop} {g : α → Option γ} {k : β → γ}
    (h : ∀ a b, P a b → g a = some (k b)) {l : List α} {m : List β} (hl : List.Forall₂ P l m) :
    l.mapM g = some (m.map k) := by
  induction hl with
  | nil => rfl
  | cons p _ ih => simp [List.mapM_cons, h _ _ p, ih]

theorem re_packed {p : PackedIndex} {i : BitVec 32} (h : p.Is i) :
    Reenc.packedIndex f p = some (f i) := by
  unfold PackedIndex.Is at h
  rw [fromModuleIndex_eq] at h
  split at h
  · rename_i hi
    cases h
    unfold Reenc.packedIndex
    rw [packed_unpack hi]
    rfl
  · cases h

theorem re_opt {p : Option PackedIndex} {i : Option (BitVec 32)} (h : OptIs PackedIndex.Is p i) :
    Reenc.optIndex f p = some (i.map f) := by
  cases p <;> cases i <;> first | (cases h; done) | skip
  · rfl
  · simp [Reenc.optIndex, re_packed f h]

theorem re_val {v : ValType} {e : Enc.ValType} (h : v.Is e) :
    Reenc.valType f v = some (e.rename f) := by
  cases v <;> cases e <;> first | (cases h; done) | skip
  all_goals first | rfl | skip
  rename_i t e
  obtain ⟨⟨h1, h2⟩, -⟩ := new_is (show RefType.new _ _ = some t from h)
  obtain ⟨n, ht⟩ := e
  simp only [Reenc.valType, Reenc.refType, h1, h2]
  cases ht <;> rfl

theorem re_storage {v : StorageType} {e : Enc.StorageType} (h : v.Is e) :
    Reenc.storageType f v = some (e.rename f) := by
  cases v <;> cases e <;> first | (cases h; done) | skip
  all_goals first | rfl | skip
  simp only [Reenc.storageType, re_val f (show ValType.Is _ _ from h)]
  rfl

theorem re_field {v : FieldType} {e : Enc.FieldType} (h : v.Is e) :
    Reenc.fieldType f v = some (e.rename f) := by
  obtain ⟨h1, h2⟩ := h
  simp only [Reenc.fieldType, re_storage f h1, h2]
  rfl

theorem re_func {v : FuncType} {e : Enc.FuncType} (h : v.Is e) :
    Reenc.funcType f v = some ⟨e.params.map (·.rename f), e.results.map (·.rename f)⟩ := by
  obtain ⟨h1, h2, h3⟩ := h
  unfold Reenc.funcType
  have := mapM_forall₂ (g := Reenc.valType f) (k := (·.rename f)) (fun a b => re_val f)
    (List.rel_append h1 h2)
  rw [this]
  have l := h1.length_eq
  simp [l]

theorem re_inner {v : CompositeInnerType} {e : Enc.CompositeInnerType} (h : v.Is e) :
    Reenc.compositeInner f v = some (e.rename f) := by
  cases v <;> cases e <;> first | (cases h; done) | skip
  · simp only [Reenc.compositeInner, re_func f h]; rfl
  · simp only [Reenc.compositeInner, re_field f h]; rfl
  · simp only [Reenc.compositeInner, mapM_forall₂ (P := FieldType.Is) (fun a b => re_field f) h]; rfl
  · simp only [Reenc.compositeInner, re_packed f h]; rfl

theorem re_sub {v : SubType} {e : Enc.SubType} (h : v.Is e) :
    Reenc.subType f v = some (e.rename f) := by
  obtain ⟨h1, h2, h3, h4, h5, h6⟩ := h
  simp only [Reenc.subType, Reenc.compositeType, re_opt f h2, re_inner f h3, re_opt f h5,
    re_opt f h6, h1, h4]
  rfl

end

theorem rename_id_val (e : Enc.ValType) : e.rename id = e := by
  cases e <;> first | rfl | skip
  rename_i r
  obtain ⟨n, h⟩ := r
  cases h <;> rfl

theorem rename_id_storage (e : Enc.StorageType) : e.rename id = e := by
  cases e <;> simp [Enc.StorageType.rename, rename_id_val]

theorem rename_id_field (e : Enc.FieldType) : e.rename id = e := by
  simp [Enc.FieldType.rename, rename_id_storage]

theorem rename_id_inner (e : Enc.CompositeInnerType) : e.rename id = e := by
  cases e <;> simp [Enc.CompositeInnerType.rename, rename_id_field, rename_id_val]

theorem rename_id_sub (e : Enc.SubType) : e.rename id = e := by
  obtain ⟨a, b, c, d, e, f⟩ := e
  simp [Enc.SubType.rename, rename_id_inner]

end Verif.Types
