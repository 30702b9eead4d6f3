import Verif.Op.Calm
/-! The helpers of the operator validator do not panic. -/
namespace Verif.Op.Calm
open Verif.Types (AbsHeap UnpackedIndex HeapType RefType ValType)
open Verif.Instr (FrameKind BlockType MemArg Catch Handle BrTable Operator)
open Verif.TypeList.Spec (Field Storage Comp SubT)

variable {α β : Type} {E : Env} {n : Nat} {A : Answers}

/-! ## Types of a module -/

theorem SubFine.params {R : Resources} {s : SubT Nat} (h : SubFine R n s) {ps rs : List Val}
    (hc : s.comp = .func ps rs) : FuncIn n ⟨ps, rs⟩ := by
  have := h.refs
  unfold SubT.refs Comp.refs at this
  rw [hc] at this
  refine ⟨fun v hv i hi => this i ?_, fun v hv i hi => this i ?_⟩
  · simp only [List.mem_append, List.mem_flatMap]
    exact .inr (.inl ⟨v, hv, hi⟩)
  · simp only [List.mem_append, List.mem_flatMap]
    exact .inr (.inr ⟨v, hv, hi⟩)

theorem fieldIn {f : Field Nat} (h : ∀ i ∈ f.refs, i < n) : FieldIn n f := by
  obtain ⟨m, s⟩ := f
  cases s with
  | val v => exact h
  | _ => nofun

theorem SubFine.fields {R : Resources} {s : SubT Nat} (h : SubFine R n s) {fs : List (Field Nat)}
    (hc : s.comp = .struct fs) : ∀ f ∈ fs, FieldIn n f := by
  have := h.refs
  unfold SubT.refs Comp.refs at this
  rw [hc] at this
  intro f hf
  refine fieldIn fun i hi => this i ?_
  simp only [List.mem_append, List.mem_flatMap]
  exact .inr ⟨f, hf, hi⟩

theorem SubFine.elem {R : Resources} {s : SubT Nat} (h : SubFine R n s) {f : Field Nat}
    (hc : s.comp = .array f) : FieldIn n f := by
  have := h.refs
  unfold SubT.refs Comp.refs at this
  rw [hc] at this
  refine fieldIn fun i hi => this i ?_
  simp only [List.mem_append]
  exact .inr hi

theorem SubFine.desc {R : Resources} {s : SubT Nat} (h : SubFine R n s) {d : Nat}
    (hd : s.descriptor = some d) : d < n := by
  refine h.refs d ?_
  unfold SubT.refs
  simp [hd]

theorem SubFine.contIn {R : Resources} {s : SubT Nat} (h : SubFine R n s) {c : Nat}
    (hc : s.comp = .cont c) : c < n := by
  refine h.refs c ?_
  unfold SubT.refs Comp.refs
  simp [hc]

theorem calm_requireAccess {b : Bool} : CalmU E n (requireAccess b) (requireAccess b) := by
  refine Calm.same fun S hS => ⟨rfl, ?_, ?_⟩
  · show ((require _ : M Unit) S).1 ≠ _
    unfold require
    split <;> nofun
  · intro a S' h
    have h : (require _ : M Unit) S = _ := h
    unfold require at h
    split at h
    · cases h; exact ⟨rfl, trivial⟩
    · cases h

theorem calm_subTypeAt (hf : Fine E.R n) {i : BitVec 32} :
    Calm E n (subTypeAt E i) (subTypeAt (alt E A) i) (SubFine E.R n) :=
  Calm.orError fun s hs => hf.sub i s hs

theorem calm_structTypeAt (hf : Fine E.R n) {i : BitVec 32} :
    Calm E n (structTypeAt E i) (structTypeAt (alt E A) i) fun fs => ∀ f ∈ fs, FieldIn n f := by
  refine Calm.bind (calm_subTypeAt hf) fun s hs => ?_
  split
  · next fs hc => exact Calm.bind calm_requireAccess fun _ _ => Calm.pure (hs.fields hc)
  · exact Calm.fail

theorem calm_structFieldAt (hf : Fine E.R n) {i j : BitVec 32} :
    Calm E n (structFieldAt E i j) (structFieldAt (alt E A) i j) (FieldIn n) :=
  Calm.bind (calm_structTypeAt hf) fun fs hs =>
    Calm.orError fun f he => hs f (List.mem_of_getElem? he)

theorem calm_mutableStructFieldAt (hf : Fine E.R n) {i j : BitVec 32} :
    Calm E n (mutableStructFieldAt E i j) (mutableStructFieldAt (alt E A) i j) (FieldIn n) :=
  Calm.bind (calm_structFieldAt hf) fun _ hs =>
    Calm.bind (Calm.require rfl) fun _ _ => Calm.pure hs

theorem calm_arrayTypeAt (hf : Fine E.R n) {i : BitVec 32} :
    Calm E n (arrayTypeAt E i) (arrayTypeAt (alt E A) i) (FieldIn n) := by
  refine Calm.bind (calm_subTypeAt hf) fun s hs => ?_
  split
  · next f hc => exact Calm.bind calm_requireAccess fun _ _ => Calm.pure (hs.elem hc)
  · exact Calm.fail

theorem calm_mutableArrayTypeAt (hf : Fine E.R n) {i : BitVec 32} :
    Calm E n (mutableArrayTypeAt E i) (mutableArrayTypeAt (alt E A) i) (FieldIn n) :=
  Calm.bind (calm_arrayTypeAt hf) fun _ hs =>
    Calm.bind (Calm.require rfl) fun _ _ => Calm.pure hs

theorem calm_funcTypeAt (hf : Fine E.R n) {i : BitVec 32} :
    Calm E n (funcTypeAt E i) (funcTypeAt (alt E A) i) (FuncIn n) := by
  refine Calm.bind (calm_subTypeAt hf) fun s hs => ?_
  split
  · next ps rs hc => exact Calm.bind calm_requireAccess fun _ _ => Calm.pure (hs.params hc)
  · exact Calm.fail

/-- The identifier of a function type. -/
def IsFuncId (R : Resources) (n : Nat) (c : Nat) : Prop :=
  c < n ∧ ∃ t ps rs, R.subTypeAtId c = some t ∧ t.comp = .func ps rs

theorem calm_contTypeAt (hf : Fine E.R n) {i : BitVec 32} :
    Calm E n (contTypeAt E i) (contTypeAt (alt E A) i) (IsFuncId E.R n) := by
  refine Calm.bind (calm_subTypeAt hf) fun s hs => ?_
  split
  · next c hc =>
    exact Calm.bind calm_requireAccess fun _ _ => Calm.pure ⟨hs.contIn hc, hs.cont _ hc⟩
  · exact Calm.fail

theorem calm_funcTypeOfContType (hf : Fine E.R n) {c : Nat} (h : IsFuncId E.R n c) :
    Calm E n (funcTypeOfContType E c) (funcTypeOfContType (alt E A) c) (FuncIn n) := by
  obtain ⟨_, t, ps, rs, h1, h2⟩ := h
  refine Calm.bind (P := fun s => s = t) (Calm.orPanic ⟨t, h1, rfl⟩) ?_
  rintro s rfl
  rw [h2]
  exact Calm.pure ((hf.subId c s h1).params h2)

theorem calm_contAtId (hf : Fine E.R n) {c : Nat} (h : c < n) :
    Calm E n (contAtId E c) (contAtId (alt E A) c) (IsFuncId E.R n) := by
  obtain ⟨t, ht⟩ := Option.isSome_iff_exists.1 (hf.defined c h)
  have hs := hf.subId c t ht
  refine Calm.bind (P := SubFine E.R n) (Calm.orPanic ⟨t, ht, hs⟩) fun s hs => ?_
  split
  · next c hc => exact Calm.pure ⟨hs.contIn hc, hs.cont _ hc⟩
  · exact Calm.fail

theorem calm_tagAt (hf : Fine E.R n) {i : BitVec 32} :
    Calm E n (tagAt E i) (tagAt (alt E A) i) (FuncIn n) :=
  Calm.orError fun s hs => hf.tag i s hs

theorem calm_exceptionTagAt (hf : Fine E.R n) {i : BitVec 32} :
    Calm E n (exceptionTagAt E i) (exceptionTagAt (alt E A) i) (FuncIn n) :=
  Calm.bind (calm_tagAt hf) fun _ hs => Calm.bind (Calm.require rfl) fun _ _ => Calm.pure hs

theorem calm_globalTypeAt (hf : Fine E.R n) {i : BitVec 32} :
    Calm E n (globalTypeAt E i) (globalTypeAt (alt E A) i) fun g => ValIn n g.content :=
  Calm.bind (Calm.orError fun s hs => hf.global i s hs) fun _ hs =>
    Calm.bind calm_requireAccess fun _ _ => Calm.pure hs

theorem calm_tableTypeAt (hf : Fine E.R n) {i : BitVec 32} :
    Calm E n (tableTypeAt E i) (tableTypeAt (alt E A) i) fun t => RefIn n t.elem :=
  Calm.bind (Calm.orError fun s hs => hf.table i s hs) fun _ hs =>
    Calm.bind calm_requireAccess fun _ _ => Calm.pure hs

theorem calm_elementTypeAt (hf : Fine E.R n) {i : BitVec 32} :
    Calm E n (elementTypeAt E i) (elementTypeAt (alt E A) i) (RefIn n) :=
  Calm.orError fun s hs => hf.elem i s hs

theorem calm_checkDataSegment {i : BitVec 32} :
    CalmU E n (checkDataSegment E i) (checkDataSegment (alt E A) i) :=
  Calm.bind (P := fun _ => True) (Calm.orError fun _ _ => trivial) fun _ _ =>
    (Calm.require rfl).unit

theorem indexType_in (b : Bool) : ValIn n (indexType b) := by cases b <;> nofun

theorem calm_checkMemoryIndex {i : BitVec 32} :
    Calm E n (checkMemoryIndex E i) (checkMemoryIndex (alt E A) i) (ValIn n) :=
  Calm.bind (P := fun _ => True) (Calm.orError fun _ _ => trivial) fun b _ =>
    Calm.pure (indexType_in b)

theorem calm_checkMemarg {m : MemArg} :
    Calm E n (checkMemarg E m) (checkMemarg (alt E A) m) (ValIn n) :=
  Calm.bind calm_checkMemoryIndex fun _ h => Calm.bind (Calm.require rfl) fun _ _ =>
    Calm.bind (Calm.require rfl) fun _ _ => Calm.pure h

theorem calm_checkSharedMemarg {m : MemArg} :
    Calm E n (checkSharedMemarg E m) (checkSharedMemarg (alt E A) m) (ValIn n) :=
  Calm.bind (Calm.require rfl) fun _ _ => calm_checkMemarg

theorem calm_checkFloatsEnabled :
    CalmU E n (checkFloatsEnabled E) (checkFloatsEnabled (alt E A)) := (Calm.require rfl).unit

macro_rules | `(tactic| calm_step) => `(tactic| with_reducible exact calm_checkDataSegment)
macro_rules | `(tactic| calm_step) => `(tactic| with_reducible exact calm_checkMemoryIndex)
macro_rules | `(tactic| calm_step) => `(tactic| with_reducible exact calm_checkMemarg)
macro_rules | `(tactic| calm_step) => `(tactic| with_reducible exact calm_checkSharedMemarg)
macro_rules | `(tactic| calm_step) => `(tactic| with_reducible exact calm_checkFloatsEnabled)
macro_rules | `(tactic| calm_step) => `(tactic| with_reducible exact calm_subTypeAt (by assumption))
macro_rules | `(tactic| calm_step) => `(tactic| with_reducible exact calm_structTypeAt (by assumption))
macro_rules | `(tactic| calm_step) => `(tactic| with_reducible exact calm_structFieldAt (by assumption))
macro_rules | `(tactic| calm_step) => `(tactic| with_reducible exact calm_mutableStructFieldAt (by assumption))
macro_rules | `(tactic| calm_step) => `(tactic| with_reducible exact calm_arrayTypeAt (by assumption))
macro_rules | `(tactic| calm_step) => `(tactic| with_reducible exact calm_mutableArrayTypeAt (by assumption))
macro_rules | `(tactic| calm_step) => `(tactic| with_reducible exact calm_funcTypeAt (by assumption))
macro_rules | `(tactic| calm_step) => `(tactic| with_reducible exact calm_contTypeAt (by assumption))
macro_rules | `(tactic| calm_step) => `(tactic| with_reducible refine calm_funcTypeOfContType (by assumption) ?_)
macro_rules | `(tactic| calm_step) => `(tactic| with_reducible refine calm_contAtId (by assumption) ?_)
macro_rules | `(tactic| calm_step) => `(tactic| with_reducible exact calm_tagAt (by assumption))
macro_rules | `(tactic| calm_step) => `(tactic| with_reducible exact calm_exceptionTagAt (by assumption))
macro_rules | `(tactic| calm_step) => `(tactic| with_reducible exact calm_globalTypeAt (by assumption))
macro_rules | `(tactic| calm_step) => `(tactic| with_reducible exact calm_tableTypeAt (by assumption))
macro_rules | `(tactic| calm_step) => `(tactic| with_reducible exact calm_elementTypeAt (by assumption))
macro_rules | `(tactic| calm_in) => `(tactic| exact indexType_in _)

/-! ## References -/

theorem mkRef_in {b : Bool} {h : Heap} (hn : n ≤ 2 ^ 20) (hh : HeapIn n h) :
    mkRef b h = some ⟨b, h⟩ := by
  unfold mkRef
  cases h with
  | abs => rfl
  | concrete i =>
    have := hh i (by simp [Verif.TypeList.Spec.Heap.refs])
    dsimp only
    rw [if_pos (by omega)]
  | exact i =>
    have := hh i (by simp [Verif.TypeList.Spec.Heap.refs])
    dsimp only
    rw [if_pos (by omega)]

theorem mkRef_some {b : Bool} {h : Heap} {r : Ref} (hh : mkRef b h = some r) : r = ⟨b, h⟩ := by
  unfold mkRef at hh
  cases h <;> dsimp only at hh
  · cases hh; rfl
  · split at hh
    · cases hh; rfl
    · cases hh
  · split at hh
    · cases hh; rfl
    · cases hh

theorem calm_orErrorRef {b : Bool} {h : Heap} (hh : HeapIn n h) :
    Calm E n (orError (mkRef b h)) (orError (mkRef b h)) (RefIn n) :=
  Calm.orError fun r hr => by rw [mkRef_some hr]; exact hh

theorem calm_orPanicRef (hf : Fine E.R n) {b : Bool} {h : Heap} (hh : HeapIn n h) :
    Calm E n (orPanic (mkRef b h)) (orPanic (mkRef b h)) (RefIn n) :=
  Calm.orPanic ⟨_, mkRef_in hf.small hh, hh⟩

theorem calm_lift {x : Except Fail α} {P : α → Prop} (h1 : x ≠ .error .panic)
    (h2 : ∀ a, x = .ok a → P a) : Calm E n (lift x) (lift x) P := by
  cases x with
  | ok a => exact Calm.pure (h2 a rfl)
  | error e =>
    cases e with
    | error => exact Calm.fail
    | panic => exact absurd rfl h1

/-- What `check_heap_type` gives. -/
def HeapLike (n : Nat) (h : HeapType) (x : Heap) : Prop :=
  HeapIn n x ∧ ∀ s a, x = .abs s a → h = .abstract s a

theorem heap_fine (hf : Fine E.R n) {h : HeapType} (hm : Modular h) :
    E.R.checkHeapType h ≠ .error .panic ∧ ∀ x, E.R.checkHeapType h = .ok x → HeapLike n h x := by
  cases h with
  | abstract s a =>
    rw [hf.abs]
    refine ⟨nofun, ?_⟩
    rintro x ⟨⟩
    exact ⟨nofun, by rintro _ _ ⟨⟩; rfl⟩
  | concrete u =>
    obtain ⟨i, rfl⟩ := hm
    rcases hf.concrete i with h | ⟨id, hid, h⟩ <;> rw [h]
    · exact ⟨nofun, nofun⟩
    · refine ⟨nofun, ?_⟩
      rintro x ⟨⟩
      refine ⟨fun j hj => ?_, nofun⟩
      rw [List.mem_singleton.1 hj]
      exact hid
  | exact u =>
    obtain ⟨i, rfl⟩ := hm
    rcases hf.exact i with h | ⟨id, hid, h⟩ <;> rw [h]
    · exact ⟨nofun, nofun⟩
    · refine ⟨nofun, ?_⟩
      rintro x ⟨⟩
      refine ⟨fun j hj => ?_, nofun⟩
      rw [List.mem_singleton.1 hj]
      exact hid

theorem calm_checkHeapType (hf : Fine E.R n) {h : HeapType} (hm : Modular h) :
    Calm E n (lift (E.R.checkHeapType h)) (lift ((alt E A).R.checkHeapType h)) (HeapLike n h) :=
  calm_lift (heap_fine hf hm).1 (heap_fine hf hm).2

theorem calm_checkConcrete (hf : Fine E.R n) {i : BitVec 32} :
    Calm E n (checkConcrete E i) (checkConcrete (alt E A) i) (HeapIn n) :=
  (calm_checkHeapType (h := .concrete (.module i)) hf ⟨i, rfl⟩).weaken fun _ h => h.1

theorem calm_checkExact (hf : Fine E.R n) {i : BitVec 32} :
    Calm E n (checkExact E i) (checkExact (alt E A) i) (HeapIn n) :=
  (calm_checkHeapType (h := .exact (.module i)) hf ⟨i, rfl⟩).weaken fun _ h => h.1

theorem calm_pushConcreteRef (hf : Fine E.R n) {b : Bool} {i : BitVec 32} :
    CalmU E n (pushConcreteRef E b i) (pushConcreteRef (alt E A) b i) :=
  Calm.bind (calm_checkConcrete hf) fun _ h => Calm.bind (calm_orErrorRef h) fun _ h =>
    calm_pushRef h

theorem calm_pushExactRef (hf : Fine E.R n) {b : Bool} {i : BitVec 32} :
    CalmU E n (pushExactRef E b i) (pushExactRef (alt E A) b i) :=
  Calm.bind (calm_checkExact hf) fun _ h => Calm.bind (calm_orErrorRef h) fun _ h =>
    calm_pushRef h

theorem calm_pushExactRefIfAvailable (hf : Fine E.R n) {b : Bool} {i : BitVec 32} :
    CalmU E n (pushExactRefIfAvailable E b i) (pushExactRefIfAvailable (alt E A) b i) :=
  Calm.ite (fun _ => calm_pushExactRef hf) fun _ => calm_pushConcreteRef hf

theorem calm_popConcreteRef (hf : Fine E.R n) (hs : Same E.R n A) {b : Bool} {i : BitVec 32} :
    Calm E n (popConcreteRef E b i) (popConcreteRef (alt E A) b i) (MTIn n) :=
  Calm.bind (calm_checkConcrete hf) fun _ h => Calm.bind (calm_orErrorRef h) fun _ h =>
    calm_pop hs (by rintro v ⟨⟩; exact h)

theorem calm_popConcreteOrExactRef (hf : Fine E.R n) (hs : Same E.R n A) {b : Bool}
    {i : BitVec 32} : Calm E n (popConcreteOrExactRef E b i) (popConcreteOrExactRef (alt E A) b i)
      fun p => MTIn n p.1 := by
  refine Calm.bind (calm_popConcreteRef hf hs) fun t ht => ?_
  split
  · next rt =>
    refine Calm.ite (fun _ => ?_) fun _ => Calm.pure ht
    refine Calm.bind (calm_checkExact hf) fun _ h => Calm.bind (calm_orErrorRef h) fun r h => ?_
    have : (alt E A).R.isSubtype (.ref rt) (.ref r) = E.R.isSubtype (.ref rt) (.ref r) :=
      hs.sub _ _ ht h
    rw [this]
    exact Calm.pure ht
  · exact Calm.pure trivial
  · exact Calm.pure ht

theorem calm_popPushLabelTypes (hs : Same E.R n A) {ts : List Val} (h : ValsIn n ts) :
    CalmU E n (popPushLabelTypes E ts) (popPushLabelTypes (alt E A) ts) :=
  Calm.bind (calm_popAll hs h) fun _ _ => calm_pushAll h

theorem calm_matchOperand (hs : Same E.R n A) {a b : Val} (ha : ValIn n a) (hb : ValIn n b) :
    CalmU E n (matchOperand E a b) (matchOperand (alt E A) a b) :=
  Calm.bind (calm_push ha) fun _ _ => calm_popT hs hb

theorem calm_popTypes (hs : Same E.R n A) : ∀ {ts : List Val}, ValsIn n ts →
    Calm E n (popTypes E ts) (popTypes (alt E A) ts) fun ms => ∀ m ∈ ms, MTIn n m
  | [], _ => Calm.pure nofun
  | t :: ts, h => by
    refine Calm.bind (calm_pop hs (by rintro v ⟨⟩; exact h t (by simp))) fun m hm => ?_
    refine Calm.bind (calm_popTypes hs fun v hv => h v (by simp [hv])) fun ms hms => ?_
    refine Calm.pure fun x hx => ?_
    rcases List.mem_cons.1 hx with rfl | hx
    · exact hm
    · exact hms x hx

theorem calm_matchStackOperands (hs : Same E.R n A) {ts : List Val} (h : ValsIn n ts) :
    CalmU E n (matchStackOperands E ts) (matchStackOperands (alt E A) ts) :=
  Calm.bind (calm_popTypes hs fun v hv => h v (by simpa using hv)) fun ms hms =>
    Calm.each fun x hx => calm_pushMT (hms x (by simpa using hx))

theorem calm_popRef (hs : Same E.R n A) {x : Option Ref} (hx : ∀ r, x = some r → RefIn n r) :
    Calm E n (popRef E x) (popRef (alt E A) x) (MRIn n) := by
  refine Calm.bind (calm_pop hs ?_) fun t ht => ?_
  · intro v hv
    cases x with
    | none => cases hv
    | some r => cases hv; exact hx r rfl
  · split
    · exact Calm.pure trivial
    · exact Calm.pure trivial
    · exact Calm.pure ht
    · exact Calm.fail

theorem calm_popRefNone (hs : Same E.R n A) :
    Calm E n (popRef E none) (popRef (alt E A) none) (MRIn n) := calm_popRef hs nofun

theorem calm_popRefSome (hs : Same E.R n A) {r : Ref} (hr : RefIn n r) :
    Calm E n (popRef E (some r)) (popRef (alt E A) (some r)) (MRIn n) :=
  calm_popRef hs (by rintro _ ⟨⟩; exact hr)

theorem calm_popMaybeSharedRef (hs : Same E.R n A) {a : AbsHeap} :
    Calm E n (popMaybeSharedRef E a) (popMaybeSharedRef (alt E A) a) (MRIn n) := by
  refine Calm.bind (calm_popRefNone hs) fun t ht => ?_
  split
  · exact Calm.pure trivial
  · exact Calm.pure trivial
  · exact Calm.bind (Calm.require rfl) fun _ _ => Calm.pure trivial
  · next r =>
    refine Calm.bind (Calm.require ?_) fun _ _ => Calm.pure ht
    show A.sub _ (.ref ⟨true, .abs (A.shared r) a⟩) = _
    rw [hs.shared r ht]
    exact hs.sub _ _ ht nofun

macro_rules | `(tactic| calm_step) => `(tactic| with_reducible exact calm_checkConcrete (by assumption))
macro_rules | `(tactic| calm_step) => `(tactic| with_reducible exact calm_checkExact (by assumption))
macro_rules | `(tactic| calm_step) => `(tactic| with_reducible refine calm_checkHeapType (by assumption) ?_)
macro_rules | `(tactic| calm_step) => `(tactic| with_reducible refine calm_orErrorRef ?_)
macro_rules | `(tactic| calm_step) => `(tactic| with_reducible refine calm_orPanicRef (by assumption) ?_)
macro_rules | `(tactic| calm_step) => `(tactic| with_reducible exact calm_pushConcreteRef (by assumption))
macro_rules | `(tactic| calm_step) => `(tactic| with_reducible exact calm_pushExactRefIfAvailable (by assumption))
macro_rules | `(tactic| calm_step) => `(tactic| with_reducible exact calm_popConcreteRef (by assumption) (by assumption))
macro_rules | `(tactic| calm_step) => `(tactic| with_reducible refine calm_popPushLabelTypes (by assumption) ?_)
macro_rules | `(tactic| calm_step) => `(tactic| with_reducible refine calm_matchStackOperands (by assumption) ?_)
macro_rules | `(tactic| calm_step) => `(tactic| with_reducible exact calm_popRefNone (by assumption))
macro_rules | `(tactic| calm_step) => `(tactic| with_reducible refine calm_popRefSome (by assumption) ?_)
macro_rules | `(tactic| calm_step) => `(tactic| with_reducible exact calm_popMaybeSharedRef (by assumption))

/-! ## Frames and locals -/

theorem calm_localTy {i : BitVec 32} : Trip (Wf E n) (localTy E i) (localTy (alt E A) i)
    fun t S => Wf E n S ∧ ValIn n t ∧ i.toNat < S.inits.localInits.length := by
  intro S hS
  show orError (S.locals.get E.bs i) S = orError (S.locals.get E.bs i) S ∧
    (orError (S.locals.get E.bs i) S).1 ≠ _ ∧ ∀ a S', orError (S.locals.get E.bs i) S = _ → _
  cases hg : S.locals.get E.bs i with
  | none => exact ⟨rfl, nofun, nofun⟩
  | some t =>
    refine ⟨rfl, nofun, ?_⟩
    intro a S' h
    cases h
    exact ⟨hS, hS.locals i t hg⟩

theorem calm_unreachable : CalmU E n unreachable unreachable := by
  intro S hS
  refine ⟨rfl, ?_⟩
  unfold unreachable
  cases hc : S.control with
  | nil => exact absurd hc hS.frame
  | cons fr c =>
    have hh := hS.height hc
    dsimp only
    rw [if_pos hh]
    refine ⟨nofun, ?_⟩
    intro a S' h
    cases h
    have hn := hS.nested
    rw [hc] at hn
    refine ⟨⟨⟨?_, ?_, ?_, hS.locals, ?_⟩, nofun⟩, trivial⟩
    · refine ⟨?_, hn.2⟩
      simp only [List.length_drop]
      omega
    · intro fr' hfr'
      have := hS.blocks
      rw [hc] at this
      rcases List.mem_cons.1 hfr' with rfl | h
      · exact this fr (by simp)
      · exact this fr' (by simp [h])
    · exact fun t ht => hS.operands t (List.mem_of_mem_drop ht)
    · intro fr' hl
      have hb := hS.bottom
      rw [hc] at hb
      cases c with
      | nil =>
        cases hl
        exact hb fr rfl
      | cons => exact hb fr' hl

theorem calm_results (hf : Fine E.R n) {bt : BT} (hb : BTIn n bt) :
    Calm E n (results E bt) (results (alt E A) bt) (ValsIn n) := by
  cases bt with
  | empty => exact Calm.pure nofun
  | type t => exact Calm.pure fun v hv => by rw [List.mem_singleton.1 hv]; exact hb
  | func i => exact Calm.bind (calm_funcTypeAt hf) fun _ h => Calm.pure h.2

theorem calm_params (hf : Fine E.R n) {bt : BT} :
    Calm E n (params E bt) (params (alt E A) bt) (ValsIn n) := by
  cases bt with
  | empty => exact Calm.pure nofun
  | type t => exact Calm.pure nofun
  | func i => exact Calm.bind (calm_funcTypeAt hf) fun _ h => Calm.pure h.1

theorem calm_labelTypes (hf : Fine E.R n) {bt : BT} (hb : BTIn n bt) {k : FrameKind} :
    Calm E n (labelTypes E bt k) (labelTypes (alt E A) bt k) (ValsIn n) := by
  cases k with
  | loop => exact calm_params hf
  | _ => exact calm_results hf hb

theorem calm_jump {d : BitVec 32} : Calm E n (jump d) (jump d) fun p => BTIn n p.1 := by
  refine Calm.same fun S hS => ⟨rfl, ?_⟩
  have e : jump d S = (do let fr ← orError S.control[d.toNat]?; pure (fr.blockType, fr.kind)) S := by
    unfold jump
    show (if S.control.isEmpty then _ else _ : M _) S = _
    rw [if_neg (by simpa using hS.frame)]
  rw [e]
  cases hd : S.control[d.toNat]? with
  | none => exact ⟨nofun, nofun⟩
  | some fr =>
    refine ⟨nofun, ?_⟩
    intro a S' h
    cases h
    exact ⟨rfl, hS.blocks fr (List.mem_of_getElem? hd)⟩

theorem calm_jumpTypes (hf : Fine E.R n) {d : BitVec 32} :
    Calm E n (jumpTypes E d) (jumpTypes (alt E A) d) (ValsIn n) :=
  Calm.bind calm_jump fun _ h => calm_labelTypes hf h

theorem calm_functionResults (hf : Fine E.R n) :
    Calm E n (functionResults E) (functionResults (alt E A)) (ValsIn n) := by
  intro S hS
  obtain ⟨fr, hfr⟩ : ∃ fr, S.control.getLast? = some fr := by
    cases h : S.control.getLast? with
    | none => exact absurd (List.getLast?_eq_none_iff.1 h) hS.frame
    | some fr => exact ⟨fr, rfl⟩
  have e : ∀ E : Env, functionResults E S = results E fr.blockType S := by
    intro E
    show (orPanic S.control.getLast? >>= fun fr => results E fr.blockType) S = _
    rw [hfr]
    rfl
  rw [e, e]
  exact calm_results hf (hS.blocks fr (List.mem_of_getLast? hfr)) S hS

theorem calm_checkReturn (hf : Fine E.R n) (hs : Same E.R n A) :
    CalmU E n (checkReturn E) (checkReturn (alt E A)) :=
  Calm.bind (calm_functionResults hf) fun _ h => Calm.bind (calm_popAll hs h) fun _ _ =>
    calm_unreachable

theorem zip_all {f g : Val → Val → Bool} (h : ∀ a b, ValIn n a → ValIn n b → f a b = g a b) :
    ∀ {xs ys : List Val}, ValsIn n xs → ValsIn n ys →
      ((xs.zip ys).all fun (a, b) => f a b) = (xs.zip ys).all fun (a, b) => g a b
  | [], _, _, _ => rfl
  | _ :: _, [], _, _ => rfl
  | x :: xs, y :: ys, hx, hy => by
    simp only [List.zip_cons_cons, List.all_cons]
    rw [h x y (hx x (by simp)) (hy y (by simp))]
    have := zip_all h (xs := xs) (ys := ys) (fun v hv => hx v (by simp [hv]))
      fun v hv => hy v (by simp [hv])
    rw [this]

theorem calm_checkFuncTypeSameResults (hf : Fine E.R n) (hs : Same E.R n A) {ty : FuncTy}
    (ht : FuncIn n ty) :
    CalmU E n (checkFuncTypeSameResults E ty) (checkFuncTypeSameResults (alt E A) ty) := by
  refine Calm.bind (calm_functionResults hf) fun rs hr => (Calm.require ?_).unit
  show (_ && ((rs.zip ty.results).all fun (a, b) => A.sub b a)) = _
  rw [zip_all (f := fun a b => A.sub b a) (g := fun a b => E.R.isSubtype b a)
    (fun a b ha hb => hs.sub b a hb ha) hr ht.2]

theorem calm_checkCallTy (hs : Same E.R n A) {ty : FuncTy} (ht : FuncIn n ty) :
    CalmU E n (checkCallTy E ty) (checkCallTy (alt E A) ty) :=
  Calm.bind (calm_popAll hs ht.1) fun _ _ => calm_pushAll ht.2

theorem calm_checkReturnCallTy (hf : Fine E.R n) (hs : Same E.R n A) {ty : FuncTy}
    (ht : FuncIn n ty) : CalmU E n (checkReturnCallTy E ty) (checkReturnCallTy (alt E A) ty) :=
  Calm.bind (calm_checkFuncTypeSameResults hf hs ht) fun _ _ => Calm.bind (calm_popAll hs ht.1)
    fun _ _ => Calm.bind (calm_pushAll ht.2) fun _ _ => calm_checkReturn hf hs

theorem calm_typeOfFunction (hf : Fine E.R n) {i : BitVec 32} :
    Calm E n (typeOfFunction E i) (typeOfFunction (alt E A) i) (FuncIn n) :=
  Calm.bind (P := fun _ => True) (Calm.orError fun _ _ => trivial) fun _ _ => calm_funcTypeAt hf

theorem calm_checkCallRefTy (hf : Fine E.R n) (hs : Same E.R n A) {i : BitVec 32} :
    Calm E n (checkCallRefTy E i) (checkCallRefTy (alt E A) i) (FuncIn n) :=
  Calm.bind (calm_checkConcrete hf) fun _ h => Calm.bind (calm_orPanicRef hf h) fun _ h =>
    Calm.bind (calm_popRefSome hs h) fun _ _ => calm_funcTypeAt hf

theorem calm_checkCallIndirectTy (hf : Fine E.R n) (hs : Same E.R n A) {i j : BitVec 32} :
    Calm E n (checkCallIndirectTy E i j) (checkCallIndirectTy (alt E A) i j) (FuncIn n) :=
  Calm.bind (calm_tableTypeAt hf) fun t ht =>
    Calm.bind (Calm.require (hs.sub _ _ ht nofun)) fun _ _ =>
      Calm.bind (calm_popT hs (indexType_in _)) fun _ _ => calm_funcTypeAt hf

theorem featuresCheck_calm {c : TypeList.M α} (h : ∀ e, c = .error e → ∃ s, e = .error s) :
    CalmU E n (featuresCheck c) (featuresCheck c) := by
  cases c with
  | ok a => exact Calm.pure trivial
  | error e =>
    obtain ⟨s, rfl⟩ := h e rfl
    exact Calm.fail

theorem calm_checkRefType (hf : Fine E.R n) {r : RefType} (hr : ModularRef r) :
    Calm E n (checkRefType E r) (checkRefType (alt E A) r) (RefIn n) := by
  obtain ⟨h, h1, h2⟩ := hr
  refine Calm.bind (P := Modular) (Calm.orPanic ⟨h, h1, h2⟩) fun h hm => ?_
  exact Calm.bind (calm_checkHeapType hf hm) fun _ h => calm_orPanicRef hf h.1

end Verif.Op.Calm
