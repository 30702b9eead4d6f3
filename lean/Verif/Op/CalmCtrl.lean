import Verif.Op.CalmHelp
/-! Checks of types, frames and blocks do not panic. -/
namespace Verif.Op.Calm
open Verif.Types (AbsHeap UnpackedIndex HeapType RefType ValType)
open Verif.Instr (FrameKind BlockType MemArg Catch Handle BrTable Operator)
open Verif.TypeList.Spec (Field Storage Comp SubT)

variable {α β : Type} {E : Env} {n : Nat} {A : Answers}

/-! ## Features -/

/-- A check that gives at most an error. -/
def Mild {α : Type} (c : TypeList.M α) : Prop := ∀ e, c = .error e → ∃ s, e = .error s

theorem mild_ok {a : α} : Mild (.ok a) := nofun
theorem mild_pure {a : α} : Mild (pure a) := nofun
theorem mild_require {b : Bool} {s : String} : Mild (TypeList.require b s) := by
  unfold TypeList.require
  split
  · exact mild_pure
  · rintro e ⟨⟩
    exact ⟨_, rfl⟩
theorem mild_bind {m : TypeList.M α} {k : α → TypeList.M β} (h : Mild m) (hk : ∀ a, Mild (k a)) :
    Mild (m >>= k) := by
  cases m with
  | ok a => exact hk a
  | error e =>
    intro e' he
    cases he
    exact h e rfl
theorem mild_ite {c : Prop} [Decidable c] {a b : TypeList.M α} (h1 : Mild a) (h2 : Mild b) :
    Mild (if c then a else b) := by split <;> assumption

theorem mild_checkRefType {f : TypeList.Features} {r : RefType} (hr : r.heapType.isSome) :
    Mild (TypeList.checkRefType f r) := by
  obtain ⟨h, hh⟩ := Option.isSome_iff_exists.1 hr
  unfold TypeList.checkRefType
  rw [hh]
  refine mild_bind mild_require fun _ => ?_
  refine mild_bind (m := TypeList.unwrap (some h)) mild_pure fun h => ?_
  cases h with
  | concrete u => exact mild_ite mild_pure mild_require
  | exact u => exact mild_require
  | abstract s a =>
    dsimp only
    cases s <;> cases a <;>
      repeat' first
        | exact mild_require
        | exact mild_pure
        | refine mild_bind ?_ fun _ => ?_
        | refine mild_ite ?_ ?_

theorem mild_checkValueType {f : TypeList.Features} {t : ValType} (ht : ModularVal t) :
    Mild (TypeList.checkValueType f t) := by
  cases t with
  | ref r =>
    obtain ⟨h, h1, _⟩ := ht
    exact mild_checkRefType (by rw [h1]; rfl)
  | i32 | i64 => exact mild_pure
  | _ => exact mild_require

theorem calm_checkValueType (hf : Fine E.R n) {t : ValType} (ht : ModularVal t) :
    Calm E n (checkValueType E t) (checkValueType (alt E A) t) (ValIn n) := by
  refine Calm.bind (featuresCheck_calm (mild_checkValueType ht)) fun _ _ => ?_
  cases t with
  | ref r => exact Calm.map (calm_checkRefType hf ht) fun _ h => h
  | _ => exact Calm.pure nofun

/-- A block type that comes from the bytes of a module. -/
def ModularBlock : BlockType → Prop
  | .type t => ModularVal t
  | _ => True

theorem calm_checkBlockType (hf : Fine E.R n) {t : BlockType} (ht : ModularBlock t) :
    Calm E n (checkBlockType E t) (checkBlockType (alt E A) t) (BTIn n) := by
  cases t with
  | empty => exact Calm.pure trivial
  | type t => exact Calm.map (calm_checkValueType hf ht) fun _ h => h
  | funcType i =>
    exact Calm.bind (Calm.require rfl) fun _ _ => Calm.bind (calm_funcTypeAt hf) fun _ _ =>
      Calm.pure trivial

/-! ## Casts -/

theorem calm_checkCastToAllowed (hf : Fine E.R n) (hs : Same E.R n A) {h : Heap} (hh : HeapIn n h) :
    CalmU E n (checkCastToAllowed E h) (checkCastToAllowed (alt E A) h) := by
  have e : checkCastToAllowed (alt E A) h = checkCastToAllowed E h := by
    unfold checkCastToAllowed
    show (match A.top h with | .abs _ .cont => fail .error | _ => pure ()) = _
    rw [hs.top h hh]
    rfl
  rw [e]
  unfold checkCastToAllowed
  split
  · exact Calm.fail
  · exact Calm.pure trivial

theorem top_in (hf : Fine E.R n) {h : Heap} (hh : HeapIn n h) : HeapIn n (E.R.topType h) := by
  obtain ⟨s, a, h⟩ := hf.top h hh
  rw [h]
  nofun

theorem calm_checkDowncast (hf : Fine E.R n) (hs : Same E.R n A) {b : Bool} {h : HeapType}
    (hm : Modular h) : Calm E n (checkDowncast E b h) (checkDowncast (alt E A) b h) (RefIn n) := by
  refine Calm.bind (calm_checkHeapType hf hm) fun x hx => ?_
  refine Calm.bind (calm_orErrorRef hx.1) fun r hr => ?_
  dsimp only
  rw [show (alt E A).R.topType x = E.R.topType x from hs.top x hx.1]
  have ht := top_in hf hx.1
  refine Calm.bind (calm_checkCastToAllowed hf hs ht) fun _ _ => ?_
  refine Calm.bind (calm_orPanicRef hf ht) fun r' hr' => ?_
  exact Calm.bind (calm_popRefSome hs hr') fun _ _ => Calm.pure hr

theorem calm_checkRefTest (hf : Fine E.R n) (hs : Same E.R n A) {b : Bool} {h : HeapType}
    (hm : Modular h) : CalmU E n (checkRefTest E b h) (checkRefTest (alt E A) b h) :=
  Calm.bind (calm_checkDowncast hf hs hm) fun _ _ => calm_push nofun

theorem calm_checkRefCast (hf : Fine E.R n) (hs : Same E.R n A) {b : Bool} {h : HeapType}
    (hm : Modular h) : CalmU E n (checkRefCast E b h) (checkRefCast (alt E A) b h) :=
  Calm.bind (calm_checkDowncast hf hs hm) fun _ h => calm_pushRef h

theorem calm_checkBrOnCastTypeHierarchy (hf : Fine E.R n) (hs : Same E.R n A) {a b : Ref}
    (ha : RefIn n a) (hb : RefIn n b) : CalmU E n (checkBrOnCastTypeHierarchy E a b)
      (checkBrOnCastTypeHierarchy (alt E A) a b) := by
  refine Calm.ite (fun _ => (Calm.require ?_).unit) fun _ => ?_
  · show (A.top a.heap == A.top b.heap) = _
    rw [hs.top _ ha, hs.top _ hb]
  · exact Calm.bind (calm_checkCastToAllowed hf hs hb) fun _ _ =>
      (Calm.require (hs.sub (.ref b) (.ref a) hb ha)).unit

theorem calm_checkDescriptor (hf : Fine E.R n) {h : HeapType} (hm : Modular h) :
    Calm E n (checkDescriptor E h) (checkDescriptor (alt E A) h)
      fun _ => ∀ s a, h ≠ .abstract s a := by
  cases h with
  | abstract s a => exact Calm.fail
  | concrete u =>
    obtain ⟨i, rfl⟩ := hm
    refine Calm.bind (calm_subTypeAt hf) fun s hs => ?_
    split
    · exact Calm.pure nofun
    · exact Calm.fail
  | exact u =>
    obtain ⟨i, rfl⟩ := hm
    refine Calm.bind (calm_subTypeAt hf) fun s hs => ?_
    split
    · exact Calm.pure nofun
    · exact Calm.fail

theorem calm_checkMaybeExactDescriptorRef (hf : Fine E.R n) (hs : Same E.R n A) {h : HeapType}
    (hm : Modular h) : Calm E n (checkMaybeExactDescriptorRef E h)
      (checkMaybeExactDescriptorRef (alt E A) h) fun _ => ∀ s a, h ≠ .abstract s a := by
  refine Calm.bind (calm_checkDescriptor hf hm) fun d hd => ?_
  refine Calm.bind (calm_popConcreteOrExactRef hf hs) ?_
  rintro ⟨ty, b⟩ ht
  cases h with
  | exact u =>
    refine Calm.bind (calm_checkExact hf) fun x hx => Calm.bind (calm_orPanicRef hf hx) fun r hr => ?_
    cases ty with
    | known v => exact Calm.bind (Calm.require (hs.sub v (.ref r) ht hr)) fun _ _ => Calm.pure hd
    | _ => exact Calm.pure hd
  | _ => exact Calm.pure hd

theorem calm_checkRefCastDescEq (hf : Fine E.R n) (hs : Same E.R n A) {b : Bool} {h : HeapType}
    (hm : Modular h) : CalmU E n (checkRefCastDescEq E b h) (checkRefCastDescEq (alt E A) b h) := by
  refine Calm.bind (calm_checkMaybeExactDescriptorRef hf hs hm) fun x hx => ?_
  refine Calm.bind (calm_checkDowncast hf hs hm) fun _ _ => ?_
  refine Calm.bind (calm_checkHeapType hf hm) fun y hy => ?_
  have conc : ∀ i, HeapIn n y → (y = .concrete i ∨ y = .exact i) →
      RefIn n ⟨b, if x = true then .exact i else .concrete i⟩ := by
    rintro i h1 (rfl | rfl)
    · cases x <;> exact h1
    · cases x <;> exact h1
  cases y with
  | abs s a => exact absurd (hy.2 s a rfl) (hx s a)
  | concrete i => exact Calm.ite (fun _ => calm_pushRef (conc i hy.1 (.inl rfl))) fun _ => Calm.fail
  | exact i => exact Calm.ite (fun _ => calm_pushRef (conc i hy.1 (.inr rfl))) fun _ => Calm.fail

/-! ## Frames -/

theorem trip_pushBareCtrl {k : FrameKind} {bt : BT} (hb : BTIn n bt) (hk : k ≠ .legacyTry) :
    Trip (Wf0 E n) (pushBareCtrl k bt) (pushBareCtrl k bt) fun _ S => Wf E n S ∧ True := by
  intro S hS
  refine ⟨rfl, nofun, ?_⟩
  intro a S' h
  cases h
  refine ⟨⟨⟨⟨Nat.le_refl _, Nat.le_refl _, hS.nested⟩, ?_, hS.operands, hS.locals, ?_⟩, nofun⟩,
    trivial⟩
  · intro fr hfr
    rcases List.mem_cons.1 hfr with rfl | h
    · exact hb
    · exact hS.blocks fr h
  · intro fr hl
    cases hc : S.control with
    | nil =>
      dsimp only at hl
      rw [hc] at hl
      cases hl
      exact hk
    | cons fr' c =>
      dsimp only at hl
      rw [hc, List.getLast?_cons_cons] at hl
      exact hS.bottom fr (by rw [hc]; exact hl)

theorem calm_pushBareCtrl {k : FrameKind} {bt : BT} (hb : BTIn n bt) :
    CalmU E n (pushBareCtrl k bt) (pushBareCtrl k bt) := by
  intro S hS
  refine ⟨rfl, nofun, ?_⟩
  intro a S' h
  cases h
  refine ⟨⟨⟨⟨Nat.le_refl _, Nat.le_refl _, hS.nested⟩, ?_, hS.operands, hS.locals, ?_⟩, nofun⟩,
    trivial⟩
  · intro fr hfr
    rcases List.mem_cons.1 hfr with rfl | h
    · exact hb
    · exact hS.blocks fr h
  · intro fr hl
    cases hc : S.control with
    | nil => exact absurd hc hS.frame
    | cons fr' c =>
      dsimp only at hl
      rw [hc, List.getLast?_cons_cons] at hl
      exact hS.bottom fr (by rw [hc]; exact hl)

theorem calm_pushCtrl (hf : Fine E.R n) {k : FrameKind} {bt : BT} (hb : BTIn n bt) :
    CalmU E n (pushCtrl E k bt) (pushCtrl (alt E A) k bt) :=
  Calm.bind (calm_pushBareCtrl hb) fun _ _ => Calm.bind (calm_params hf) fun _ h => calm_pushAll h

theorem trip_pushCtrl (hf : Fine E.R n) {k : FrameKind} {bt : BT} (hb : BTIn n bt)
    (hk : k ≠ .legacyTry) : Trip (Wf0 E n) (pushCtrl E k bt) (pushCtrl (alt E A) k bt)
      fun _ S => Wf E n S ∧ True :=
  Trip.bind (trip_pushBareCtrl hb hk) fun _ =>
    Trip.pre (Calm.bind (calm_params hf) fun _ h => calm_pushAll h) fun _ h => h.1

theorem resetInits_length : ∀ (is : List (BitVec 32)) (bs : List Bool),
    (resetInits is bs).length = bs.length
  | [], _ => rfl
  | i :: is, bs => by
    show (resetInits is (bs.set i.toNat false)).length = _
    rw [resetInits_length is, List.length_set]

theorem trip_takeFrame : Trip (Wf E n) takeFrame takeFrame fun fr S =>
    Wf0 E n S ∧ BTIn n fr.blockType := by
  intro S hS
  refine ⟨rfl, ?_⟩
  unfold takeFrame
  cases hc : S.control with
  | nil => exact absurd hc hS.frame
  | cons fr c =>
    have hn := hS.nested
    rw [hc] at hn
    obtain ⟨h1, h2, h3⟩ := hn
    dsimp only
    unfold LocalInits.popCtrl
    rw [if_pos h2]
    dsimp only
    refine ⟨nofun, ?_⟩
    intro a S' h
    cases h
    have hb := hS.blocks
    rw [hc] at hb
    refine ⟨⟨?_, fun x hx => hb x (by simp [hx]), hS.operands, ?_, ?_⟩, hb fr (by simp)⟩
    · dsimp only
      have hi : (S.inits.inits.drop (S.inits.inits.length - fr.initHeight)).length =
          fr.initHeight := by
        rw [List.length_drop]
        omega
      rw [hi]
      cases c with
      | nil => trivial
      | cons fr' c => exact ⟨Nat.le_trans h3.1 h1, h3.2⟩
    · intro i t ht
      have := hS.locals i t ht
      refine ⟨this.1, ?_⟩
      dsimp only
      rw [resetInits_length]
      exact this.2
    · intro x hx
      cases c with
      | nil => cases hx
      | cons fr' c => exact hS.bottom x (by rw [hc]; exact hx)

theorem calm_topFrame : Calm E n topFrame topFrame fun fr => BTIn n fr.blockType := by
  refine Calm.same fun S hS => ⟨rfl, ?_⟩
  cases hc : S.control with
  | nil => exact absurd hc hS.frame
  | cons fr c =>
    have e : topFrame S = (.ok fr, S) := by
      show (orPanic S.control.head? : M Frame) S = _
      rw [hc]
      rfl
    rw [e]
    refine ⟨nofun, ?_⟩
    intro a S' h
    cases h
    exact ⟨rfl, hS.blocks fr (by rw [hc]; simp)⟩

theorem trip_popCtrl (hf : Fine E.R n) (hs : Same E.R n A) :
    Trip (Wf E n) (popCtrl E) (popCtrl (alt E A)) fun fr S =>
      Wf0 E n S ∧ BTIn n fr.blockType := by
  refine Trip.bind calm_topFrame fun fr => Trip.of fun S0 h0 => Trip.pre (I := Wf E n) ?_
    (by rintro _ rfl; exact h0.1)
  refine Trip.bind (calm_results hf h0.2) fun rs => Trip.of fun S1 h1 => Trip.pre (I := Wf E n) ?_
    (by rintro _ rfl; exact h1.1)
  refine Trip.bind (calm_popAll hs h1.2) fun _ => Trip.getS fun S2 h2 => ?_
  exact (Trip.bind (Calm.require rfl) fun _ => Trip.pre trip_takeFrame fun _ h => h.1) S2 h2.1

end Verif.Op.Calm
