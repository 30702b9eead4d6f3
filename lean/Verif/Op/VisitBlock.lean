import Verif.Op.VisitRest
/-! What the methods for blocks do. -/
namespace Verif.Op.View
open Verif.Op.Typing
open Verif.Types (AbsHeap HeapType UnpackedIndex RefType ValType)
open Verif.Instr (FrameKind BlockType MemArg Catch Handle BrTable Operator)
open Verif.TypeList.Spec (Field Storage Comp SubT Decls HeapSub RefSub ValSub StorageSub)

variable {α β : Type} {E : Env} {F : Fn} {B B' B2 : Base} {C : Ctx} {u : Bool}

/-! ### Bases -/

/-- Up to what operators in the same block change. -/
structure Same (B B' : Base) : Prop where
  locals : B'.locals = B.locals
  frs : B'.frs = B.frs
  low : B'.low = B.low
  shared : B'.shared = B.shared
  kind : B'.fr.kind = B.fr.kind
  blockType : B'.fr.blockType = B.fr.blockType
  height : B'.fr.height = B.fr.height
  initHeight : B'.fr.initHeight = B.fr.initHeight

theorem Same.rfl' : Same B B := ⟨rfl, rfl, rfl, rfl, rfl, rfl, rfl, rfl⟩

theorem Same.trans (h : Same B B') (h' : Same B' B2) : Same B B2 :=
  ⟨h'.locals.trans h.locals, h'.frs.trans h.frs, h'.low.trans h.low, h'.shared.trans h.shared,
    h'.kind.trans h.kind, h'.blockType.trans h.blockType, h'.height.trans h.height,
    h'.initHeight.trans h.initHeight⟩

theorem Same.stop : Same B B.stop := ⟨rfl, rfl, rfl, rfl, rfl, rfl, rfl, rfl⟩
theorem Same.withInits (l : LocalInits) : Same B (B.withInits l) :=
  ⟨rfl, rfl, rfl, rfl, rfl, rfl, rfl, rfl⟩

theorem Sit.same (h : Sit E F B) (hs : Same B B') : Sit E F B' where
  faith := h.faith
  ctx := h.ctx
  full := h.full
  shared := hs.shared.trans h.shared
  labels := by
    have := h.labels
    rw [hs.frs]
    generalize F.labels = ls at this ⊢
    cases this with
    | cons h1 h2 =>
      refine .cons ?_ h2
      unfold FrameIs at h1 ⊢
      rw [hs.kind, hs.blockType]
      exact h1
  results := by
    obtain ⟨fr, ps, h1, h2⟩ := h.results
    rw [hs.frs]
    cases hf : B.frs with
    | nil =>
      rw [hf] at h1
      cases h1
      exact ⟨B'.fr, ps, rfl, by rw [hs.blockType]; exact h2⟩
    | cons a as =>
      rw [hf] at h1
      exact ⟨fr, ps, by rw [List.getLast?_cons_cons] at h1 ⊢; exact h1, h2⟩

/-- Inside a new block. -/
def Base.enter (B : Base) (c : List MT) (kind : FrameKind) (bt : BT) : Base where
  locals := B.locals
  inits := B.inits
  fr := ⟨kind, bt, (c ++ B.low).length, false, B.inits.inits.length⟩
  frs := B.fr :: B.frs
  low := c ++ B.low
  shared := B.shared
  hh := rfl

/-- The types of the label of a block. -/
def labelTys (kind : FrameKind) (ps rs : List V) : List V := if kind = .loop then ps else rs
def catchKind (kind : FrameKind) : Bool := kind == .legacyCatch || kind == .legacyCatchAll

theorem Sit.enter (h : Sit E F B) {c : List MT} {kind : FrameKind} {bt : BT} {ps rs : List V}
    (hb : BTIs F bt ps rs) :
    Sit E (F.label (labelTys kind ps rs) (catchKind kind)) (B.enter c kind bt) where
  faith := h.faith
  ctx := h.ctx
  full := h.full
  shared := h.shared
  labels := by
    refine .cons ⟨ps, rs, hb, rfl, ?_⟩ h.labels
    show catchKind kind = true ↔ kind = .legacyCatch ∨ kind = .legacyCatchAll
    unfold catchKind
    simp
  results := by
    obtain ⟨fr, ps, h1, h2⟩ := h.results
    exact ⟨fr, ps, by
      show (_ :: B.fr :: B.frs).getLast? = some fr
      rw [List.getLast?_cons_cons]; exact h1, h2⟩

theorem run_pushBare {kind : FrameKind} {bt : BT} {k : Unit → M β} {c : List MT} {y : β} {S : St} :
    Run B (pushBareCtrl kind bt >>= k) c y S ↔ Run (B.enter c kind bt) (k ()) [] y S := Iff.rfl

theorem run_pushCtrl (h : Sit E F B) {kind : FrameKind} {bt : BT} {ps rs : List V}
    (hb : BTIs F bt ps rs) {c : List MT} {k : Unit → M β} {y : β} {S : St} :
    Run B (pushCtrl E kind bt >>= k) c y S ↔
      Run (B.enter c kind bt) (k ()) (pushed ps []) y S := by
  have h' := h.enter (c := c) (kind := kind) hb
  unfold pushCtrl
  rw [bind_assoc, run_pushBare]
  simp only [bind_assoc]
  rw [okb_params h']
  simp only [okb_pushAll]
  constructor
  · rintro ⟨ps', ⟨rs', h1⟩, h2⟩
    have : ps' = ps := (BTIs.unique (F := F) h1 hb).1
    rw [← this]
    exact h2
  · intro h2
    exact ⟨ps, ⟨rs, hb⟩, h2⟩

/-- The last part of leaving a block. -/
theorem run_takeFrame {c : List MT} {kind : FrameKind} {bt : BT}
    (hs : Same (B.enter c kind bt) B2) {k : Frame → M β} {y : β} {S : St} :
    Run B2 (takeFrame >>= k) [] y S ↔ ∃ rem l, B2.inits.popCtrl B.inits.inits.length =
      some (rem, l) ∧ Run (B.withInits l) (k B2.fr) c y S := by
  have hi : B2.fr.initHeight = B.inits.inits.length := hs.initHeight
  cases h : B2.inits.popCtrl B.inits.inits.length with
  | none =>
    have : takeFrame (st B2 []) = (.error .panic, { st B2 [] with control := B2.frs }) := by
      unfold takeFrame st
      dsimp only
      rw [hi, h]
    constructor
    · intro hr
      unfold Run at hr
      rw [bind_error _ this] at hr
      cases hr
    · rintro ⟨_, _, h, _⟩; cases h
  | some p =>
    obtain ⟨rem, l⟩ := p
    have : takeFrame (st B2 []) = (.ok B2.fr, st (B.withInits l) c) := by
      unfold takeFrame st
      dsimp only
      rw [hi, h]
      simp only [hs.locals, hs.frs, hs.low, hs.shared]
      rfl
    unfold Run
    rw [bind_ok _ this]
    simp

theorem run_popCtrl (h : Sit E F B) {c : List MT} {kind : FrameKind} {bt : BT}
    (hs : Same (B.enter c kind bt) B2) {ps rs : List V} (hb : BTIs F bt ps rs) {c2 : List MT}
    {k : Frame → M β} {y : β} {S : St} :
    Run B2 (popCtrl E >>= k) c2 y S ↔ Pops F.C B2.fr.unreachable rs.reverse c2 [] ∧
      ∃ rem l, B2.inits.popCtrl B.inits.inits.length = some (rem, l) ∧
        Run (B.withInits l) (k B2.fr) c y S := by
  have h2 := (h.enter (c := c) (kind := kind) hb).same hs
  have hbt : B2.fr.blockType = bt := hs.blockType
  unfold popCtrl topFrame
  simp only [bind_assoc, okb_getS]
  rw [okb_orPanic]
  have hhead : (st B2 c2).control.head? = some B2.fr := rfl
  rw [hhead]
  simp only [Option.some.injEq, exists_eq_left', okb_results h2, okb_popAll h2, okb_getS,
    okb_require]
  have hlen : ∀ c1 : List MT, ((st B2 c1).operands.length == B2.fr.height) = true ↔ c1 = [] := by
    intro c1
    rw [beq_iff_eq, B2.hh]
    show (c1 ++ B2.low).length = _ ↔ _
    rw [List.length_append]
    cases c1 <;> simp
  simp only [hlen, hbt]
  constructor
  · rintro ⟨rs', ⟨ps', h1⟩, c1, h3, rfl, h4⟩
    have : rs' = rs := (BTIs.unique (F := F) h1 hb).2
    subst this
    exact ⟨h3, (run_takeFrame hs).1 h4⟩
  · rintro ⟨h3, h4⟩
    exact ⟨rs, ⟨ps, hb⟩, [], h3, rfl, (run_takeFrame hs).2 h4⟩

/-! ### Beginnings -/

theorem ok_checkBlockType (h : Sit E F B) {ty : BlockType} {bt : BT} {c c' : List MT}
    (hr : Ok B (checkBlockType E ty) c bt c') :
    c' = c ∧ ∃ ps rs, F.Block ty ps rs ∧ BTIs F bt ps rs := by
  cases ty with
  | empty =>
    obtain ⟨rfl, rfl⟩ := ok_pure.1 hr
    exact ⟨rfl, [], [], ⟨rfl, rfl⟩, rfl, rfl⟩
  | type t =>
    have hr : Ok B (checkValueType E t >>= fun a => Pure.pure (BT.type a)) c bt c' := hr
    rw [ok_bind] at hr
    obtain ⟨v, c1, h1, h2⟩ := hr
    obtain ⟨rfl, rfl⟩ := ok_pure.1 h2
    obtain ⟨h3, rfl⟩ := ok_checkValueType h h1
    exact ⟨rfl, [], [v], ⟨rfl, v, h3, rfl⟩, rfl, rfl⟩
  | funcType i =>
    have hr : Ok B (require E.f.multiValue >>= fun _ => funcTypeAt E i >>= fun _ =>
      Pure.pure (BT.func i)) c bt c' := hr
    rw [okb_require, okb_funcTypeAt h] at hr
    obtain ⟨-, ps, rs, h1, h2⟩ := hr
    obtain ⟨rfl, rfl⟩ := ok_pure.1 h2
    exact ⟨rfl, ps, rs, h1, h1⟩

/-- The block type has no exact references. -/
def NoExactBlock : BlockType → Prop
  | .type t => NoExactVal t
  | _ => True

theorem ok_checkBlockType' (h : Sit E F B) {ty : BlockType} {ps rs : List V} {c : List MT}
    (hn : NoExactBlock ty) (hb : F.Block ty ps rs) :
    ∃ bt, BTIs F bt ps rs ∧ Ok B (checkBlockType E ty) c bt c := by
  cases ty with
  | empty => exact ⟨.empty, hb, ok_pure.2 ⟨rfl, rfl⟩⟩
  | type t =>
    obtain ⟨rfl, v, h1, rfl⟩ := hb
    refine ⟨.type v, ⟨rfl, rfl⟩, ?_⟩
    show Ok B (checkValueType E t >>= fun a => Pure.pure (BT.type a)) c (BT.type v) c
    exact ok_bind.2 ⟨v, c, ok_checkValueType' h hn h1, ok_pure.2 ⟨rfl, rfl⟩⟩
  | funcType i =>
    refine ⟨.func i, hb, ?_⟩
    show Ok B (require E.f.multiValue >>= fun _ => funcTypeAt E i >>= fun _ =>
      Pure.pure (BT.func i)) c (BT.func i) c
    rw [okb_require, okb_funcTypeAt h]
    exact ⟨by rw [h.full]; rfl, ps, rs, hb, ok_pure.2 ⟨rfl, rfl⟩⟩

/-- Any of the operators that open a block: `pre` is what is done before the parameters are popped
and `chk` what is done after. -/
theorem run_open (h : Sit E F B) {kind : FrameKind} {bt : BT} {ps rs : List V}
    (hb : BTIs F bt ps rs) {c : List MT} {S : St} :
    Run B (params E bt >>= fun ps => popAll E ps >>= fun _ => pushCtrl E kind bt) c () S ↔
      ∃ c1, Pops F.C B.fr.unreachable ps.reverse c c1 ∧
        S = st (B.enter c1 kind bt) (pushed ps []) := by
  have hp : ∀ {c1 : List MT}, Run B (pushCtrl E kind bt) c1 () S ↔
      S = st (B.enter c1 kind bt) (pushed ps []) := by
    intro c1
    have := run_pushCtrl h (kind := kind) hb (c := c1) (k := fun _ => Pure.pure ()) (y := ()) (S := S)
    rw [show (pushCtrl E kind bt >>= fun _ => Pure.pure ()) = pushCtrl E kind bt from
      bind_pure (pushCtrl E kind bt)] at this
    rw [this]
    constructor
    · intro hr; exact (congrArg Prod.snd hr).symm
    · rintro rfl; rfl
  rw [okb_params h]
  simp only [okb_popAll h, hp]
  constructor
  · rintro ⟨ps', ⟨rs', h1⟩, h2⟩
    have : ps' = ps := (BTIs.unique h1 hb).1
    subst this
    exact h2
  · intro h2
    exact ⟨ps, ⟨rs, hb⟩, h2⟩

theorem run_block (h : Sit E F B) {kind : FrameKind} {ty : BlockType} {c : List MT} {S : St}
    (hr : Run B (visitBlock E kind ty) c () S) : ∃ bt ps rs c1, F.Block ty ps rs ∧
      BTIs F bt ps rs ∧ Pops F.C B.fr.unreachable ps.reverse c c1 ∧
      S = st (B.enter c1 kind bt) (pushed ps []) := by
  unfold visitBlock at hr
  rw [ok_bind] at hr
  obtain ⟨bt, c', h1, h2⟩ := hr
  obtain ⟨rfl, ps, rs, h3, h4⟩ := ok_checkBlockType h h1
  obtain ⟨c1, h5, h6⟩ := (run_open h h4).1 h2
  exact ⟨bt, ps, rs, c1, h3, h4, h5, h6⟩

theorem run_block' (h : Sit E F B) {kind : FrameKind} {ty : BlockType} {c c1 : List MT}
    {ps rs : List V} (hn : NoExactBlock ty) (hb : F.Block ty ps rs)
    (hp : Pops F.C B.fr.unreachable ps.reverse c c1) : ∃ bt, BTIs F bt ps rs ∧
      Run B (visitBlock E kind ty) c () (st (B.enter c1 kind bt) (pushed ps [])) := by
  obtain ⟨bt, h1, h2⟩ := ok_checkBlockType' h (c := c) hn hb
  refine ⟨bt, h1, ?_⟩
  unfold visitBlock
  exact ok_bind.2 ⟨bt, c, h2, (run_open h h1).2 ⟨c1, hp, rfl⟩⟩

theorem run_if (h : Sit E F B) {ty : BlockType} {c : List MT} {S : St}
    (hr : Run B (visitIf E ty) c () S) : ∃ bt ps rs c0 c1, F.Block ty ps rs ∧
      BTIs F bt ps rs ∧ Pop F.C B.fr.unreachable .i32 c c0 ∧
      Pops F.C B.fr.unreachable ps.reverse c0 c1 ∧
      S = st (B.enter c1 .if_ bt) (pushed ps []) := by
  unfold visitIf at hr
  rw [ok_bind] at hr
  obtain ⟨bt, c', h1, h2⟩ := hr
  obtain ⟨rfl, ps, rs, h3, h4⟩ := ok_checkBlockType h h1
  rw [okb_popT h] at h2
  obtain ⟨c0, h5, h2⟩ := h2
  obtain ⟨c1, h6, h7⟩ := (run_open h h4).1 h2
  exact ⟨bt, ps, rs, c0, c1, h3, h4, h5, h6, h7⟩

theorem run_if' (h : Sit E F B) {ty : BlockType} {c c0 c1 : List MT}
    {ps rs : List V} (hn : NoExactBlock ty) (hb : F.Block ty ps rs)
    (hp0 : Pop F.C B.fr.unreachable .i32 c c0)
    (hp : Pops F.C B.fr.unreachable ps.reverse c0 c1) : ∃ bt, BTIs F bt ps rs ∧
      Run B (visitIf E ty) c () (st (B.enter c1 .if_ bt) (pushed ps [])) := by
  obtain ⟨bt, h1, h2⟩ := ok_checkBlockType' h (c := c) hn hb
  refine ⟨bt, h1, ?_⟩
  unfold visitIf
  refine ok_bind.2 ⟨bt, c, h2, ?_⟩
  rw [okb_popT h]
  exact ⟨c0, hp0, (run_open h h1).2 ⟨c1, hp, rfl⟩⟩

/-! ### Handlers -/

theorem ok_matchAll (h : Sit E F B) : ∀ {as bs : List V} {c c' : List MT},
    as.length = bs.length → (Ok B (matchAll E as bs) c () c' ↔
      List.Forall₂ (ValSub F.C.decls) bs as ∧ c' = c)
  | [], [], c, c', _ => by
    show Ok B (Pure.pure ()) c () c' ↔ _
    rw [ok_pure]
    simp
  | a :: as, b :: bs, c, c', hl => by
    have ih := ok_matchAll h (as := as) (bs := bs) (c := c) (c' := c') (by simpa using hl)
    show Ok B (matchOperand E b a >>= fun _ => matchAll E as bs) c () c' ↔ _
    unfold matchOperand
    rw [bind_assoc, okb_push, okb_popT h]
    constructor
    · rintro ⟨c1, ⟨h1, rfl⟩, h2⟩
      obtain ⟨h3, h4⟩ := ih.1 h2
      exact ⟨.cons h1 h3, h4⟩
    · rintro ⟨_ | ⟨h1, h3⟩, h4⟩
      exact ⟨c, ⟨h1, rfl⟩, ih.2 ⟨h3, h4⟩⟩

theorem ok_checkCatch (h : Sit E F B) {x : Catch} {c c' : List MT} :
    Ok B (checkCatch E x) c () c' ↔ CatchOk F x ∧ c' = c := by
  cases x with
  | one tag l =>
    show Ok B (exceptionTagAt E tag >>= fun tag => jumpTypes E l >>= fun types =>
      require (tag.params.length == types.length) >>= fun _ => matchAll E types tag.params)
      c () c' ↔ _
    simp only [okb_exceptionTagAt h, okb_jumpTypes h, okb_require, beq_iff_eq, CatchOk, Fn.CatchTo]
    constructor
    · rintro ⟨ps, h1, lab, h2, h3, h4⟩
      obtain ⟨h5, h6⟩ := (ok_matchAll h h3.symm).1 h4
      exact ⟨⟨ps, h1, lab, h2, h5⟩, h6⟩
    · rintro ⟨⟨ps, h1, lab, h2, h5⟩, h6⟩
      exact ⟨ps, h1, lab, h2, h5.length_eq, (ok_matchAll h h5.length_eq.symm).2 ⟨h5, h6⟩⟩
  | oneRef tag l =>
    show Ok B (exceptionTagAt E tag >>= fun tag => jumpTypes E l >>= fun types =>
      require (tag.params.length + 1 == types.length) >>= fun _ =>
        matchAll E types (tag.params ++ [exnTy])) c () c' ↔ _
    simp only [okb_exceptionTagAt h, okb_jumpTypes h, okb_require, beq_iff_eq, CatchOk, Fn.CatchTo]
    constructor
    · rintro ⟨ps, h1, lab, h2, h3, h4⟩
      obtain ⟨h5, h6⟩ := (ok_matchAll h (by simp; omega)).1 h4
      exact ⟨⟨ps, h1, lab, h2, h5⟩, h6⟩
    · rintro ⟨⟨ps, h1, lab, h2, h5⟩, h6⟩
      have hl := h5.length_eq
      simp only [List.length_append, List.length_singleton] at hl
      exact ⟨ps, h1, lab, h2, hl, (ok_matchAll h h5.length_eq.symm).2 ⟨h5, h6⟩⟩
  | all l =>
    show Ok B (jumpTypes E l >>= fun types => require (types.length == 0)) c () c' ↔ _
    simp only [okb_jumpTypes h, ok_require, beq_iff_eq, List.length_eq_zero_iff, CatchOk,
      Fn.CatchTo]
    constructor
    · rintro ⟨lab, h1, h2, h3⟩
      exact ⟨⟨lab, h1, by rw [h2]; exact .nil⟩, h3⟩
    · rintro ⟨⟨lab, h1, h2⟩, h3⟩
      refine ⟨lab, h1, ?_, h3⟩
      cases ht : lab.types with
      | nil => rfl
      | cons a as => rw [ht] at h2; cases h2
  | allRef l =>
    unfold checkCatch
    simp only [okb_jumpTypes h, CatchOk, Fn.CatchTo]
    constructor
    · rintro ⟨lab, h1, h2⟩
      split at h2
      · next t ht =>
        obtain ⟨h3, h4⟩ := ok_require.1 h2
        refine ⟨⟨lab, h1, ?_⟩, h4⟩
        rw [ht]
        exact .cons ((sub_iff h).1 h3) .nil
      · exact (ok_fail.1 h2).elim
    · rintro ⟨⟨lab, h1, h2⟩, h3⟩
      refine ⟨lab, h1, ?_⟩
      generalize hlt : lab.types = ts at h2
      cases h2 with
      | cons h4 h5 =>
        cases h5
        dsimp only
        exact ok_require.2 ⟨(sub_iff h).2 h4, h3⟩

theorem ok_checkCatches (h : Sit E F B) : ∀ {xs : List Catch} {c c' : List MT},
    Ok B (each (checkCatch E) xs) c () c' ↔ (∀ x ∈ xs, CatchOk F x) ∧ c' = c
  | [], c, c' => by
    show Ok B (Pure.pure ()) c () c' ↔ _
    rw [ok_pure]; simp
  | x :: xs, c, c' => by
    show Ok B (checkCatch E x >>= fun _ => each (checkCatch E) xs) c () c' ↔ _
    rw [ok_bindU]
    simp only [ok_checkCatch h, ok_checkCatches h, List.forall_mem_cons]
    constructor
    · rintro ⟨c1, ⟨h1, rfl⟩, h2, h3⟩; exact ⟨⟨h1, h2⟩, h3⟩
    · rintro ⟨⟨h1, h2⟩, h3⟩; exact ⟨c, ⟨h1, rfl⟩, h2, h3⟩

theorem run_pushCtrl_end (h : Sit E F B) {kind : FrameKind} {bt : BT} {ps rs : List V}
    (hb : BTIs F bt ps rs) {c : List MT} {S : St} :
    Run B (pushCtrl E kind bt) c () S ↔ S = st (B.enter c kind bt) (pushed ps []) := by
  have := run_pushCtrl h (kind := kind) hb (c := c) (k := fun _ => Pure.pure ()) (y := ()) (S := S)
  rw [show (pushCtrl E kind bt >>= fun _ => Pure.pure ()) = pushCtrl E kind bt from
    bind_pure (pushCtrl E kind bt)] at this
  rw [this]
  constructor
  · intro hr; exact (congrArg Prod.snd hr).symm
  · rintro rfl; rfl

theorem run_tryTable (h : Sit E F B) {ty : BlockType} {cs : List Catch} {c : List MT} {S : St}
    (hr : Run B (visitTryTable E ty cs) c () S) : ∃ bt ps rs c1, F.Block ty ps rs ∧
      BTIs F bt ps rs ∧ Pops F.C B.fr.unreachable ps.reverse c c1 ∧ (∀ x ∈ cs, CatchOk F x) ∧
      S = st (B.enter c1 .tryTable bt) (pushed ps []) := by
  unfold visitTryTable at hr
  rw [ok_bind] at hr
  obtain ⟨bt, c', h1, h2⟩ := hr
  obtain ⟨rfl, ps, rs, h3, h4⟩ := ok_checkBlockType h h1
  rw [okb_params h] at h2
  obtain ⟨ps', ⟨rs', h5⟩, h2⟩ := h2
  obtain ⟨rfl, rfl⟩ := BTIs.unique h5 h4
  rw [okb_popAll h] at h2
  obtain ⟨c1, h6, h2⟩ := h2
  rw [ok_bindU] at h2
  obtain ⟨c2, h7, h2⟩ := h2
  obtain ⟨h8, rfl⟩ := (ok_checkCatches h).1 h7
  exact ⟨bt, ps', rs', _, h3, h4, h6, h8, (run_pushCtrl_end h h4).1 h2⟩

theorem run_tryTable' (h : Sit E F B) {ty : BlockType} {cs : List Catch} {c c1 : List MT}
    {ps rs : List V} (hn : NoExactBlock ty) (hb : F.Block ty ps rs)
    (hp : Pops F.C B.fr.unreachable ps.reverse c c1) (hc : ∀ x ∈ cs, CatchOk F x) :
    ∃ bt, BTIs F bt ps rs ∧
      Run B (visitTryTable E ty cs) c () (st (B.enter c1 .tryTable bt) (pushed ps [])) := by
  obtain ⟨bt, h1, h2⟩ := ok_checkBlockType' h (c := c) hn hb
  refine ⟨bt, h1, ?_⟩
  unfold visitTryTable
  refine ok_bind.2 ⟨bt, c, h2, ?_⟩
  rw [okb_params h]
  refine ⟨ps, ⟨rs, h1⟩, ?_⟩
  rw [okb_popAll h]
  refine ⟨c1, hp, ?_⟩
  rw [ok_bindU]
  exact ⟨c1, (ok_checkCatches h).2 ⟨hc, rfl⟩, (run_pushCtrl_end h h1).2 rfl⟩

/-! ### Middles and ends -/

theorem run_else (h : Sit E F B) {c : List MT} {kind : FrameKind} {bt : BT}
    (hs : Same (B.enter c kind bt) B2) {ps rs : List V} (hb : BTIs F bt ps rs) {c2 : List MT}
    {S : St} : Run B2 (visitElse E) c2 () S ↔ Pops F.C B2.fr.unreachable rs.reverse c2 [] ∧
      ∃ rem l, B2.inits.popCtrl B.inits.inits.length = some (rem, l) ∧
        S = st ((B.withInits l).enter c .else_ bt) (pushed ps []) := by
  have hbt : B2.fr.blockType = bt := hs.blockType
  unfold visitElse
  rw [run_popCtrl h hs hb]
  simp only [hbt]
  have : ∀ l, Run (B.withInits l) (pushCtrl E .else_ bt) c () S ↔
      S = st ((B.withInits l).enter c .else_ bt) (pushed ps []) :=
    fun l => run_pushCtrl_end (h.withInits l) hb
  simp only [this]

theorem run_pushAll_end {ts : List V} {c : List MT} {S : St} :
    Run B (pushAll ts) c () S ↔ S = st B (pushed ts c) := by
  constructor
  · intro hr
    obtain ⟨c', rfl⟩ := Cur.spec B c () S hr
    rw [ok_pushAll.1 hr]
  · rintro rfl
    exact ok_pushAll.2 rfl

theorem run_catch (h : Sit E F B) {c : List MT} {kind : FrameKind} {bt : BT}
    (hs : Same (B.enter c kind bt) B2) {ps rs : List V} (hb : BTIs F bt ps rs) {c2 : List MT}
    {tag : BitVec 32} {S : St} : Run B2 (visitCatch E tag) c2 () S ↔
      Pops F.C B2.fr.unreachable rs.reverse c2 [] ∧
      ∃ rem l es, B2.inits.popCtrl B.inits.inits.length = some (rem, l) ∧ F.C.Exn tag es ∧
        S = st ((B.withInits l).enter c .legacyCatch bt) (pushed es []) := by
  have hbt : B2.fr.blockType = bt := hs.blockType
  unfold visitCatch
  rw [run_popCtrl h hs hb]
  simp only [hbt, run_pushBare]
  have : ∀ l, Run ((B.withInits l).enter c .legacyCatch bt)
      (exceptionTagAt E tag >>= fun ty => pushAll ty.params) [] () S ↔
      ∃ es, F.C.Exn tag es ∧ S = st ((B.withInits l).enter c .legacyCatch bt) (pushed es []) := by
    intro l
    rw [okb_exceptionTagAt ((h.withInits l).enter (ps := ps) (rs := rs) hb)]
    simp only [run_pushAll_end]
    rfl
  simp only [this]
  constructor
  · rintro ⟨h1, rem, l, h2, es, h3, h4⟩; exact ⟨h1, rem, l, es, h2, h3, h4⟩
  · rintro ⟨h1, rem, l, es, h2, h3, h4⟩; exact ⟨h1, rem, l, h2, es, h3, h4⟩

theorem run_catchAll (h : Sit E F B) {c : List MT} {kind : FrameKind} {bt : BT}
    (hs : Same (B.enter c kind bt) B2) {ps rs : List V} (hb : BTIs F bt ps rs) {c2 : List MT}
    {S : St} : Run B2 (visitCatchAll E) c2 () S ↔
      Pops F.C B2.fr.unreachable rs.reverse c2 [] ∧
      ∃ rem l, B2.inits.popCtrl B.inits.inits.length = some (rem, l) ∧
        S = st ((B.withInits l).enter c .legacyCatchAll bt) [] := by
  have hbt : B2.fr.blockType = bt := hs.blockType
  unfold visitCatchAll
  rw [run_popCtrl h hs hb]
  simp only [hbt]
  have : ∀ l, Run (B.withInits l) (pushBareCtrl .legacyCatchAll bt) c () S ↔
      S = st ((B.withInits l).enter c .legacyCatchAll bt) [] := by
    intro l
    constructor
    · intro hr; exact (congrArg Prod.snd hr).symm
    · rintro rfl; rfl
  simp only [this]

theorem run_delegate (h : Sit E F B) {c : List MT} {kind : FrameKind} {bt : BT}
    (hs : Same (B.enter c kind bt) B2) {ps rs : List V} (hb : BTIs F bt ps rs) {c2 : List MT}
    {d : BitVec 32} {S : St} : Run B2 (visitDelegate E d) c2 () S ↔
      Pops F.C B2.fr.unreachable rs.reverse c2 [] ∧
      ∃ rem l lab, B2.inits.popCtrl B.inits.inits.length = some (rem, l) ∧
        F.labels[d.toNat]? = some lab ∧ S = st (B.withInits l) (pushed rs c) := by
  have hbt : B2.fr.blockType = bt := hs.blockType
  unfold visitDelegate
  rw [run_popCtrl h hs hb]
  simp only [hbt]
  have : ∀ l, Run (B.withInits l) (jump d >>= fun _ => results E bt >>= fun rs => pushAll rs)
      c () S ↔ ∃ lab, F.labels[d.toNat]? = some lab ∧ S = st (B.withInits l) (pushed rs c) := by
    intro l
    rw [ok_read fun _ _ => ok_jump (h.withInits l)]
    simp only [okb_results (h.withInits l), run_pushAll_end]
    constructor
    · rintro ⟨_, ⟨fr, h1, rfl⟩, rs', ⟨ps', h2⟩, h3⟩
      have : rs' = rs := (BTIs.unique h2 hb).2
      subst this
      obtain ⟨lab, hl, -⟩ := (forall₂_getElem h.labels d.toNat).1 _ h1
      exact ⟨lab, hl, h3⟩
    · rintro ⟨lab, hl, h3⟩
      obtain ⟨fr, hfr, -⟩ := (forall₂_getElem h.labels d.toNat).2 _ hl
      exact ⟨_, ⟨fr, hfr, rfl⟩, rs, ⟨ps, hb⟩, h3⟩
  simp only [this]
  constructor
  · rintro ⟨h1, rem, l, h2, es, h3, h4⟩; exact ⟨h1, rem, l, es, h2, h3, h4⟩
  · rintro ⟨h1, rem, l, es, h2, h3, h4⟩; exact ⟨h1, rem, l, h2, es, h3, h4⟩

theorem pops_pushed {as bs : List V} : Pops C false bs.reverse (pushed as []) [] ↔
    List.Forall₂ (ValSub C.decls) as bs := by
  have : ∀ {as bs : List V}, Pops C false bs (as.map MT.known) [] ↔
      List.Forall₂ (ValSub C.decls) as bs := by
    intro as bs
    induction bs generalizing as with
    | nil => cases as <;> simp [Pops]
    | cons b bs ih =>
      cases as with
      | nil => simp [Pops, Pop]
      | cons a as =>
        constructor
        · rintro ⟨c1, ⟨h1, rfl⟩, h2⟩
          exact .cons h1 (ih.1 h2)
        · rintro (_ | ⟨h1, h2⟩)
          exact ⟨_, ⟨h1, rfl⟩, ih.2 h2⟩
  unfold pushed
  rw [← List.map_reverse, List.append_nil, this]
  constructor
  · intro h; simpa using forall₂_reverse h
  · exact forall₂_reverse

theorem popCtrl_same (l : LocalInits) : l.popCtrl l.inits.length = some ([], l) := by
  unfold LocalInits.popCtrl
  simp [resetInits]

theorem visitEnd_eq : visitEnd E = (popCtrl E >>= fun fr =>
    (if fr.kind = .if_ then endIf E fr else Pure.pure fr) >>= fun fr =>
      results E fr.blockType >>= fun rs => pushAll rs) := by
  unfold visitEnd
  congr 1
  funext fr
  dsimp only
  split <;> rfl

theorem run_end (h : Sit E F B) {c : List MT} {kind : FrameKind} {bt : BT}
    (hs : Same (B.enter c kind bt) B2) {ps rs : List V} (hb : BTIs F bt ps rs) {c2 : List MT}
    {S : St} : Run B2 (visitEnd E) c2 () S ↔ Pops F.C B2.fr.unreachable rs.reverse c2 [] ∧
      (kind = .if_ → List.Forall₂ (ValSub F.C.decls) ps rs) ∧
      ∃ rem l, B2.inits.popCtrl B.inits.inits.length = some (rem, l) ∧
        S = st (B.withInits l) (pushed rs c) := by
  have hbt : B2.fr.blockType = bt := hs.blockType
  have hk : B2.fr.kind = kind := hs.kind
  rw [visitEnd_eq, run_popCtrl h hs hb]
  have key : ∀ l, Run (B.withInits l) ((if B2.fr.kind = .if_ then endIf E B2.fr else pure B2.fr) >>=
      fun fr => results E fr.blockType >>= fun rs => pushAll rs) c () S ↔
      (kind = .if_ → List.Forall₂ (ValSub F.C.decls) ps rs) ∧
        S = st (B.withInits l) (pushed rs c) := by
    intro l
    have hres : Run (B.withInits l) (results E bt >>= fun rs => pushAll rs) c () S ↔
        S = st (B.withInits l) (pushed rs c) := by
      rw [okb_results (h.withInits l)]
      simp only [run_pushAll_end]
      constructor
      · rintro ⟨rs', ⟨ps', h2⟩, h3⟩
        have : rs' = rs := (BTIs.unique h2 hb).2
        subst this
        exact h3
      · intro h3; exact ⟨rs, ⟨ps, hb⟩, h3⟩
    by_cases hif : kind = .if_
    · rw [if_pos (hk.trans hif)]
      unfold endIf
      rw [bind_assoc, hbt, run_pushCtrl (h.withInits l) hb,
        run_popCtrl (h.withInits l) Same.rfl' hb]
      have hu : ((B.withInits l).enter c .else_ bt).fr.unreachable = false := rfl
      rw [hu, pops_pushed]
      have hp : ((B.withInits l).enter c .else_ bt).inits.popCtrl
          (B.withInits l).inits.inits.length = some ([], l) := popCtrl_same l
      rw [hp]
      constructor
      · rintro ⟨h1, rem, l', h2, h3⟩
        cases h2
        exact ⟨fun _ => h1, hres.1 h3⟩
      · rintro ⟨h1, h3⟩
        exact ⟨h1 hif, [], l, rfl, hres.2 h3⟩
    · rw [if_neg (by rw [hk]; exact hif), pure_bind, hbt, hres]
      simp [hif]
  simp only [key]
  constructor
  · rintro ⟨h1, rem, l, h2, h3, h4⟩; exact ⟨h1, h3, rem, l, h2, h4⟩
  · rintro ⟨h1, h3, rem, l, h2, h4⟩; exact ⟨h1, rem, l, h2, h3, h4⟩

end Verif.Op.View
