import Verif.Op.SoundBlock
/-! Function bodies: the state before the first operator, and the last `end`. -/
namespace Verif.Op.View
open Verif.Op.Typing
open Verif.Types (AbsHeap HeapType UnpackedIndex RefType ValType)
open Verif.Instr (FrameKind BlockType MemArg Catch Handle BrTable Operator)
open Verif.Instr.Spec (Body tokOp Tok Expr)
open Verif.TypeList.Spec (Field Storage Comp SubT Decls HeapSub RefSub ValSub StorageSub)

variable {α β : Type} {E : Env} {F : Fn} {B B' B2 : Base} {C : Ctx} {u : Bool}

/-- Leaving the innermost block, up to the removal of the frame. -/
theorem run_popCtrl0 (h : Sit E F B) {ps rs : List V} (hb : BTIs F B.fr.blockType ps rs)
    {c : List MT} {k : Frame → M β} {y : β} {S : St} :
    Run B (popCtrl E >>= k) c y S ↔ Pops F.C B.fr.unreachable rs.reverse c [] ∧
      Run B (takeFrame >>= k) [] y S := by
  unfold popCtrl topFrame
  simp only [bind_assoc, okb_getS]
  rw [okb_orPanic]
  have hhead : (st B c).control.head? = some B.fr := rfl
  rw [hhead]
  simp only [Option.some.injEq, exists_eq_left', okb_results h, okb_popAll h, okb_getS,
    okb_require]
  have hlen : ∀ c1 : List MT, ((st B c1).operands.length == B.fr.height) = true ↔ c1 = [] := by
    intro c1
    rw [beq_iff_eq, B.hh]
    show (c1 ++ B.low).length = _ ↔ _
    rw [List.length_append]
    cases c1 <;> simp
  simp only [hlen]
  constructor
  · rintro ⟨rs', ⟨ps', h1⟩, c1, h3, rfl, h4⟩
    have : rs' = rs := (BTIs.unique (F := F) h1 hb).2
    subst this
    exact ⟨h3, h4⟩
  · rintro ⟨h3, h4⟩
    exact ⟨rs, ⟨ps, hb⟩, [], h3, rfl, h4⟩

/-! ### Locals -/

theorem le_defineLocals (hE : E.f.customDescriptors = false) (n : BitVec 32) (t : ValType) :
    Le (defineLocals E n t) (defineLocals (Env.full E) n t) :=
  Le.bind (le_checkValueType hE t) fun _ => Le.refl _

theorem le_defineAllLocals (hE : E.f.customDescriptors = false) :
    ∀ ds : List (BitVec 32 × ValType),
      Le (defineAllLocals E ds) (defineAllLocals (Env.full E) ds)
  | [] => Le.refl _
  | d :: ds => Le.bind (le_defineLocals hE d.1 d.2) fun _ => le_defineAllLocals hE ds

theorem RefTy.unique (hc : CtxOk C) {r : RefType} {a b : Ref} (ha : C.RefTy r a)
    (hb : C.RefTy r b) : a = b := by
  obtain ⟨h, h1, h2, h3⟩ := ha
  obtain ⟨h', h1', h2', h3'⟩ := hb
  rw [h1] at h1'
  cases h1'
  have : a.heap = b.heap := by
    unfold Ctx.HeapTy at h2 h2'
    split at h2
    · exact h2.trans h2'.symm
    · obtain ⟨id, h4, h5⟩ := h2
      obtain ⟨id', h4', h5'⟩ := h2'
      rw [h4] at h4'; cases h4'
      exact h5.trans h5'.symm
    · obtain ⟨id, h4, h5⟩ := h2
      obtain ⟨id', h4', h5'⟩ := h2'
      rw [h4] at h4'; cases h4'
      exact h5.trans h5'.symm
    · exact h2.elim
  cases a; cases b
  dsimp only at this h3 h3'
  rw [this, h3, h3']

theorem ValTy.unique (hc : CtxOk C) {t : ValType} {a b : V} (ha : C.ValTy t a) (hb : C.ValTy t b) :
    a = b := by
  cases t with
  | ref r =>
    obtain ⟨x, h1, rfl⟩ := ha
    obtain ⟨y, h2, rfl⟩ := hb
    rw [RefTy.unique hc h1 h2]
  | _ => exact Eq.trans ha (Eq.symm hb)

/-- The state at the beginning, before and after locals are declared. -/
theorem define_st (h : Sit E F B) {n : BitVec 32} {t : ValType} {v : V} {u : Unit} {S : St}
    (hv : F.C.ValTy t v) (hr : defineLocals E n t (st B []) = (.ok u, S)) :
    checkValueType E t (st B []) = (.ok v, st B []) ∧
      ∃ l i, S = st { B with locals := l, inits := i } [] := by
  obtain ⟨x, S1, h1, h2⟩ := bind_eq_ok hr
  obtain ⟨c', rfl⟩ := Cur.spec (self := inferInstance) _ _ _ _ h1
  obtain ⟨h3, rfl⟩ := ok_checkValueType h h1
  cases ValTy.unique h.ctx h3 hv
  refine ⟨h1, ?_⟩
  dsimp only at h2
  split at h2
  · cases h2
    exact ⟨B.locals, B.inits, rfl⟩
  · dsimp only [bind_def, getS, modifyS, require] at h2
    split at h2
    · next h4 =>
      split at h4
      · cases h4; cases h2
        exact ⟨_, _, rfl⟩
      · cases h4
    · cases h2

theorem Sit.withLocals (h : Sit E F B) (l : Locals) (i : LocalInits) :
    Sit E F { B with locals := l, inits := i } :=
  ⟨h.faith, h.ctx, h.full, h.shared, h.labels, h.results⟩

theorem defineAll_st : ∀ (ds : List (BitVec 32 × ValType)) (vs : List (BitVec 32 × V)) {B : Base}
    {u : Unit} {S : St}, Sit E F B →
    List.Forall₂ (fun d v => d.1 = v.1 ∧ F.C.ValTy d.2 v.2) ds vs →
    defineAllLocals E ds (st B []) = (.ok u, S) →
    List.Forall₂ (fun d v => d.1 = v.1 ∧ ∃ S1, checkValueType E d.2 (st B []) = (.ok v.2, S1)) ds vs ∧
      ∃ l i, S = st { B with locals := l, inits := i } []
  | [], vs, B, u, S, h, hf, hr => by
    cases hf
    cases hr
    exact ⟨.nil, B.locals, B.inits, rfl⟩
  | (n, t) :: ds, vs, B, u, S, h, hf, hr => by
    cases hf with
    | @cons _ v _ vs hv hvs =>
    obtain ⟨_, S1, h1, h2⟩ := bind_eq_ok hr
    obtain ⟨h3, l, i, rfl⟩ := define_st h hv.2 h1
    obtain ⟨h4, l', i', rfl⟩ := defineAll_st ds vs (h.withLocals l i) hvs h2
    exact ⟨.cons ⟨hv.1, _, h3⟩ (h4.imp fun a b hab => ⟨hab.1, by
      obtain ⟨S5, h5⟩ := hab.2
      exact checkValueType_ini h5 _⟩), l', i', rfl⟩

/-- The state at the beginning of the body of a function. -/
def startBase (ty : BitVec 32) (l : Locals) (i : LocalInits) (shared : Bool) : Base where
  locals := l
  inits := i
  fr := ⟨.block, .func ty, 0, false, 0⟩
  frs := []
  low := []
  shared := shared
  hh := rfl

variable {ty : BitVec 32} {sub : SubT Nat} {ps rs : List V}

theorem start_func (hty : C.type ty = some sub) (hcomp : sub.comp = .func ps rs) (ls : List V) :
    (Fn.body C ps rs ls sub.shared).Func ty ps rs := ⟨sub, hty, hcomp, fun h => h⟩

theorem start_sit (hf : Faithful E.R C) (hc : CtxOk C) (hE : E.f = fullFeatures)
    (hty : C.type ty = some sub) (hcomp : sub.comp = .func ps rs) (ls : List V) (l : Locals)
    (i : LocalInits) : Sit E (Fn.body C ps rs ls sub.shared) (startBase ty l i sub.shared) where
  faith := hf
  ctx := hc
  full := hE
  shared := rfl
  labels := .cons ⟨ps, rs, start_func hty hcomp ls, rfl, by simp [startBase]⟩ .nil
  results := ⟨_, ps, rfl, start_func hty hcomp ls⟩

theorem newFunc_st (hf : Faithful E.R C) (hty : C.type ty = some sub)
    (hcomp : sub.comp = .func ps rs) :
    ∃ l i, newFunc E ty = .ok (st (startBase ty l i sub.shared) []) := by
  unfold newFunc
  rw [hf.subType, hty]
  dsimp only
  rw [hcomp]
  exact ⟨_, _, rfl⟩

/-- The state before the first operator. -/
theorem start (hf : Faithful E.R C) (hc : CtxOk C) (hE : E.f = fullFeatures)
    (hty : C.type ty = some sub) (hcomp : sub.comp = .func ps rs) (hl : ps.length ≤ 50000)
    {ds : List (BitVec 32 × ValType)} {vs : List (BitVec 32 × V)} {S0 S1 : St}
    (h0 : newFunc E ty = .ok S0)
    (hd : List.Forall₂ (fun d v => d.1 = v.1 ∧ C.ValTy d.2 v.2) ds vs)
    (h1 : defineAllLocals E ds S0 = (.ok (), S1)) :
    ∃ l i, S1 = st (startBase ty l i sub.shared) [] ∧
      S1.Ok ps.length (ps ++ InitSpec.expand vs) [[]] := by
  have hsub : E.R.subTypeAt ty = some sub := (hf.subType ty).trans hty
  obtain ⟨l, i, hn⟩ := newFunc_st hf hty hcomp
  have hpre := newFunc_pre h0 hsub hcomp hl
  rw [hn] at h0
  cases h0
  obtain ⟨h2, l', i', rfl⟩ := defineAll_st ds vs (start_sit hf hc hE hty hcomp [] l i) hd h1
  exact ⟨l', i', rfl, (hpre.defineAll ds vs h2 h1).ok⟩

theorem sound_fn (hf : Faithful E.R C) (hc : CtxOk C) (hE : E.f.customDescriptors = false)
    (hty : C.type ty = some sub) (hcomp : sub.comp = .func ps rs) (hl : ps.length ≤ 50000)
    {ds : List (BitVec 32 × ValType)} {vs : List (BitVec 32 × V)} {os : List Operator}
    {S0 S1 S2 : St} (h0 : newFunc E ty = .ok S0)
    (hd : List.Forall₂ (fun d v => d.1 = v.1 ∧ C.ValTy d.2 v.2) ds vs)
    (h1 : defineAllLocals E ds S0 = (.ok (), S1)) (h2 : runOps E os S1 = (.ok (), S2))
    (hx : Expr (os.map tokOp)) (hn : ∀ o ∈ os, Natural o)
    (hs : (∀ t, Operator.brTable t ∉ os) ∨ UnsharedTypes C os) :
    Valid (Fn.body C ps rs (InitSpec.expand vs) sub.shared) os := by
  have h1 := le_defineAllLocals hE ds _ _ _ h1
  have h2 := le_runOps hE os _ _ _ h2
  obtain ⟨l, i, rfl, hok⟩ := start (E := Env.full E) hf hc rfl hty hcomp hl h0 hd h1
  obtain ⟨b, hb, he⟩ := hx
  obtain ⟨body, os', rfl, hmb, hm⟩ := List.map_eq_append_iff.1 he
  obtain ⟨o, os'', rfl, ho, hm'⟩ := List.map_eq_cons_iff.1 hm
  cases List.map_eq_nil_iff.1 hm'
  cases tok_end ho
  have hsafe : Safe (Fn.body C ps rs (InitSpec.expand vs) sub.shared) (body ++ [.end_]) := by
    rcases hs with hs | hs
    · exact .inl hs
    · refine .inr ⟨hs, ?_⟩
      intro l hl t ht
      cases List.mem_singleton.1 hl
      exact hs.1 ty sub ps rs hty hcomp t (by simp [show t ∈ rs from ht])
  obtain ⟨S3, h3, h4⟩ := runOps_append h2
  have hsit := start_sit (E := Env.full E) hf hc rfl hty hcomp (InitSpec.expand vs) l i
  obtain ⟨B2, c2, I', rfl, hsame, -, hseq⟩ :=
    (sound_body hb _ body hmb (hsafe.mono (by simp +contextual)) fun o h => hn o (by simp [h])).1 rfl
      _ _ [] [] _ hsit hok h3
  obtain ⟨S4, h5, h6⟩ := runOps_cons h4
  have h7 : Run B2 (visitEnd (Env.full E)) c2 () S4 := (op_full_ok rfl h5).2
  have hbt : BTIs (Fn.body C ps rs (InitSpec.expand vs) sub.shared) B2.fr.blockType ps rs := by
    rw [hsame.blockType]
    exact start_func hty hcomp _
  rw [visitEnd_eq, run_popCtrl0 (hsit.same hsame) hbt] at h7
  obtain ⟨vs', h8, h9⟩ := pops_back h7.1 .nil
  obtain ⟨ts1, h10, h11⟩ := hseq _ h9
  cases conc_false_nil h10
  exact ⟨body, I', rfl, .sub VTs.Sub.rfl' h8 h11⟩

end Verif.Op.View
