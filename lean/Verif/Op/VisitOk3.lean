import Verif.Op.VisitOk2
import Verif.Types.Packed
/-! What the methods for single operators do, concluded: operators without immediates, heap types
and casts. -/
namespace Verif.Op.View
open Verif.Op.Typing
open Verif.Types (AbsHeap HeapType UnpackedIndex RefType ValType)
open Verif.Instr (FrameKind BlockType MemArg Catch Handle BrTable Operator)
open Verif.Instr.Spec (accessBits laneBits)
open Verif.TypeList.Spec (Field Storage Comp SubT Decls HeapSub RefSub ValSub StorageSub)
open Verif.TypeList (DeclsOk HeapIn Alg heapShared alg_shared absIsSubtypeOf absIsSubtypeOf_iff
  abs_heapSub)

variable {α β : Type} {E : Env} {F : Fn} {B : Base} {C : Ctx} {u : Bool}

/-! ### Sharing and the tops of hierarchies -/

theorem sharedHeap_eq (C : Ctx) (h : Heap) : C.sharedHeap h = (heapShared C.decls h).getD false := by
  cases h with
  | abs s a => rfl
  | concrete i =>
    simp only [Ctx.sharedHeap, heapShared, Ctx.decls]
    cases C.defs i <;> rfl
  | exact i =>
    simp only [Ctx.sharedHeap, heapShared, Ctx.decls]
    cases C.defs i <;> rfl

theorem shared_of_sub (hc : CtxOk C) {a b : Heap} (h : HeapSub C.decls a b) :
    C.sharedHeap a = C.sharedHeap b := by
  rw [sharedHeap_eq, sharedHeap_eq, alg_shared hc.decls (Alg.complete hc.decls h)]

theorem shared_abs (hc : CtxOk C) {a : Heap} {s : Bool} {t : AbsHeap}
    (h : HeapSub C.decls a (.abs s t)) : C.sharedHeap a = s := shared_of_sub hc h

theorem abs_sub_iff (hc : CtxOk C) {s s' : Bool} {a b : AbsHeap} :
    HeapSub C.decls (.abs s a) (.abs s' b) ↔ s = s' ∧ absIsSubtypeOf a b = true :=
  ⟨fun h => Alg.complete hc.decls h, fun ⟨h1, h2⟩ => h1 ▸ abs_heapSub h2⟩

theorem heapTy_in (hc : CtxOk C) {x : HeapType} {y : Heap} (hx : C.HeapTy x y) :
    HeapIn C.decls y := by
  cases x with
  | abstract s a => cases hx; intro i hi; cases hi
  | concrete i =>
    cases i with
    | module i =>
      obtain ⟨id, hi, rfl⟩ := hx
      intro j hj
      have : j = id := by simpa [TypeList.Spec.Heap.refs] using hj
      subst this
      have := (hc.types j (List.mem_of_getElem? hi)).1
      simpa [Ctx.decls] using this
    | recGroup i => cases hx
    | id i => cases hx
  | exact i =>
    cases i with
    | module i =>
      obtain ⟨id, hi, rfl⟩ := hx
      intro j hj
      have : j = id := by simpa [TypeList.Spec.Heap.refs] using hj
      subst this
      have := (hc.types j (List.mem_of_getElem? hi)).1
      simpa [Ctx.decls] using this
    | recGroup i => cases hx
    | id i => cases hx

theorem noCont_iff (h : Sit E F B) {x : Heap} (hx : HeapIn F.C.decls x) :
    F.C.NoCont x ↔ ∀ s, E.R.topType x ≠ .abs s .cont := by
  obtain ⟨⟨s, a, ht⟩, h1, h2⟩ := h.faith.top x hx
  constructor
  · intro hn s hs
    rw [hs] at h1
    exact hn s h1
  · intro hn s hs
    have h3 := h2 _ hs
    rw [ht, abs_sub_iff h.ctx] at h3
    obtain ⟨rfl, h3⟩ := h3
    apply hn s
    rw [ht]
    cases a <;> first | rfl | exact absurd h3 (by decide)

theorem ok_checkCastToAllowed {x : Heap} {v : Unit} {c c' : List MT} :
    Ok B (checkCastToAllowed E x) c v c' ↔ (∀ s, E.R.topType x ≠ .abs s .cont) ∧ c' = c := by
  unfold checkCastToAllowed
  split
  · next s hs =>
      rw [ok_fail]
      constructor
      · exact False.elim
      · rintro ⟨hn, _⟩; exact hn _ hs
  · next hn =>
      rw [ok_pure]
      constructor
      · rintro ⟨_, h⟩; exact ⟨fun s hs => hn s hs, h⟩
      · rintro ⟨_, h⟩; exact ⟨rfl, h⟩

theorem okb_checkCastToAllowed {x : Heap} {k : Unit → M β} {y : β} {c : List MT} {S : St} :
    Run B (checkCastToAllowed E x >>= k) c y S ↔
      (∀ s, E.R.topType x ≠ .abs s .cont) ∧ Run B (k ()) c y S := by
  rw [ok_read fun _ _ => ok_checkCastToAllowed]
  exact ⟨fun ⟨_, h⟩ => h, fun h => ⟨(), h⟩⟩

/-- What an operand is checked against may be replaced by a supertype. -/
theorem Chk.mono (hc : CtxOk C) {t t' : V} {m : MT} (h : Chk C t m) (hs : ValSub C.decls t t') :
    Chk C t' m := by
  cases m with
  | bottom => trivial
  | unknownRef o =>
    cases o with
    | none =>
      obtain ⟨r, rfl⟩ := h
      obtain ⟨r', rfl, _⟩ := valSub_ref hs
      exact ⟨r', rfl⟩
    | some a =>
      obtain ⟨r, rfl, h⟩ := h
      obtain ⟨r', rfl, h'⟩ := valSub_ref hs
      refine ⟨r', rfl, ?_⟩
      rw [← shared_of_sub hc h'.2]
      exact h.trans h'.2
  | known t'' => exact TypeList.ValSub.trans h hs

theorem Pop.mono (hc : CtxOk C) {t t' : V} {c c' : List MT} (h : Pop C u t c c')
    (hs : ValSub C.decls t t') : Pop C u t' c c' := by
  cases c with
  | nil => exact h
  | cons m c => exact ⟨h.1.mono hc hs, h.2⟩

/-! ### Heap types -/

theorem okb_checkDowncast (h : Sit E F B) {n : Bool} {x : HeapType} {k : Ref → M β} {y : β}
    {c : List MT} {S : St} : Run B (checkDowncast E n x >>= k) c y S ↔
      ∃ r ins, CastFrom F n x r ins ∧ ∃ c1, Pops F.C B.fr.unreachable ins c c1 ∧
        Run B (k r) c1 y S := by
  unfold checkDowncast
  vok h
  simp only [okb_checkCastToAllowed]
  vok h
  constructor
  · rintro ⟨t, ht, r, hr, hn, sup, hs, c1, hp, hk⟩
    obtain ⟨⟨s, a, hta⟩, h1, h2⟩ := h.faith.top t (heapTy_in h.ctx ht)
    rw [heapTy_mkRef h.ctx ht] at hr
    cases hr
    rw [hta] at hs hn h1 h2
    cases hs
    refine ⟨⟨n, t⟩, _, ⟨rfl, ht, ?_, ⟨true, .abs s a⟩, ⟨fun _ => rfl, h1⟩, rfl⟩, c1,
      ⟨c1, hp, rfl⟩, hk⟩
    rw [noCont_iff h (heapTy_in h.ctx ht)]
    intro s' hs'
    rw [hta] at hs'
    cases hs'
    obtain ⟨⟨s', a', hta'⟩, h1', _⟩ := h.faith.top (.abs s .cont) (fun i hi => by cases hi)
    rw [hta', abs_sub_iff h.ctx] at h1'
    obtain ⟨rfl, h1'⟩ := h1'
    apply hn s
    rw [hta']
    cases a' <;> first | rfl | exact absurd h1' (by decide)
  · rintro ⟨⟨n', t⟩, _, ⟨hn, ht, hnc, sup, hsup, rfl⟩, c1, ⟨c2, hp, rfl⟩, hk⟩
    cases hn
    change F.C.HeapTy x t at ht
    obtain ⟨⟨s, a, hta⟩, h1, h2⟩ := h.faith.top t (heapTy_in h.ctx ht)
    refine ⟨t, ht, _, heapTy_mkRef h.ctx ht _, ?_, ⟨true, .abs s a⟩, ?_, c1, ?_, hk⟩
    · intro s' hs'
      rw [hta] at hs'
      have h3 := (h.faith.top (.abs s a) (fun i hi => by cases hi)).2.1
      rw [hs'] at h3
      exact hnc s' (h1.trans (hta ▸ h3))
    · rw [hta]; rfl
    · refine hp.mono h.ctx (.ref ⟨fun _ => rfl, ?_⟩)
      rw [← hta]
      exact h2 _ hsup.2

theorem ok_refTest (h : Sit E F B) {n : Bool} {x : HeapType} {c c' : List MT} :
    Ok B (checkRefTest E n x) c () c' ↔ HasTy F.C B.fr.unreachable (fun ins outs =>
      ∃ r, CastFrom F n x r ins ∧ outs = [.i32]) c c' := by
  unfold checkRefTest
  simp only [okb_checkDowncast h]
  vok h
  simp only [HasTy]
  constructor
  · rintro ⟨r, ins, hc, c1, hp, rfl⟩
    obtain ⟨_, _, _, sup, _, rfl⟩ := id hc
    exact ⟨r, _, _, ⟨hc, rfl⟩, exec_pops.2 ⟨c1, hp, rfl⟩⟩
  · rintro ⟨r, ins, _, ⟨hc, rfl⟩, he⟩
    obtain ⟨_, _, _, sup, _, rfl⟩ := id hc
    obtain ⟨c1, hp, rfl⟩ := exec_pops.1 he
    exact ⟨r, _, hc, c1, hp, rfl⟩

theorem ok_refCast (h : Sit E F B) {n : Bool} {x : HeapType} {c c' : List MT} :
    Ok B (checkRefCast E n x) c () c' ↔ HasTy F.C B.fr.unreachable (fun ins outs =>
      ∃ r, CastFrom F n x r ins ∧ outs = [.ref r]) c c' := by
  unfold checkRefCast
  simp only [okb_checkDowncast h]
  vok h
  simp only [HasTy]
  constructor
  · rintro ⟨r, ins, hc, c1, hp, rfl⟩
    obtain ⟨_, _, _, sup, _, rfl⟩ := id hc
    exact ⟨r, _, _, ⟨hc, rfl⟩, exec_pops.2 ⟨c1, hp, rfl⟩⟩
  · rintro ⟨r, ins, _, ⟨hc, rfl⟩, he⟩
    obtain ⟨_, _, _, sup, _, rfl⟩ := id hc
    obtain ⟨c1, hp, rfl⟩ := exec_pops.1 he
    exact ⟨r, _, hc, c1, hp, rfl⟩

/-! ### Types that are checked against the features -/

def NoExactHeap : HeapType → Prop
  | .exact _ => False
  | _ => True
def NoExactVal : ValType → Prop
  | .ref r => ∀ h, r.heapType = some h → NoExactHeap h
  | _ => True

theorem ok_featuresCheck {γ : Type} {m : TypeList.M γ} {v : Unit} {c c' : List MT} :
    Ok B (featuresCheck m) c v c' ↔ (∃ x, m = .ok x) ∧ c' = c := by
  unfold featuresCheck
  split
  · rw [ok_pure]; simp
  · rw [ok_fail]; simp
  · next e _ => rw [ok_fail]; simp

theorem features_ref (r : RefType) (h : HeapType) (hr : r.heapType = some h)
    (hx : NoExactHeap h) : ∃ x, TypeList.checkRefType fullFeatures.types r = .ok x := by
  unfold TypeList.checkRefType
  rw [hr]
  cases h with
  | exact => cases hx
  | concrete => exact ⟨(), rfl⟩
  | abstract s a =>
    cases s <;> cases a <;> cases r.isNullable <;> exact ⟨(), rfl⟩

theorem ok_checkValueType (h : Sit E F B) {t : ValType} {x : Val} {c c' : List MT}
    (hx : Ok B (checkValueType E t) c x c') : F.C.ValTy t x ∧ c' = c := by
  unfold checkValueType at hx
  rw [ok_bindU] at hx
  obtain ⟨c1, h1, h2⟩ := hx
  obtain ⟨_, rfl⟩ := ok_featuresCheck.1 h1
  cases t with
  | ref r =>
    have h2 : Ok B (checkRefType E r >>= fun a => Pure.pure (.ref a)) c1 x c' := h2
    rw [okb_checkRefType h] at h2
    obtain ⟨r', h3, h4⟩ := h2
    obtain ⟨rfl, rfl⟩ := ok_pure.1 h4
    exact ⟨⟨r', h3, rfl⟩, rfl⟩
  | _ => exact ok_pure.1 h2

theorem ok_checkValueType' (h : Sit E F B) {t : ValType} {x : Val} {c : List MT}
    (hn : NoExactVal t) (hx : F.C.ValTy t x) : Ok B (checkValueType E t) c x c := by
  unfold checkValueType
  rw [ok_bindU]
  refine ⟨c, ok_featuresCheck.2 ⟨?_, rfl⟩, ?_⟩
  · rw [h.full]
    cases t with
    | ref r =>
      obtain ⟨r', ⟨x, h1, h2, h3⟩, rfl⟩ := hx
      exact features_ref r x h1 (hn x h1)
    | _ => exact ⟨(), rfl⟩
  · cases t with
    | ref r =>
      obtain ⟨r', h1, rfl⟩ := hx
      show Ok B (checkRefType E r >>= fun a => Pure.pure (TypeList.Spec.Val.ref a)) c (TypeList.Spec.Val.ref r') c
      rw [okb_checkRefType h]
      exact ⟨r', h1, ok_pure.2 ⟨rfl, rfl⟩⟩
    | _ => cases hx; exact ok_pure.2 ⟨rfl, rfl⟩

theorem ok_typedSelect (h : Sit E F B) {t : ValType} {c c' : List MT} {I : List (BitVec 32)}
    (hr : Ok B (visitTypedSelect E t) c () c') :
    HasTy F.C B.fr.unreachable (Simple F I (.typedSelect t)) c c' := by
  unfold visitTypedSelect at hr
  rw [ok_bind] at hr
  obtain ⟨v, c1, h1, h2⟩ := hr
  obtain ⟨hv, rfl⟩ := ok_checkValueType h h1
  unfold Simple
  vok h
  revert h2
  vok h
  exact fun h2 => ⟨v, hv, h2⟩

theorem ok_typedSelect' (h : Sit E F B) {t : ValType} {c c' : List MT} {I : List (BitVec 32)}
    (hn : NoExactVal t) (hr : HasTy F.C B.fr.unreachable (Simple F I (.typedSelect t)) c c') :
    Ok B (visitTypedSelect E t) c () c' := by
  unfold Simple at hr
  revert hr
  vok h
  rintro ⟨v, h1, h2⟩
  unfold visitTypedSelect
  rw [ok_bind]
  refine ⟨v, c, ok_checkValueType' h hn h1, ?_⟩
  vok h
  exact h2

/-- The check of the features in `ref.null`. -/
def nullCheck (E : Env) (x : HeapType) : M Unit :=
  match RefType.new true x with
  | some ty => featuresCheck (TypeList.checkRefType E.f.types ty)
  | none => pure ()
instance (x : HeapType) : Cur (nullCheck E x) := by unfold nullCheck; cur

theorem visitRefNull_eq (x : HeapType) : visitRefNull E x = (nullCheck E x >>= fun _ =>
    (lift (E.R.checkHeapType x) >>= fun h => (orPanic (mkRef true h) >>= fun r => pushRef r))) := by
  unfold visitRefNull nullCheck
  cases RefType.new true x <;> rfl

theorem ok_refNull (h : Sit E F B) {x : HeapType} {c c' : List MT}
    (hr : Ok B (visitRefNull E x) c () c') :
    HasTy F.C B.fr.unreachable (HeapOpTy F .refNull x) c c' := by
  unfold HeapOpTy
  rw [visitRefNull_eq, ok_bindU] at hr
  obtain ⟨c1, h1, h2⟩ := hr
  have hc : c1 = c := by
    unfold nullCheck at h1
    split at h1
    · exact (ok_featuresCheck.1 h1).2
    · exact (ok_pure.1 h1).2
  subst hc
  revert h2
  vok h
  rintro ⟨t, ht, r, hr, rfl⟩
  rw [heapTy_mkRef h.ctx ht] at hr
  cases hr
  exact ⟨t, ht, rfl⟩

theorem ok_refNull' (h : Sit E F B) {x : HeapType} {c c' : List MT} (hn : NoExactHeap x)
    (hr : HasTy F.C B.fr.unreachable (HeapOpTy F .refNull x) c c') :
    Ok B (visitRefNull E x) c () c' := by
  unfold HeapOpTy at hr
  revert hr
  vok h
  rintro ⟨t, ht, rfl⟩
  rw [visitRefNull_eq, ok_bindU]
  refine ⟨c, ?_, ?_⟩
  · unfold nullCheck
    split
    · next ty hty =>
        refine ok_featuresCheck.2 ⟨?_, rfl⟩
        rw [h.full]
        exact features_ref ty x (Types.new_is hty).1.2 hn
    · exact ok_pure.2 ⟨rfl, rfl⟩
  · vok h
    exact ⟨t, ht, _, heapTy_mkRef h.ctx ht _, rfl⟩

/-! ### Casts -/

theorem difference_eq (a b : Ref) : difference a b = diff a b := by
  unfold difference diff
  cases b.nullable <;> simp

theorem heapIn_refTy (hc : CtxOk C) {r : RefType} {r' : Ref} (h : C.RefTy r r') :
    HeapIn C.decls r'.heap := by
  obtain ⟨x, _, h, _⟩ := h
  exact heapTy_in hc h

theorem okb_castTypes (h : Sit E F B) {frm target : RefType} {k : Ref × Ref → M β} {y : β}
    {c : List MT} {S : St} : Run B (castTypes E frm target >>= k) c y S ↔
      ∃ r t, F.C.RefTy frm r ∧ F.C.RefTy target t ∧ RefSub F.C.decls t r ∧ F.C.NoCont t.heap ∧
        Run B (k (r, t)) c y S := by
  unfold castTypes checkBrOnCastTypeHierarchy
  simp only [full_desc h, Bool.false_eq_true, if_false]
  vok h
  simp only [okb_checkCastToAllowed]
  vok h
  constructor
  · rintro ⟨r, hr, t, ht, hn, hs, hk⟩
    exact ⟨r, t, hr, ht, hs, (noCont_iff h (heapIn_refTy h.ctx ht)).2 hn, hk⟩
  · rintro ⟨r, t, hr, ht, hs, hn, hk⟩
    exact ⟨r, hr, t, ht, (noCont_iff h (heapIn_refTy h.ctx ht)).1 hn, hs, hk⟩

theorem ok_castBranch (h : Sit E F B) {d : BitVec 32} {r sent kept : Ref} {c c' : List MT} :
    Ok B (castBranch E d r sent kept) c () c' ↔ ∃ l ts last, F.labels[d.toNat]? = some l ∧
      l.types = ts ++ [last] ∧ ValSub F.C.decls (.ref sent) last ∧
      Exec F.C B.fr.unreachable (ts ++ [.ref r]).reverse (ts ++ [.ref kept]) c c' := by
  unfold castBranch popPushLabelTypes
  vok h
  constructor
  · rintro ⟨l, hl, last, hlast, hs, c1, h1, c2, h2, rfl⟩
    obtain ⟨ts, hts⟩ := getLast?_iff.1 hlast
    rw [hts, List.dropLast_concat] at h2
    refine ⟨l, ts, last, hl, hts, hs, c1, h1, c2, h2, ?_⟩
    rw [hts, List.dropLast_concat]
    simp [pushed]
  · rintro ⟨l, ts, last, hl, hts, hs, c1, h1, c2, h2, rfl⟩
    refine ⟨l, hl, last, getLast?_iff.2 ⟨ts, hts⟩, hs, c1, h1, c2, ?_, ?_⟩
    · rw [hts, List.dropLast_concat]; exact h2
    · rw [hts, List.dropLast_concat]
      simp [pushed]

theorem ok_brOnCast (h : Sit E F B) {d : BitVec 32} {frm target : RefType} {c c' : List MT} :
    Ok B (visitBrOnCast E d frm target) c () c' ↔
      HasTy F.C B.fr.unreachable (CastTy F .brOnCast d frm target) c c' := by
  unfold visitBrOnCast
  rw [okb_castTypes h]
  simp only [ok_castBranch h, HasTy, CastTy, difference_eq]
  constructor
  · rintro ⟨r, t, hr, ht, hs, hn, l, ts, last, hl, hts, hv, he⟩
    exact ⟨_, _, ⟨r, t, l, ts, last, hr, ht, hs, hn, hl, hts, rfl, hv, rfl⟩, he⟩
  · rintro ⟨_, _, ⟨r, t, l, ts, last, hr, ht, hs, hn, hl, hts, rfl, hv, rfl⟩, he⟩
    exact ⟨r, t, hr, ht, hs, hn, l, ts, last, hl, hts, hv, he⟩

theorem ok_brOnCastFail (h : Sit E F B) {d : BitVec 32} {frm target : RefType} {c c' : List MT} :
    Ok B (visitBrOnCastFail E d frm target) c () c' ↔
      HasTy F.C B.fr.unreachable (CastTy F .brOnCastFail d frm target) c c' := by
  unfold visitBrOnCastFail
  rw [okb_castTypes h]
  simp only [ok_castBranch h, HasTy, CastTy, difference_eq]
  constructor
  · rintro ⟨r, t, hr, ht, hs, hn, l, ts, last, hl, hts, hv, he⟩
    exact ⟨_, _, ⟨r, t, l, ts, last, hr, ht, hs, hn, hl, hts, rfl, hv, rfl⟩, he⟩
  · rintro ⟨_, _, ⟨r, t, l, ts, last, hr, ht, hs, hn, hl, hts, rfl, hv, rfl⟩, he⟩
    exact ⟨r, t, hr, ht, hs, hn, l, ts, last, hl, hts, hv, he⟩

/-! ### Operators without immediates -/

/-- The type of the operators with this body. -/
def bodySig : PlainBody → Option (List V × List V)
  | .nop => some ([], [])
  | .eqz t => some ([t], [.i32])
  | .cmp t | .fcmp t => some ([t, t], [.i32])
  | .unary t | .funary t => some ([t], [t])
  | .binary t | .fbinary t => some ([t, t], [t])
  | .conversion into frm | .fconversion into frm => some ([frm], [into])
  | .binop128 => some ([.i64, .i64, .i64, .i64], [.i64, .i64])
  | .mulWide => some ([.i64, .i64], [.i64, .i64])
  | .refI31 => some ([.i32], [.ref ⟨false, .abs false .i31⟩])
  | .refI31Shared => some ([.i32], [.ref ⟨false, .abs true .i31⟩])
  | .splat t | .fsplat t => some ([t], [.v128])
  | .swizzle | .v128Binary | .v128Fbinary => some ([.v128, .v128], [.v128])
  | .bitselect | .v128Ternary => some ([.v128, .v128, .v128], [.v128])
  | .v128Unary | .v128Funary => some ([.v128], [.v128])
  | .v128Bitmask => some ([.v128], [.i32])
  | .v128Shift => some ([.v128, .i32], [.v128])
  | _ => none

theorem bodySig_plainBody (o : Instr.Plain) : bodySig (plainBody o) = plainSig o := by
  cases o <;> rfl

theorem ok_body (h : Sit E F B) {b : PlainBody} {ins outs : List V}
    (hb : bodySig b = some (ins, outs)) {c c' : List MT} :
    Ok B (runPlain E b) c () c' ↔ Exec F.C B.fr.unreachable ins.reverse outs c c' := by
  cases b <;> cases hb <;>
    simp only [runPlain, checkCmpOp, checkFcmpOp, checkUnaryOp, checkFunaryOp, checkBinaryOp,
      checkFbinaryOp, checkConversionOp, checkFconversionOp, checkBinop128, checkI64MulWide,
      checkV128Splat, checkV128BinaryOp, checkV128FbinaryOp, checkV128UnaryOp, checkV128FunaryOp,
      checkV128BitmaskOp, checkV128ShiftOp, checkV128TernaryOp, checkFloatsEnabled] <;>
    vok h

theorem chk_any (m : MT) : ∃ t, Chk C t m := by
  cases m with
  | bottom => exact ⟨.i32, trivial⟩
  | unknownRef o =>
    cases o with
    | none => exact ⟨.ref ⟨true, .abs false .any⟩, _, rfl⟩
    | some a => exact ⟨.ref ⟨true, .abs false a⟩, _, rfl, .refl⟩
  | known t => exact ⟨t, .refl⟩

theorem ok_drop (h : Sit E F B) {c c' : List MT} : Ok B (runPlain E .drop) c () c' ↔
    HasTy F.C B.fr.unreachable (PlainTy .drop) c c' := by
  unfold PlainTy
  vok h
  show Ok B (pop E none >>= fun _ => Pure.pure ()) c () c' ↔ _
  rw [ok_bind]
  simp only [ok_pop h, ok_pure]
  constructor
  · rintro ⟨m, c1, hc, -, rfl⟩
    rcases hc with ⟨rfl, hu, rfl, rfl⟩ | ⟨rfl, -⟩
    · exact ⟨.i32, hu, rfl⟩
    · obtain ⟨t, ht⟩ := chk_any (C := F.C) m
      exact ⟨t, ht, rfl⟩
  · rintro ⟨t, hp⟩
    cases c with
    | nil =>
      obtain ⟨hu, rfl⟩ := hp
      exact ⟨.bottom, [], .inl ⟨rfl, hu, rfl, rfl⟩, trivial, rfl⟩
    | cons m c =>
      obtain ⟨_, rfl⟩ := hp
      exact ⟨m, _, .inr ⟨rfl, by simp⟩, trivial, rfl⟩

/-- Popping a reference that has this type on the stack. -/
def PopR (u : Bool) (c : List MT) (m : MR) (c' : List MT) : Prop :=
  (c = [] ∧ u = true ∧ m = .unknownRef none ∧ c' = []) ∨
  (∃ m', c = m' :: c' ∧ ((m' = .bottom ∧ m = .unknownRef none) ∨
    (∃ o, m' = .unknownRef o ∧ m = .unknownRef o) ∨ ∃ r, m' = .known (.ref r) ∧ m = .known r))

theorem ok_popRef (h : Sit E F B) {m : MR} {c c' : List MT} :
    Ok B (popRef E none) c m c' ↔ PopR B.fr.unreachable c m c' := by
  unfold popRef PopR
  rw [ok_bind]
  simp only [Option.map_none, ok_pop h]
  constructor
  · rintro ⟨m', c1, hc, hm⟩
    rcases hc with ⟨rfl, hu, rfl, rfl⟩ | ⟨rfl, -⟩
    · obtain ⟨rfl, rfl⟩ := ok_pure.1 hm
      exact .inl ⟨rfl, hu, rfl, rfl⟩
    · right
      cases m' with
      | bottom =>
        obtain ⟨rfl, rfl⟩ := ok_pure.1 hm
        exact ⟨_, rfl, .inl ⟨rfl, rfl⟩⟩
      | unknownRef o =>
        obtain ⟨rfl, rfl⟩ := ok_pure.1 hm
        exact ⟨_, rfl, .inr (.inl ⟨o, rfl, rfl⟩)⟩
      | known t =>
        cases t with
        | ref r =>
          obtain ⟨rfl, rfl⟩ := ok_pure.1 hm
          exact ⟨_, rfl, .inr (.inr ⟨r, rfl, rfl⟩)⟩
        | _ => exact (ok_fail.1 hm).elim
  · rintro (⟨rfl, hu, rfl, rfl⟩ | ⟨m', rfl, ⟨rfl, rfl⟩ | ⟨o, rfl, rfl⟩ | ⟨r, rfl, rfl⟩⟩)
    · exact ⟨.bottom, [], .inl ⟨rfl, hu, rfl, rfl⟩, ok_pure.2 ⟨rfl, rfl⟩⟩
    · exact ⟨_, _, .inr ⟨rfl, by simp⟩, ok_pure.2 ⟨rfl, rfl⟩⟩
    · exact ⟨_, _, .inr ⟨rfl, by simp⟩, ok_pure.2 ⟨rfl, rfl⟩⟩
    · exact ⟨_, _, .inr ⟨rfl, by simp⟩, ok_pure.2 ⟨rfl, rfl⟩⟩

theorem popR_pop {c c' : List MT} :
    (∃ m, PopR u c m c') ↔ ∃ t, Pop C u (.ref ⟨true, t⟩) c c' := by
  constructor
  · rintro ⟨m, ⟨rfl, hu, rfl, rfl⟩ | ⟨m', rfl, ⟨rfl, rfl⟩ | ⟨o, rfl, rfl⟩ | ⟨r, rfl, rfl⟩⟩⟩
    · exact ⟨.abs false .any, hu, rfl⟩
    · exact ⟨.abs false .any, trivial, rfl⟩
    · cases o with
      | none => exact ⟨.abs false .any, ⟨_, rfl⟩, rfl⟩
      | some a => exact ⟨.abs false a, ⟨_, rfl, .refl⟩, rfl⟩
    · exact ⟨r.heap, .ref ⟨fun _ => rfl, .refl⟩, rfl⟩
  · rintro ⟨t, hp⟩
    cases c with
    | nil => exact ⟨_, .inl ⟨rfl, hp.1, rfl, hp.2⟩⟩
    | cons m' c =>
      obtain ⟨hc, rfl⟩ := hp
      cases m' with
      | bottom => exact ⟨_, .inr ⟨_, rfl, .inl ⟨rfl, rfl⟩⟩⟩
      | unknownRef o => exact ⟨_, .inr ⟨_, rfl, .inr (.inl ⟨_, rfl, rfl⟩)⟩⟩
      | known t' =>
        obtain ⟨r, rfl, _⟩ := valSub_of_ref hc
        exact ⟨_, .inr ⟨_, rfl, .inr (.inr ⟨_, rfl, rfl⟩)⟩⟩

theorem ok_refIsNull (h : Sit E F B) {c c' : List MT} : Ok B (runPlain E .refIsNull) c () c' ↔
    HasTy F.C B.fr.unreachable (PlainTy .refIsNull) c c' := by
  unfold PlainTy
  vok h
  show Ok B (popRef E none >>= fun _ => push .i32) c () c' ↔ _
  rw [ok_bind]
  simp only [ok_popRef h, ok_push]
  constructor
  · rintro ⟨m, c1, hc, rfl⟩
    obtain ⟨t, ht⟩ := popR_pop.1 ⟨m, hc⟩
    exact ⟨t, c1, ht, rfl⟩
  · rintro ⟨t, c1, ht, rfl⟩
    obtain ⟨m, hc⟩ := popR_pop.2 ⟨t, ht⟩
    exact ⟨m, c1, hc, rfl⟩

/-- Whether a reference on the stack is below an abstract heap type, shared or not as said. -/
def MRSub (C : Ctx) (a : AbsHeap) : MR → Prop
  | .bottom => True
  | .unknownRef none => True
  | .unknownRef (some b) => absIsSubtypeOf b a = true
  | .known r => HeapSub C.decls r.heap (.abs (C.sharedHeap r.heap) a)

theorem ok_popMaybeSharedRef (h : Sit E F B) {a : AbsHeap} {m : MR} {c c' : List MT} :
    Ok B (popMaybeSharedRef E a) c m c' ↔ PopR B.fr.unreachable c m c' ∧ MRSub F.C a m := by
  unfold popMaybeSharedRef
  rw [ok_bind]
  simp only [ok_popRef h]
  constructor
  · rintro ⟨m', c1, hc, hm⟩
    cases m' with
    | bottom =>
      obtain ⟨rfl, rfl⟩ := ok_pure.1 hm
      exact ⟨hc, trivial⟩
    | unknownRef o =>
      cases o with
      | none =>
        obtain ⟨rfl, rfl⟩ := ok_pure.1 hm
        exact ⟨hc, trivial⟩
      | some b =>
        obtain ⟨h1, h2⟩ := okb_require.1 hm
        obtain ⟨rfl, rfl⟩ := ok_pure.1 h2
        exact ⟨hc, h1⟩
    | known r =>
      obtain ⟨h1, h2⟩ := okb_require.1 hm
      obtain ⟨rfl, rfl⟩ := ok_pure.1 h2
      rw [sub_iff h, h.faith.shared, valSub_ref_iff] at h1
      exact ⟨hc, h1.2⟩
  · rintro ⟨hc, hm⟩
    refine ⟨m, c', hc, ?_⟩
    cases m with
    | bottom => exact ok_pure.2 ⟨rfl, rfl⟩
    | unknownRef o =>
      cases o with
      | none => exact ok_pure.2 ⟨rfl, rfl⟩
      | some b => exact okb_require.2 ⟨hm, ok_pure.2 ⟨rfl, rfl⟩⟩
    | known r =>
      refine okb_require.2 ⟨?_, ok_pure.2 ⟨rfl, rfl⟩⟩
      rw [sub_iff h, h.faith.shared, valSub_ref_iff]
      exact ⟨fun _ => rfl, hm⟩

/-- The sharedness of a reference on the stack. -/
def MRShared (C : Ctx) (s : Bool) : MR → Prop
  | .known r => C.sharedHeap r.heap = s
  | _ => True

theorem popR_shared (hc : CtxOk C) {a : AbsHeap} {s : Bool} {c c' : List MT} :
    (∃ m, PopR u c m c' ∧ MRSub C a m ∧ MRShared C s m) ↔
      Pop C u (.ref ⟨true, .abs s a⟩) c c' := by
  constructor
  · rintro ⟨m, ⟨rfl, hu, rfl, rfl⟩ | ⟨m', rfl, ⟨rfl, rfl⟩ | ⟨o, rfl, rfl⟩ | ⟨r, rfl, rfl⟩⟩, hm, hs⟩
    · exact ⟨hu, rfl⟩
    · exact ⟨trivial, rfl⟩
    · cases o with
      | none => exact ⟨⟨_, rfl⟩, rfl⟩
      | some b => exact ⟨⟨_, rfl, abs_heapSub hm⟩, rfl⟩
    · refine ⟨.ref ⟨fun _ => rfl, ?_⟩, rfl⟩
      cases hs
      exact hm
  · intro hp
    cases c with
    | nil => exact ⟨_, .inl ⟨rfl, hp.1, rfl, hp.2⟩, trivial, trivial⟩
    | cons m' c =>
      obtain ⟨hk, rfl⟩ := hp
      cases m' with
      | bottom => exact ⟨_, .inr ⟨_, rfl, .inl ⟨rfl, rfl⟩⟩, trivial, trivial⟩
      | unknownRef o =>
        refine ⟨_, .inr ⟨_, rfl, .inr (.inl ⟨_, rfl, rfl⟩)⟩, ?_, trivial⟩
        cases o with
        | none => trivial
        | some b =>
          obtain ⟨r, hr, hk⟩ := hk
          cases hr
          exact ((abs_sub_iff hc).1 hk).2
      | known t' =>
        obtain ⟨r, rfl, hr⟩ := valSub_of_ref hk
        have hs := shared_abs hc hr.2
        refine ⟨_, .inr ⟨_, rfl, .inr (.inr ⟨_, rfl, rfl⟩)⟩, ?_, hs⟩
        show HeapSub C.decls _ _
        rw [hs]
        exact hr.2

theorem mrShared_ex (C : Ctx) (m : MR) : ∃ s, MRShared C s m := by
  cases m with
  | known r => exact ⟨_, rfl⟩
  | _ => exact ⟨false, trivial⟩

theorem ok_maybeSharedToI32 (h : Sit E F B) {a : AbsHeap} {c c' : List MT} :
    Ok B (visitMaybeSharedToI32 E a) c () c' ↔ HasTy F.C B.fr.unreachable (fun ins outs =>
      ∃ s, ins = [.ref ⟨true, .abs s a⟩] ∧ outs = [.i32]) c c' := by
  unfold visitMaybeSharedToI32
  vok h
  rw [ok_bind]
  simp only [ok_popMaybeSharedRef h, ok_push]
  constructor
  · rintro ⟨m, c1, ⟨h1, h2⟩, rfl⟩
    obtain ⟨s, hs⟩ := mrShared_ex F.C m
    exact ⟨s, c1, (popR_shared h.ctx).1 ⟨m, h1, h2, hs⟩, rfl⟩
  · rintro ⟨s, c1, hp, rfl⟩
    obtain ⟨m, h1, h2, _⟩ := (popR_shared h.ctx).2 hp
    exact ⟨m, c1, ⟨h1, h2⟩, rfl⟩

theorem sharedMatches_iff (h : Sit E F B) (m m' : MR) :
    sharedMatches (m.isMaybeShared E.R) (m'.isMaybeShared E.R) = true ↔
      ∃ s, MRShared F.C s m ∧ MRShared F.C s m' := by
  cases m <;> cases m' <;>
    simp [sharedMatches, MR.isMaybeShared, MRShared, h.faith.shared]
  exact ⟨fun h => h.symm, fun h => h.symm⟩

theorem ok_refEq (h : Sit E F B) {c c' : List MT} : Ok B (runPlain E .refEq) c () c' ↔
    HasTy F.C B.fr.unreachable (PlainTy .refEq) c c' := by
  unfold PlainTy
  vok h
  show Ok B (visitRefEq E) c () c' ↔ _
  unfold visitRefEq
  rw [ok_bind]
  simp only [ok_bind (m := popMaybeSharedRef _ _), ok_popMaybeSharedRef h, okb_require, ok_push,
    sharedMatches_iff h]
  constructor
  · rintro ⟨m, c1, ⟨h1, h2⟩, m', c2, ⟨h3, h4⟩, ⟨s, h5, h6⟩, rfl⟩
    exact ⟨s, c1, (popR_shared h.ctx).1 ⟨m, h1, h2, h5⟩, c2,
      (popR_shared h.ctx).1 ⟨m', h3, h4, h6⟩, rfl⟩
  · rintro ⟨s, c1, hp, c2, hp', rfl⟩
    obtain ⟨m, h1, h2, h5⟩ := (popR_shared h.ctx).2 hp
    obtain ⟨m', h3, h4, h6⟩ := (popR_shared h.ctx).2 hp'
    exact ⟨m, c1, ⟨h1, h2⟩, m', c2, ⟨h3, h4⟩, ⟨s, h5, h6⟩, rfl⟩

end Verif.Op.View
