import Verif.Op.VisitAll
/-! What the methods do for the operators that stop, that have operands of unknown type, or that
are about locals. -/
namespace Verif.Op.View
open Verif.Op.Typing
open Verif.Types (AbsHeap HeapType UnpackedIndex RefType ValType)
open Verif.Instr (FrameKind BlockType MemArg Catch Handle BrTable Operator)
open Verif.TypeList.Spec (Field Storage Comp SubT Decls HeapSub RefSub ValSub StorageSub)

variable {α β : Type} {E : Env} {F : Fn} {B : Base} {C : Ctx} {u : Bool}

/-! ### Stopping -/

/-- After `unreachable`. -/
def Base.stop (B : Base) : Base where
  locals := B.locals
  inits := B.inits
  fr := { B.fr with unreachable := true }
  frs := B.frs
  low := B.low
  shared := B.shared
  hh := B.hh

theorem run_unreachable {c : List MT} {S : St} {v : Unit} :
    Run B unreachable c v S ↔ S = st B.stop [] := by
  unfold Run unreachable st
  dsimp only
  have hl : B.fr.height ≤ (c ++ B.low).length := by
    rw [B.hh, List.length_append]; omega
  have hd : (c ++ B.low).drop ((c ++ B.low).length - B.fr.height) = B.low := by
    rw [B.hh, List.length_append, Nat.add_sub_cancel, List.drop_left]
  rw [if_pos hl, hd]
  have hlog : ∀ (b : Bool) (g : Log → Log) (g' : Log → Log),
      Option.map g (if b = true then (none : Option Log) else Option.map g' none) = none := by
    intro b _ _; cases b <;> rfl
  rw [hlog]
  constructor
  · intro h; cases h; rfl
  · rintro rfl; rfl

theorem pops_sub (hc : CtxOk C) : ∀ {as bs : List V}, List.Forall₂ (ValSub C.decls) as bs →
    ∀ {c : List MT}, Pops C u bs (as.map MT.known ++ c) c
  | [], [], .nil, c => rfl
  | a :: as, b :: bs, .cons h hs, c => ⟨as.map MT.known ++ c, ⟨h, rfl⟩, pops_sub hc hs⟩

theorem forall₂_reverse {γ δ : Type} {P : γ → δ → Prop} {xs : List γ} {ys : List δ}
    (h : List.Forall₂ P xs ys) : List.Forall₂ P xs.reverse ys.reverse := by
  have : ∀ {xs : List γ} {ys : List δ} {as : List γ} {bs : List δ}, List.Forall₂ P xs ys →
      List.Forall₂ P as bs → List.Forall₂ P (xs.reverse ++ as) (ys.reverse ++ bs) := by
    intro xs ys as bs h
    induction h generalizing as bs with
    | nil => exact fun h => h
    | cons h hs ih =>
      intro h'
      rw [List.reverse_cons, List.reverse_cons, List.append_assoc, List.append_assoc]
      exact ih (.cons h h')
  simpa using this h .nil

theorem run_returnCallTy (h : Sit E F B) {ps rs : List V} {c : List MT} {S : St} :
    Run B (checkReturnCallTy E ⟨ps, rs⟩) c () S ↔ List.Forall₂ (ValSub F.C.decls) rs F.results ∧
      (∃ c1, Pops F.C B.fr.unreachable ps.reverse c c1) ∧ S = st B.stop [] := by
  unfold checkReturnCallTy checkFuncTypeSameResults checkReturn
  simp only [bind_assoc, okb_functionResults h, okb_require, okb_popAll h, okb_pushAll,
    run_unreachable]
  have hs : (rs.length == F.results.length && ((F.results.zip rs).all fun x =>
      match x with | (a, b) => E.R.isSubtype b a)) = true ↔
      List.Forall₂ (ValSub F.C.decls) rs F.results := by
    rw [Bool.and_eq_true, beq_iff_eq]
    have := all_zip_iff (R := fun a b => ValSub F.C.decls b a)
      (g := fun (x : Val × Val) => match x with | (a, b) => E.R.isSubtype b a)
      (fun a b => sub_iff h) (xs := F.results) (ys := rs)
    rw [eq_comm, this]
    exact ⟨forall₂_flip, forall₂_flip⟩
  constructor
  · rintro ⟨h1, c1, h2, c2, -, rfl⟩
    exact ⟨hs.1 h1, ⟨c1, h2⟩, rfl⟩
  · rintro ⟨h1, ⟨c1, h2⟩, rfl⟩
    refine ⟨hs.2 h1, c1, h2, c1, ?_, rfl⟩
    have := pops_sub (u := B.fr.unreachable) h.ctx (forall₂_reverse h1) (c := c1)
    rw [List.map_reverse] at this
    exact this

theorem okb_checkCallRefTy (h : Sit E F B) {i : BitVec 32} {k : FuncTy → M β} {y : β}
    {c : List MT} {S : St} : Run B (checkCallRefTy E i >>= k) c y S ↔
      ∃ t, F.C.IdxRef true i t ∧ ∃ c1, Pop F.C B.fr.unreachable t c c1 ∧
        ∃ ps rs, F.Func i ps rs ∧ Run B (k ⟨ps, rs⟩) c1 y S := by
  unfold checkCallRefTy Ctx.IdxRef checkConcrete
  simp only [bind_assoc]
  rw [okb_checkHeapType h]
  simp only [okb_orPanic, okb_popRef_ h, okb_funcTypeAt h]
  constructor
  · rintro ⟨_, ⟨id, hi, rfl⟩, r, hr, c1, h1, ps, rs, hf, hk⟩
    rw [mkRef_id true (h.ctx.lt hi)] at hr
    cases hr
    exact ⟨_, ⟨id, hi, rfl⟩, c1, h1, ps, rs, hf, hk⟩
  · rintro ⟨_, ⟨id, hi, rfl⟩, c1, h1, ps, rs, hf, hk⟩
    exact ⟨_, ⟨id, hi, rfl⟩, _, mkRef_id true (h.ctx.lt hi), c1, h1, ps, rs, hf, hk⟩

/-- The operators after which nothing is executed. -/
def isStop : Operator → Bool
  | .plain .unreachable | .plain .return_ | .plain .throwRef | .idx .br _ | .idx .throw _
  | .idx .rethrow _ | .idx .returnCall _ | .idx .returnCallRef _ | .returnCallIndirect .. => true
  | _ => false

theorem run_stop (h : Sit E F B) {o : Operator} (hb : isStop o = true) {c : List MT} {S : St} :
    Run B (visit E o) c () S ↔
      (∃ ins c1, Stops F o ins ∧ Pops F.C B.fr.unreachable ins.reverse c c1) ∧
        S = st B.stop [] := by
  unfold isStop at hb
  split at hb
  · show Run B unreachable c () S ↔ _
    rw [run_unreachable]
    constructor
    · rintro rfl; exact ⟨⟨[], c, rfl, rfl⟩, rfl⟩
    · rintro ⟨_, rfl⟩; rfl
  · show Run B (checkReturn E) c () S ↔ _
    unfold checkReturn
    simp only [okb_functionResults h, okb_popAll h, run_unreachable]
    constructor
    · rintro ⟨c1, h1, rfl⟩; exact ⟨⟨_, c1, rfl, h1⟩, rfl⟩
    · rintro ⟨⟨_, c1, rfl, h1⟩, rfl⟩; exact ⟨c1, h1, rfl⟩
  · show Run B (popT E Op.exnref >>= fun _ => unreachable) c () S ↔ _
    simp only [okb_popT h, run_unreachable]
    constructor
    · rintro ⟨c1, h1, rfl⟩; exact ⟨⟨[exnref], c1, rfl, c1, h1, rfl⟩, rfl⟩
    · rintro ⟨⟨_, c1, rfl, c2, h1, rfl⟩, rfl⟩; exact ⟨c1, h1, rfl⟩
  · next i =>
    show Run B (visitBr E i) c () S ↔ _
    unfold visitBr
    simp only [okb_jumpTypes h, okb_popAll h, run_unreachable]
    constructor
    · rintro ⟨l, hl, c1, h1, rfl⟩; exact ⟨⟨_, c1, ⟨l, hl, rfl⟩, h1⟩, rfl⟩
    · rintro ⟨⟨_, c1, ⟨l, hl, rfl⟩, h1⟩, rfl⟩; exact ⟨l, hl, c1, h1, rfl⟩
  · next i =>
    show Run B (visitThrow E i) c () S ↔ _
    unfold visitThrow
    simp only [okb_exceptionTagAt h, okb_popAll h, run_unreachable]
    constructor
    · rintro ⟨ps, hl, c1, h1, rfl⟩; exact ⟨⟨_, c1, hl, h1⟩, rfl⟩
    · rintro ⟨⟨_, c1, hl, h1⟩, rfl⟩; exact ⟨_, hl, c1, h1, rfl⟩
  · next i =>
    show Run B (visitRethrow i) c () S ↔ _
    unfold visitRethrow
    have hk : ∀ k : FrameKind, (k == .legacyCatch || k == .legacyCatchAll) = true ↔
        k = .legacyCatch ∨ k = .legacyCatchAll := by intro k; simp
    rw [ok_read (P := fun x => ∃ fr, (B.fr :: B.frs)[i.toNat]? = some fr ∧
      x = (fr.blockType, fr.kind)) (fun x c' => ok_jump h)]
    constructor
    · rintro ⟨_, ⟨fr, hfr, rfl⟩, hr⟩
      rw [okb_require, run_unreachable, hk] at hr
      obtain ⟨hr, rfl⟩ := hr
      obtain ⟨l, hl, -, -, -, -, hc⟩ := (forall₂_getElem h.labels i.toNat).1 _ hfr
      exact ⟨⟨[], c, ⟨l, hl, hc.2 hr, rfl⟩, rfl⟩, rfl⟩
    · rintro ⟨⟨_, c1, ⟨l, hl, hc', rfl⟩, -⟩, rfl⟩
      obtain ⟨fr, hfr, -, -, -, -, hc⟩ := (forall₂_getElem h.labels i.toNat).2 _ hl
      refine ⟨_, ⟨fr, hfr, rfl⟩, ?_⟩
      rw [okb_require, run_unreachable, hk]
      exact ⟨hc.1 hc', rfl⟩
  · next i =>
    show Run B (visitReturnCall E i) c () S ↔ _
    unfold visitReturnCall typeOfFunction
    simp only [bind_assoc, okb_orError, h.faith.funcIdx, okb_funcTypeAt h, run_returnCallTy h]
    constructor
    · rintro ⟨ti, hti, ps, rs, hf, hr, ⟨c1, h1⟩, rfl⟩
      exact ⟨⟨ps, c1, ⟨ti, rs, hti, hf, hr⟩, h1⟩, rfl⟩
    · rintro ⟨⟨ps, c1, ⟨ti, rs, hti, hf, hr⟩, h1⟩, rfl⟩
      exact ⟨ti, hti, ps, rs, hf, hr, ⟨c1, h1⟩, rfl⟩
  · next i =>
    show Run B (visitReturnCallRef E i) c () S ↔ _
    unfold visitReturnCallRef
    simp only [okb_checkCallRefTy h, run_returnCallTy h]
    constructor
    · rintro ⟨t, ht, c1, h1, ps, rs, hf, hr, ⟨c2, h2⟩, rfl⟩
      refine ⟨⟨ps ++ [t], c2, ⟨ps, rs, t, hf, hr, ht, rfl⟩, ?_⟩, rfl⟩
      rw [List.reverse_append]
      exact ⟨c1, h1, h2⟩
    · rintro ⟨⟨_, c2, ⟨ps, rs, t, hf, hr, ht, rfl⟩, h1⟩, rfl⟩
      rw [List.reverse_append] at h1
      obtain ⟨c1, h1, h2⟩ := h1
      exact ⟨t, ht, c1, h1, ps, rs, hf, hr, ⟨c2, h2⟩, rfl⟩
  · next i j =>
    show Run B (visitReturnCallIndirect E i j) c () S ↔ _
    unfold visitReturnCallIndirect checkCallIndirectTy
    simp only [bind_assoc, okb_tableTypeAt h, okb_require, okb_popT h, okb_funcTypeAt h,
      run_returnCallTy h, indexType_eq]
    have hsub : ∀ e : Ref, E.R.isSubtype (.ref e) funcref = true ↔
        RefSub F.C.decls e ⟨true, .abs false .func⟩ := by
      intro e
      rw [sub_iff h]
      exact valSub_ref_iff
    constructor
    · rintro ⟨t, ht, hs, c1, h1, ps, rs, hf, hr, ⟨c2, h2⟩, rfl⟩
      refine ⟨⟨_, c2, ⟨t, ps, rs, ht, (hsub _).1 hs, hf, hr, rfl⟩, ?_⟩, rfl⟩
      rw [List.reverse_append]
      exact ⟨c1, h1, h2⟩
    · rintro ⟨⟨_, c2, ⟨t, ps, rs, ht, hs, hf, hr, rfl⟩, h1⟩, rfl⟩
      rw [List.reverse_append] at h1
      obtain ⟨c1, h1, h2⟩ := h1
      exact ⟨t, ht, (hsub _).2 hs, c1, h1, ps, rs, hf, hr, ⟨c2, h2⟩, rfl⟩
  · cases hb

/-! ### Branch tables -/

/-- The operand at a depth; below the operands of a block there is anything if it does not get
there. -/
def cell (u : Bool) (c : List MT) (i : Nat) : Option MT :=
  c[i]? <|> if u then some .bottom else none

theorem cell_nil (i : Nat) : cell u [] i = if u then some .bottom else none := by
  simp [cell]

theorem cell_zero (m : MT) (c : List MT) : cell u (m :: c) 0 = some m := by simp [cell]

theorem cell_succ (m : MT) (c : List MT) (i : Nat) : cell u (m :: c) (i + 1) = cell u c i := by
  simp [cell]

/-- The operands have these types, the first on top. -/
def Match (C : Ctx) (u : Bool) (ts : List V) (c : List MT) : Prop :=
  ∀ i t, ts[i]? = some t → ∃ m, cell u c i = some m ∧ Chk C t m

theorem match_nil {c : List MT} : Match C u [] c := by intro i t h; simp at h

theorem match_cons {t : V} {ts : List V} {c : List MT} :
    Match C u (t :: ts) c ↔ ∃ c1, Pop C u t c c1 ∧ Match C u ts c1 := by
  cases c with
  | nil =>
    constructor
    · intro h
      obtain ⟨m, hm, -⟩ := h 0 t rfl
      have hu : u = true := by
        rw [cell_nil] at hm
        cases u
        · cases hm
        · rfl
      refine ⟨[], ⟨hu, rfl⟩, fun i t' hi => ?_⟩
      obtain ⟨m', hm', hc⟩ := h (i + 1) t' hi
      exact ⟨m', by rw [cell_nil] at hm' ⊢; exact hm', hc⟩
    · rintro ⟨c1, ⟨hu, rfl⟩, h⟩ i t' hi
      refine ⟨.bottom, by rw [cell_nil, if_pos hu], trivial⟩
  | cons m c =>
    constructor
    · intro h
      refine ⟨c, ⟨?_, rfl⟩, fun i t' hi => ?_⟩
      · obtain ⟨m', hm, hc⟩ := h 0 t rfl
        rw [cell_zero] at hm
        cases hm
        exact hc
      · obtain ⟨m', hm', hc⟩ := h (i + 1) t' hi
        exact ⟨m', by rwa [cell_succ] at hm', hc⟩
    · rintro ⟨c1, ⟨hk, rfl⟩, h⟩ i t' hi
      cases i with
      | zero => cases hi; exact ⟨m, cell_zero _ _, hk⟩
      | succ i =>
        obtain ⟨m', hm', hc⟩ := h i t' hi
        exact ⟨m', by rwa [cell_succ], hc⟩

theorem match_pops : ∀ {ts : List V} {c : List MT}, Match C u ts c ↔ ∃ c1, Pops C u ts c c1
  | [], c => ⟨fun _ => ⟨c, rfl⟩, fun _ => match_nil⟩
  | t :: ts, c => by
    rw [match_cons]
    simp only [match_pops, Pops]
    exact ⟨fun ⟨c1, h, c2, h'⟩ => ⟨c2, c1, h, h'⟩, fun ⟨c2, c1, h, h'⟩ => ⟨c1, h, c2, h'⟩⟩

/-- What popping operands to push them back again does. -/
theorem ok_popTypes (h : Sit E F B) : ∀ {ts : List Val} {c c' : List MT} {ms : List MT},
    Ok B (popTypes E ts) c ms c' → Match F.C B.fr.unreachable ts c ∧
      ∀ i, cell B.fr.unreachable (ms ++ c') i = cell B.fr.unreachable c i
  | [], c, c', ms, hr => by
    obtain ⟨rfl, rfl⟩ := ok_pure.1 hr
    exact ⟨match_nil, fun _ => rfl⟩
  | t :: ts, c, c', ms, hr => by
    unfold popTypes at hr
    rw [ok_bind] at hr
    obtain ⟨m, c1, h1, hr⟩ := hr
    rw [ok_bind] at hr
    obtain ⟨ms', c2, h2, hr⟩ := hr
    obtain ⟨rfl, rfl⟩ := ok_pure.1 hr
    obtain ⟨hm, hcell⟩ := ok_popTypes h h2
    rcases (ok_pop h).1 h1 with ⟨rfl, hu, rfl, rfl⟩ | ⟨rfl, hk⟩
    · refine ⟨match_cons.2 ⟨[], ⟨hu, rfl⟩, hm⟩, fun i => ?_⟩
      cases i with
      | zero => rw [List.cons_append, cell_zero, cell_nil, if_pos hu]
      | succ i => rw [List.cons_append, cell_succ, hcell, cell_nil, cell_nil]
    · refine ⟨match_cons.2 ⟨c1, ⟨hk t rfl, rfl⟩, hm⟩, fun i => ?_⟩
      cases i with
      | zero => rw [List.cons_append, cell_zero, cell_zero]
      | succ i => rw [List.cons_append, cell_succ, hcell, cell_succ]

theorem ok_popTypes' (h : Sit E F B) : ∀ {ts : List Val} {c : List MT},
    Match F.C B.fr.unreachable ts c → ∃ ms c', Ok B (popTypes E ts) c ms c'
  | [], c, _ => ⟨[], c, ok_pure.2 ⟨rfl, rfl⟩⟩
  | t :: ts, c, hm => by
    obtain ⟨c1, hp, hm⟩ := match_cons.1 hm
    obtain ⟨ms, c', hr⟩ := ok_popTypes' h hm
    have : ∃ m, Ok B (pop E (some t)) c m c1 := by
      cases c with
      | nil => exact ⟨.bottom, (ok_pop h).2 (.inl ⟨rfl, hp.1, rfl, hp.2⟩)⟩
      | cons m c =>
        obtain ⟨hk, rfl⟩ := hp
        exact ⟨m, (ok_pop h).2 (.inr ⟨rfl, fun t' ht => by cases ht; exact hk⟩)⟩
    obtain ⟨m, h1⟩ := this
    refine ⟨m :: ms, c', ?_⟩
    unfold popTypes
    exact ok_bind.2 ⟨m, c1, h1, ok_bind.2 ⟨ms, c', hr, ok_pure.2 ⟨rfl, rfl⟩⟩⟩

theorem ok_eachPush {v : Unit} : ∀ {ms : List MT} {c c' : List MT},
    Ok B (each pushMT ms) c v c' ↔ c' = ms.reverse ++ c
  | [], c, c' => by
    show Ok B (Pure.pure ()) c v c' ↔ _
    rw [ok_pure]; simp
  | m :: ms, c, c' => by
    show Ok B (pushMT m >>= fun _ => each pushMT ms) c v c' ↔ _
    rw [okb_pushMT, ok_eachPush]
    simp

theorem ok_matchStack (h : Sit E F B) {ts : List Val} {c c' : List MT}
    (hr : Ok B (matchStackOperands E ts) c () c') : Match F.C B.fr.unreachable ts.reverse c ∧
      ∀ i, cell B.fr.unreachable c' i = cell B.fr.unreachable c i := by
  unfold matchStackOperands at hr
  rw [ok_bind] at hr
  obtain ⟨ms, c1, h1, h2⟩ := hr
  rw [ok_eachPush, List.reverse_reverse] at h2
  subst h2
  exact ok_popTypes h h1

theorem ok_matchStack' (h : Sit E F B) {ts : List Val} {c : List MT}
    (hm : Match F.C B.fr.unreachable ts.reverse c) :
    ∃ c', Ok B (matchStackOperands E ts) c () c' := by
  obtain ⟨ms, c1, h1⟩ := ok_popTypes' h hm
  unfold matchStackOperands
  exact ⟨_, ok_bind.2 ⟨ms, c1, h1, ok_eachPush.2 rfl⟩⟩

theorem Match.congr {ts : List V} {c c' : List MT} (h : Match C u ts c)
    (he : ∀ i, cell u c' i = cell u c i) : Match C u ts c' :=
  fun i t hi => by rw [he]; exact h i t hi

theorem ok_brTarget (h : Sit E F B) {n : Nat} {i : BitVec 32} {c : List MT} {S : St}
    {k : Unit → M β} {y : β} :
    Run B (checkBrTarget E n (some i) >>= k) c y S ↔ ∃ l, F.labels[i.toNat]? = some l ∧
      l.types.length = n ∧ ∃ c1, Ok B (matchStackOperands E l.types) c () c1 ∧
        Run B (k ()) c1 y S := by
  unfold checkBrTarget
  simp only [bind_assoc, okb_orError, okb_jumpTypes h, okb_require, Option.some.injEq,
    exists_eq_left', beq_iff_eq]
  simp only [ok_bindU]

theorem each_brTarget (h : Sit E F B) {n : Nat} : ∀ {ls : List (BitVec 32)} {c c' : List MT},
    Ok B (each (checkBrTarget E n) (ls.map some)) c () c' →
    (∀ i ∈ ls, ∃ l, F.labels[i.toNat]? = some l ∧ l.types.length = n ∧
      Match F.C B.fr.unreachable l.types.reverse c) ∧
    ∀ i, cell B.fr.unreachable c' i = cell B.fr.unreachable c i
  | [], c, c', hr => by
    obtain ⟨-, rfl⟩ := ok_pure.1 hr
    exact ⟨by simp, fun _ => rfl⟩
  | i :: ls, c, c', hr => by
    have hr : Ok B (checkBrTarget E n (some i) >>= fun _ => each (checkBrTarget E n) (ls.map some))
      c () c' := hr
    rw [ok_brTarget h] at hr
    obtain ⟨l, hl, hn, c1, h1, h2⟩ := hr
    obtain ⟨hm, hcell⟩ := ok_matchStack h h1
    obtain ⟨ha, hcell'⟩ := each_brTarget h h2
    refine ⟨fun j hj => ?_, fun j => by rw [hcell', hcell]⟩
    rcases List.mem_cons.1 hj with rfl | hj
    · exact ⟨l, hl, hn, hm⟩
    · obtain ⟨l', hl', hn', hm'⟩ := ha j hj
      exact ⟨l', hl', hn', hm'.congr fun i => (hcell i).symm⟩

theorem each_brTarget' (h : Sit E F B) {n : Nat} : ∀ {ls : List (BitVec 32)} {c : List MT},
    (∀ i ∈ ls, ∃ l, F.labels[i.toNat]? = some l ∧ l.types.length = n ∧
      Match F.C B.fr.unreachable l.types.reverse c) →
    ∃ c', Ok B (each (checkBrTarget E n) (ls.map some)) c () c' ∧
      ∀ i, cell B.fr.unreachable c' i = cell B.fr.unreachable c i
  | [], c, _ => ⟨c, ok_pure.2 ⟨rfl, rfl⟩, fun _ => rfl⟩
  | i :: ls, c, ha => by
    obtain ⟨l, hl, hn, hm⟩ := ha i (List.mem_cons_self ..)
    obtain ⟨c1, h1⟩ := ok_matchStack' h hm
    have hcell := (ok_matchStack h h1).2
    obtain ⟨c', h2, hcell'⟩ := each_brTarget' h (ls := ls) (c := c1) (n := n) (fun j hj => by
      obtain ⟨l', hl', hn', hm'⟩ := ha j (List.mem_cons_of_mem _ hj)
      exact ⟨l', hl', hn', hm'.congr hcell⟩)
    refine ⟨c', ?_, fun j => by rw [hcell', hcell]⟩
    show Ok B (checkBrTarget E n (some i) >>= fun _ => each (checkBrTarget E n) (ls.map some))
      c () c'
    exact (ok_brTarget h).2 ⟨l, hl, hn, c1, h1, h2⟩

theorem brItems_targets : ∀ (n : Nat) (r : Reader.Reader) (ls : List (BitVec 32)),
    Instr.targetsFrom r n = .ok ls ↔ brItems r n = ls.map some
  | 0, r, ls => by
    unfold Instr.targetsFrom brItems
    cases r.eof
    · cases ls <;> simp
    · cases ls <;> simp
  | n + 1, r, ls => by
    unfold Instr.targetsFrom brItems
    cases hr : Reader.readVarU32 r with
    | error e => cases ls <;> simp
    | ok x =>
      obtain ⟨t, r'⟩ := x
      dsimp only
      cases ls with
      | nil =>
        cases ht : Instr.targetsFrom r' n <;> simp [Functor.map, Except.map]
      | cons a ls =>
        rw [List.map_cons, List.cons.injEq, ← brItems_targets n r' ls]
        cases ht : Instr.targetsFrom r' n <;> simp [Functor.map, Except.map]

theorem brItems_some (h : Sit E F B) {k : Nat} : ∀ {its : List (Option (BitVec 32))}
    {c c' : List MT}, Ok B (each (checkBrTarget E k) its) c () c' →
    ∃ ls : List (BitVec 32), its = ls.map some
  | [], c, c', _ => ⟨[], rfl⟩
  | none :: its, c, c', hr => by
    have hr : Ok B (checkBrTarget E k none >>= fun _ => each (checkBrTarget E k) its) c () c' := hr
    unfold checkBrTarget at hr
    rw [bind_assoc, okb_orError] at hr
    obtain ⟨_, hn, _⟩ := hr
    cases hn
  | some i :: its, c, c', hr => by
    have hr : Ok B (checkBrTarget E k (some i) >>= fun _ => each (checkBrTarget E k) its) c () c' :=
      hr
    rw [ok_brTarget h] at hr
    obtain ⟨l, hl, hn, c1, h1, h2⟩ := hr
    obtain ⟨ls, rfl⟩ := brItems_some h h2
    exact ⟨i :: ls, rfl⟩

theorem run_brTable (h : Sit E F B) {t : BrTable} {c : List MT} {S : St} :
    Run B (visit E (.brTable t)) c () S ↔ (∃ ls l c1, t.targets = .ok ls ∧
      F.labels[t.default.toNat]? = some l ∧ Pop F.C B.fr.unreachable .i32 c c1 ∧
      Match F.C B.fr.unreachable l.types.reverse c1 ∧
      ∀ i ∈ ls, ∃ l', F.labels[i.toNat]? = some l' ∧ l'.types.length = l.types.length ∧
        Match F.C B.fr.unreachable l'.types.reverse c1) ∧ S = st B.stop [] := by
  show Run B (visitBrTable E t) c () S ↔ _
  unfold visitBrTable
  simp only [okb_popT h, okb_jumpTypes h, ok_bindU, ok_popAll h, run_unreachable]
  constructor
  · rintro ⟨c1, h1, l, hl, c2, h2, c3, h3, rfl⟩
    obtain ⟨ls, hls⟩ := brItems_some h h2
    rw [hls] at h2
    obtain ⟨ha, hcell⟩ := each_brTarget h h2
    exact ⟨⟨ls, l, c1, (brItems_targets _ _ _).2 hls, hl, h1,
      (match_pops.2 ⟨c3, h3⟩).congr fun i => (hcell i).symm, ha⟩, rfl⟩
  · rintro ⟨⟨ls, l, c1, hls, hl, h1, hm, ha⟩, rfl⟩
    obtain ⟨c2, h2, hcell⟩ := each_brTarget' h ha
    obtain ⟨c3, h3⟩ := match_pops.1 (hm.congr hcell)
    rw [← (brItems_targets _ _ _).1 hls] at h2
    exact ⟨c1, h1, l, hl, c2, h2, c3, h3, rfl⟩

/-! ### Operands of unknown type -/

/-- Popping any operand. -/
def PopM (u : Bool) (c : List MT) (m : MT) (c' : List MT) : Prop :=
  (c = [] ∧ u = true ∧ m = .bottom ∧ c' = []) ∨ c = m :: c'

theorem ok_popM (h : Sit E F B) {c c' : List MT} {m : MT} :
    Ok B (pop E none) c m c' ↔ PopM B.fr.unreachable c m c' := by
  rw [ok_pop h]
  simp [PopM]

theorem ok_select (h : Sit E F B) {c c' : List MT} :
    Ok B (visit E (.plain .select)) c () c' ↔ ∃ c1 m1 c2 m2 c3 m,
      Pop F.C B.fr.unreachable .i32 c c1 ∧ PopM B.fr.unreachable c1 m1 c2 ∧
      PopM B.fr.unreachable c2 m2 c3 ∧ selectTy m1 m2 = some m ∧ c' = m :: c3 := by
  show Ok B (visitSelect E) c () c' ↔ _
  unfold visitSelect
  simp only [okb_popT h, ok_bind, ok_popM h, okb_orError, ok_pushMT, ok_orError]
  constructor
  · rintro ⟨c1, h1, m1, c2, h2, m2, c3, h3, m, c4, ⟨hm, rfl⟩, rfl⟩
    exact ⟨c1, m1, c2, m2, _, m, h1, h2, h3, hm, rfl⟩
  · rintro ⟨c1, m1, c2, m2, c3, m, h1, h2, h3, hm, rfl⟩
    exact ⟨c1, h1, m1, c2, h2, m2, c3, h3, m, c3, ⟨hm, rfl⟩, rfl⟩

theorem ok_refAsNonNull (h : Sit E F B) {c c' : List MT} :
    Ok B (visit E (.plain .refAsNonNull)) c () c' ↔ ∃ m c1, PopR B.fr.unreachable c m c1 ∧
      c' = m.asNonNull.toMT :: c1 := by
  show Ok B (visitRefAsNonNull E) c () c' ↔ _
  unfold visitRefAsNonNull
  simp only [ok_bind, ok_popRef h, ok_pushMT]

theorem ok_brOnNull (h : Sit E F B) {i : BitVec 32} {c c' : List MT} :
    Ok B (visit E (.idx .brOnNull i)) c () c' ↔ ∃ m c1 l c2, PopR B.fr.unreachable c m c1 ∧
      F.labels[i.toNat]? = some l ∧ Pops F.C B.fr.unreachable l.types.reverse c1 c2 ∧
      c' = m.asNonNull.toMT :: pushed l.types c2 := by
  show Ok B (visitBrOnNull E i) c () c' ↔ _
  unfold visitBrOnNull popPushLabelTypes
  rw [ok_bind]
  simp only [bind_assoc, ok_popRef h, okb_jumpTypes h, okb_popAll h, okb_pushAll, ok_pushMT]
  constructor
  · rintro ⟨m, c1, h1, l, hl, c2, h2, rfl⟩
    exact ⟨m, c1, l, c2, h1, hl, h2, rfl⟩
  · rintro ⟨m, c1, l, c2, h1, hl, h2, rfl⟩
    exact ⟨m, c1, h1, l, hl, c2, h2, rfl⟩

theorem ok_convert (h : Sit E F B) {frm into : AbsHeap} {c c' : List MT} :
    Ok B (visitConvert E frm into) c () c' ↔ ∃ m c1, PopR B.fr.unreachable c m c1 ∧
      MRSub F.C frm m ∧ c' = (convertTy E into m).toMT :: c1 := by
  unfold visitConvert
  simp only [ok_bind, ok_popMaybeSharedRef h, ok_pushMT, and_assoc]

/-! ### Locals -/

theorem okb_localTy {i : BitVec 32} {L : List V} (hl : B.locals.Rep L) {k : Val → M β} {y : β}
    {c : List MT} {S : St} : Run B (localTy E i >>= k) c y S ↔
      ∃ t, L[i.toNat]? = some t ∧ Run B (k t) c y S := by
  unfold localTy
  rw [bind_assoc, okb_getS, okb_orError]
  have : (st B c).locals.get E.bs i = L[i.toNat]? := Locals.rep_get hl E.bs i
  rw [this]

/-- The locals of the state, by what they mean. -/
theorem ok_localGet {params : Nat} {L : List V} {s : InitSpec.Scopes} {i : BitVec 32}
    {c c' : List MT} (hs : (st B c).Ok params L s) :
    Ok B (visit E (.idx .localGet i)) c () c' ↔ ∃ t, L[i.toNat]? = some t ∧
      (i.toNat < params ∨ InitSpec.HasDefault t ∨ i ∈ s.top) ∧ c' = .known t :: c := by
  have hg := hs.get (E := E) i
  have hop : ∀ S, Op.op E (.idx .localGet i) S = visit E (.idx .localGet i) S := fun S => rfl
  constructor
  · intro h
    obtain ⟨t, ht, hd⟩ := hg.1 ⟨_, (hop _).trans h⟩
    refine ⟨t, ht, by rwa [← isDefaultable_iff], ?_⟩
    have h : Ok B (visitLocalGet E i) c () c' := h
    unfold visitLocalGet at h
    rw [okb_localTy hs.rep] at h
    obtain ⟨t', ht', h⟩ := h
    rw [ht] at ht'
    cases ht'
    rw [okb_getS, okb_orPanic] at h
    obtain ⟨b, -, h⟩ := h
    rw [okb_require, ok_push] at h
    exact h.2
  · rintro ⟨t, ht, hd, rfl⟩
    obtain ⟨S', h⟩ := hg.2 ⟨t, ht, by rwa [isDefaultable_iff]⟩
    have h : Run B (visitLocalGet E i) c () S' := h
    show Ok B (visitLocalGet E i) c () _
    unfold visitLocalGet at h ⊢
    rw [okb_localTy hs.rep] at h ⊢
    obtain ⟨t', ht', h⟩ := h
    rw [ht] at ht'
    cases ht'
    refine ⟨t, ht, ?_⟩
    rw [okb_getS, okb_orPanic] at h ⊢
    obtain ⟨b, hb, h⟩ := h
    refine ⟨b, hb, ?_⟩
    rw [okb_require] at h ⊢
    exact ⟨h.1, rfl⟩

/-- The same with other locals set. -/
def Base.withInits (B : Base) (l : LocalInits) : Base where
  locals := B.locals
  inits := l
  fr := B.fr
  frs := B.frs
  low := B.low
  shared := B.shared
  hh := B.hh

theorem run_setInit {i : BitVec 32} {c : List MT} {k : Unit → M β} {y : β} {S : St} :
    Run B (setInit i >>= k) c y S ↔
      ∃ l, B.inits.setInit i = some l ∧ Run (B.withInits l) (k ()) c y S := by
  cases h : B.inits.setInit i with
  | none =>
    have : setInit i (st B c) = (.error .panic, st B c) := by
      unfold setInit
      rw [show (st B c).inits = B.inits from rfl, h]
    constructor
    · intro hr
      unfold Run at hr
      rw [bind_error _ this] at hr
      cases hr
    · rintro ⟨_, h, _⟩; cases h
  | some l =>
    have : setInit i (st B c) = (.ok (), st (B.withInits l) c) := by
      unfold setInit
      rw [show (st B c).inits = B.inits from rfl, h]
      rfl
    unfold Run
    rw [bind_ok _ this]
    simp

theorem Sit.withInits (h : Sit E F B) (l : LocalInits) : Sit E F (B.withInits l) :=
  ⟨h.faith, h.ctx, h.full, h.shared, h.labels, h.results⟩

theorem run_localSet (h : Sit E F B) {L : List V} (hl : B.locals.Rep L) {i : BitVec 32}
    {c : List MT} {S : St} : Run B (visit E (.idx .localSet i)) c () S ↔
      ∃ t l c1, L[i.toNat]? = some t ∧ Pop F.C B.fr.unreachable t c c1 ∧
        B.inits.setInit i = some l ∧ S = st (B.withInits l) c1 := by
  show Run B (visitLocalSet E i) c () S ↔ _
  have he : visitLocalSet E i = (localTy E i >>= fun ty => popT E ty >>= fun _ =>
      setInit i >>= fun _ => Pure.pure ()) := by
    have : (setInit i >>= fun _ => Pure.pure ()) = setInit i := bind_pure (setInit i)
    rw [this]
    rfl
  rw [he, okb_localTy hl]
  simp only [okb_popT h, run_setInit]
  constructor
  · rintro ⟨t, ht, c1, h1, l, hl', hr⟩
    exact ⟨t, l, c1, ht, h1, hl', (congrArg Prod.snd hr).symm⟩
  · rintro ⟨t, l, c1, ht, h1, hl', rfl⟩
    exact ⟨t, ht, c1, h1, l, hl', rfl⟩

theorem run_localTee (h : Sit E F B) {L : List V} (hl : B.locals.Rep L) {i : BitVec 32}
    {c : List MT} {S : St} : Run B (visit E (.idx .localTee i)) c () S ↔
      ∃ t l c1, L[i.toNat]? = some t ∧ Pop F.C B.fr.unreachable t c c1 ∧
        B.inits.setInit i = some l ∧ S = st (B.withInits l) (.known t :: c1) := by
  show Run B (visitLocalTee E i) c () S ↔ _
  unfold visitLocalTee
  rw [okb_localTy hl]
  simp only [okb_popT h, run_setInit]
  constructor
  · rintro ⟨t, ht, c1, h1, l, hl', hr⟩
    exact ⟨t, l, c1, ht, h1, hl', (congrArg Prod.snd hr).symm⟩
  · rintro ⟨t, l, c1, ht, h1, hl', rfl⟩
    exact ⟨t, ht, c1, h1, l, hl', rfl⟩

end Verif.Op.View
