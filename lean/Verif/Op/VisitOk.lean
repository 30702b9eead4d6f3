import Verif.Op.ViewOk
/-! What the methods for single operators do, in terms of the typing rules. -/
namespace Verif.Op.View
open Verif.Op.Typing
open Verif.Types (AbsHeap HeapType UnpackedIndex RefType ValType)
open Verif.Instr (FrameKind BlockType MemArg Catch Handle BrTable Operator)
open Verif.TypeList.Spec (Field Storage Comp SubT Decls HeapSub RefSub ValSub StorageSub)
open Verif.TypeList (DeclsOk HeapIn)

variable {α β : Type} {E : Env} {F : Fn} {B : Base} {C : Ctx} {u : Bool}

theorem hasTy_ex {γ : Type} {P : γ → List V → List V → Prop} {c c' : List MT} :
    HasTy C u (fun ins outs => ∃ a, P a ins outs) c c' ↔ ∃ a, HasTy C u (P a) c c' := by
  unfold HasTy
  constructor
  · rintro ⟨i, o, ⟨a, h⟩, h2⟩; exact ⟨a, i, o, h, h2⟩
  · rintro ⟨a, i, o, h, h2⟩; exact ⟨i, o, ⟨a, h⟩, h2⟩

theorem hasTy_and {p : Prop} {P : List V → List V → Prop} {c c' : List MT} :
    HasTy C u (fun ins outs => p ∧ P ins outs) c c' ↔ p ∧ HasTy C u P c c' := by
  unfold HasTy
  constructor
  · rintro ⟨i, o, ⟨a, h⟩, h2⟩; exact ⟨a, i, o, h, h2⟩
  · rintro ⟨a, i, o, h, h2⟩; exact ⟨i, o, ⟨a, h⟩, h2⟩

theorem hasTy_eq {a b : List V} {c c' : List MT} :
    HasTy C u (fun ins outs => ins = a ∧ outs = b) c c' ↔ Exec C u a.reverse b c c' := by
  unfold HasTy
  constructor
  · rintro ⟨i, o, ⟨rfl, rfl⟩, h2⟩; exact h2
  · intro h; exact ⟨_, _, ⟨rfl, rfl⟩, h⟩

theorem hasTy_false {c c' : List MT} : HasTy C u (fun _ _ => False) c c' ↔ False := by
  simp [HasTy]

theorem exec_append {bs outs : List V} : ∀ {as : List V} {c c' : List MT},
    Exec C u (as ++ bs) outs c c' ↔ ∃ c1, Pops C u as c c1 ∧ Exec C u bs outs c1 c'
  | [], c, c' => by simp [Pops]
  | a :: as, c, c' => by
    simp only [List.cons_append, Exec, Pops, exec_append]
    constructor
    · rintro ⟨c1, h1, c2, h2, h3⟩; exact ⟨c2, ⟨c1, h1, h2⟩, h3⟩
    · rintro ⟨c2, ⟨c1, h1, h2⟩, h3⟩; exact ⟨c1, h1, c2, h2, h3⟩

theorem exec_pops {as outs : List V} {c c' : List MT} :
    Exec C u as outs c c' ↔ ∃ c1, Pops C u as c c1 ∧ c' = pushed outs c1 := by
  have := exec_append (C := C) (u := u) (as := as) (bs := []) (outs := outs) (c := c) (c' := c')
  rwa [List.append_nil] at this

theorem exec_rev {as outs : List V} {c c' : List MT} :
    Exec C u as.reverse outs c c' ↔ ∃ c1, Pops C u as.reverse c c1 ∧ c' = pushed outs c1 := exec_pops

theorem pushed_nil {c : List MT} : pushed [] c = c := rfl
theorem pushed_cons {t : V} {ts : List V} {c : List MT} :
    pushed (t :: ts) c = pushed ts (.known t :: c) := by simp [pushed]

theorem sub_iff (h : Sit E F B) {a b : Val} : E.R.isSubtype a b = true ↔ ValSub F.C.decls a b :=
  h.faith.sub a b

theorem mem_unpack (s : Storage Nat) : unpack s = unpacked s := by cases s <;> rfl
theorem isPacked_iff (s : Storage Nat) : isPacked s = true ↔ Packed s := by
  cases s <;> simp [isPacked, Packed]
theorem isPacked_iff' (s : Storage Nat) : isPacked s = false ↔ ¬ Packed s := by
  cases s <;> simp [isPacked, Packed]
theorem isNumericOrVector_iff (t : Val) : isNumericOrVector t = true ↔ NumOrVec t := by
  cases t <;> simp [isNumericOrVector, NumOrVec]
theorem asRef_iff (t : Val) (r : Ref) : asRef t = some r ↔ t = .ref r := by
  cases t <;> simp [asRef]

theorem isDefaultable_iff (t : Val) : isDefaultable t = true ↔ InitSpec.HasDefault t := by
  cases t <;> simp [isDefaultable, InitSpec.HasDefault]
theorem allDefaultable_iff (fs : List (Field Nat)) : allDefaultable fs = true ↔
    ∀ f ∈ fs, InitSpec.HasDefault (unpacked f.storage) := by
  simp [allDefaultable, mem_unpack, isDefaultable_iff]
theorem unpacked_ref (s : Storage Nat) (r : Ref) : unpacked s = .ref r ↔ s = .val (.ref r) := by
  cases s <;> simp [unpacked]
theorem lenType_eq (a b : Bool) : lenType (addr a) (addr b) = addr (b && a) := by
  cases a <;> cases b <;> rfl
theorem copyMatches_iff (h : Sit E F B) (d s : Storage Nat) :
    copyMatches E d s = true ↔ StorageSub F.C.decls s d := by
  constructor
  · intro hc
    unfold copyMatches at hc
    split at hc
    · exact .i8
    · exact .i16
    · exact .val ((sub_iff h).1 hc)
    · cases hc
  · intro hc
    cases hc with
    | i8 => rfl
    | i16 => rfl
    | val hc => exact (sub_iff h).2 hc

theorem all_zip_iff {R : Val → Val → Prop} {g : Val × Val → Bool}
    (hg : ∀ a b, g (a, b) = true ↔ R a b) : ∀ {xs ys : List Val},
    (xs.length = ys.length ∧ (xs.zip ys).all g = true) ↔ List.Forall₂ R xs ys
  | [], [] => by simp
  | [], _ :: _ => by simp
  | _ :: _, [] => by simp
  | x :: xs, y :: ys => by
    have := all_zip_iff hg (xs := xs) (ys := ys)
    simp only [List.length_cons, Nat.add_right_cancel_iff, List.zip_cons_cons, List.all_cons,
      Bool.and_eq_true, List.forall₂_cons, ← this, hg]
    constructor
    · rintro ⟨h1, h2, h3⟩; exact ⟨h2, h1, h3⟩
    · rintro ⟨h2, h1, h3⟩; exact ⟨h1, h2, h3⟩

theorem forall₂_flip {γ δ : Type} {P : γ → δ → Prop} : ∀ {xs : List γ} {ys : List δ},
    List.Forall₂ P xs ys → List.Forall₂ (fun y x => P x y) ys xs
  | [], [], .nil => .nil
  | _ :: _, _ :: _, .cons h hs => .cons h (forall₂_flip hs)

theorem isFuncSubtype_iff (h : Sit E F B) (p1 r1 p2 r2 : List Val) :
    isFuncSubtype E p1 r1 p2 r2 = true ↔ F.C.FuncSub p1 r1 p2 r2 := by
  unfold isFuncSubtype Ctx.FuncSub
  rw [← all_zip_iff (R := fun p p' => ValSub F.C.decls p' p)
      (g := fun (a, b) => E.R.isSubtype b a) (fun a b => sub_iff h),
    ← all_zip_iff (R := ValSub F.C.decls)
      (g := fun (a, b) => E.R.isSubtype a b) (fun a b => sub_iff h)]
  simp only [Bool.and_eq_true, beq_iff_eq, and_assoc]

theorem getLast?_iff {γ : Type} {xs : List γ} {x : γ} :
    xs.getLast? = some x ↔ ∃ ys, xs = ys ++ [x] := by
  constructor
  · intro h
    exact ⟨xs.dropLast, (List.dropLast_append_getLast? x h).symm⟩
  · rintro ⟨ys, rfl⟩; simp

theorem lastRef_iff {ts : List Val} {r : Ref} :
    lastRef ts = some r ↔ ∃ ys, ts = ys ++ [.ref r] := by
  rw [← getLast?_iff]
  unfold lastRef
  split
  · next h => rw [h]; simp
  · next hn =>
      constructor
      · intro h; cases h
      · intro h; exact absurd h (hn r)

theorem lastRefId_iff {ts : List Val} {n : Nat} :
    lastRefId ts = some n ↔ ∃ ys last, ts = ys ++ [last] ∧ RefTo n last := by
  have : (∃ ys last, ts = ys ++ [last] ∧ RefTo n last) ↔
      ∃ last, ts.getLast? = some last ∧ RefTo n last := by
    constructor
    · rintro ⟨ys, last, h1, h2⟩; exact ⟨last, getLast?_iff.2 ⟨ys, h1⟩, h2⟩
    · rintro ⟨last, h1, h2⟩
      obtain ⟨ys, h1⟩ := getLast?_iff.1 h1
      exact ⟨ys, last, h1, h2⟩
  rw [this]
  unfold lastRefId RefTo
  split
  · next r h =>
      simp only [h, Option.some.injEq, exists_eq_left']
      obtain ⟨n', h'⟩ := r
      cases h' <;> simp [refId]
  · next hn =>
      constructor
      · intro h; cases h
      · rintro ⟨last, h1, n', h2 | h2⟩
        · rw [h2] at h1; exact absurd h1 (hn _)
        · rw [h2] at h1; exact absurd h1 (hn _)

/-- Popping a reference and ignoring it. -/
theorem okb_popRef_ (h : Sit E F B) {r : Ref} {k : M β} {y : β} {c : List MT} {S : St} :
    Run B (popRef E (some r) >>= fun _ => k) c y S ↔
      ∃ c1, Pop F.C B.fr.unreachable (.ref r) c c1 ∧ Run B k c1 y S := by
  unfold popRef
  rw [bind_assoc, ok_bind]
  constructor
  · rintro ⟨m, c1, h1, h2⟩
    refine ⟨c1, (ok_popT h (u := ())).1 ((ok_bind (m := pop E (some (.ref r)))).2
      ⟨m, c1, h1, ok_pure.2 ⟨rfl, rfl⟩⟩), ?_⟩
    revert h2
    split
    · exact id
    · exact id
    · exact id
    · intro h2; exact absurd (congrArg Prod.fst h2) (by intro hc; cases hc)
  · rintro ⟨c1, h1, h2⟩
    obtain ⟨m, c2, h3, h4⟩ := (ok_bind (m := pop E (some (.ref r)))).1 ((ok_popT h (u := ())).2 h1)
    have hc2 : c1 = c2 := (ok_pure.1 h4).2
    subst hc2
    refine ⟨m, c1, h3, ?_⟩
    split
    · exact h2
    · exact h2
    · exact h2
    · next t hn =>
        rcases (ok_pop h).1 h3 with ⟨_, _, hm, _⟩ | ⟨_, hc⟩
        · cases hm
        · obtain ⟨r', hr, _⟩ := valSub_of_ref (hc _ rfl)
          exact (hn r' hr).elim

theorem full_bulk (h : Sit E F B) : E.f.bulkMemoryOpt = true := by rw [h.full]; rfl
theorem full_desc (h : Sit E F B) : E.f.customDescriptors = false := by rw [h.full]; rfl
theorem full_floats (h : Sit E F B) : E.f.floats = true := by rw [h.full]; rfl
theorem full_multi (h : Sit E F B) : E.f.multiValue = true := by rw [h.full]; rfl

/-- The lemmas about helpers. -/
macro "vok " h:term : tactic => `(tactic| simp only [bind_assoc, pure_bind, okb_require,
  okb_orError, okb_orPanic, okb_push, okb_pushMT, okb_popT $h, okb_pop_ $h, okb_eachPop $h,
  okb_popAll $h, okb_pushAll, okb_requireAccess $h, okb_subTypeAt $h, okb_funcTypeAt $h,
  okb_structTypeAt $h, okb_arrayTypeAt $h, okb_contTypeAt $h, okb_structFieldAt $h,
  okb_mutableStructFieldAt $h, okb_mutableArrayTypeAt $h, okb_funcTypeOfContType $h,
  okb_contAtId $h, okb_tagAt $h, okb_exceptionTagAt $h, okb_globalTypeAt $h, okb_tableTypeAt $h,
  okb_elementTypeAt $h, okb_checkMemoryIndex $h, ok_checkDataSegment $h,
  okb_checkDataSegment $h, okb_checkHeapType $h, okb_concrete $h, ok_pushConcreteRef $h,
  ok_pushExactRefIfAvailable $h, okb_popConcreteRef $h, okb_checkRefType $h, okb_jumpTypes $h,
  okb_functionResults $h, ok_pure, ok_fail, ok_require, ok_pushMT, ok_push, ok_pushRef, ok_popT $h,
  ok_eachPop $h, ok_popAll $h, ok_pushAll, hasTy_ex, hasTy_and, hasTy_eq, hasTy_false, Exec, Pops,
  exec_append, exec_rev, List.reverse_cons, List.reverse_append, List.reverse_nil, List.nil_append,
  List.cons_append, List.append_assoc, pushed_nil, pushed_cons, sub_iff $h, mem_unpack, isPacked_iff,
  isPacked_iff', isNumericOrVector_iff, asRef_iff, valSub_ref_iff, indexType_eq, true_and,
  exists_eq_left, exists_eq_left', exists_eq_right, exists_eq_right', beq_iff_eq, Option.isNone_iff_eq_none, isDefaultable_iff,
  allDefaultable_iff, unpacked_ref, lenType_eq, copyMatches_iff $h, isFuncSubtype_iff $h, lastRef_iff,
  lastRefId_iff, okb_popRef_ $h, full_bulk $h, full_desc $h, full_floats $h, full_multi $h,
  ($h).faith.funcIdx, ($h).faith.funcId, ($h).faith.refs, Bool.false_and, decide_eq_true_eq])

theorem ok_globalGet (h : Sit E F B) {i : BitVec 32} {I : List (BitVec 32)} {c c' : List MT} :
    Ok B (visitGlobalGet E i) c () c' ↔
      HasTy F.C B.fr.unreachable (IdxTy F I .globalGet i) c c' := by
  unfold visitGlobalGet IdxTy
  vok h
  try grind
theorem ok_globalSet (h : Sit E F B) {i : BitVec 32} {I : List (BitVec 32)} {c c' : List MT} :
    Ok B (visitGlobalSet E i) c () c' ↔
      HasTy F.C B.fr.unreachable (IdxTy F I .globalSet i) c c' := by
  unfold visitGlobalSet IdxTy
  vok h
  try grind
theorem ok_memoryDiscard (h : Sit E F B) {i : BitVec 32} {I : List (BitVec 32)} {c c' : List MT} :
    Ok B (visitMemoryDiscard E i) c () c' ↔
      HasTy F.C B.fr.unreachable (IdxTy F I .memoryDiscard i) c c' := by
  unfold visitMemoryDiscard IdxTy
  vok h
  try grind
theorem ok_tableFill (h : Sit E F B) {i : BitVec 32} {I : List (BitVec 32)} {c c' : List MT} :
    Ok B (visitTableFill E i) c () c' ↔
      HasTy F.C B.fr.unreachable (IdxTy F I .tableFill i) c c' := by
  unfold visitTableFill IdxTy
  vok h
  try grind
theorem ok_tableSet (h : Sit E F B) {i : BitVec 32} {I : List (BitVec 32)} {c c' : List MT} :
    Ok B (visitTableSet E i) c () c' ↔
      HasTy F.C B.fr.unreachable (IdxTy F I .tableSet i) c c' := by
  unfold visitTableSet IdxTy
  vok h
  try grind
theorem ok_tableGet (h : Sit E F B) {i : BitVec 32} {I : List (BitVec 32)} {c c' : List MT} :
    Ok B (visitTableGet E i) c () c' ↔
      HasTy F.C B.fr.unreachable (IdxTy F I .tableGet i) c c' := by
  unfold visitTableGet IdxTy
  vok h
  try grind
theorem ok_tableGrow (h : Sit E F B) {i : BitVec 32} {I : List (BitVec 32)} {c c' : List MT} :
    Ok B (visitTableGrow E i) c () c' ↔
      HasTy F.C B.fr.unreachable (IdxTy F I .tableGrow i) c c' := by
  unfold visitTableGrow IdxTy
  vok h
  try grind
theorem ok_tableSize (h : Sit E F B) {i : BitVec 32} {I : List (BitVec 32)} {c c' : List MT} :
    Ok B (visitTableSize E i) c () c' ↔
      HasTy F.C B.fr.unreachable (IdxTy F I .tableSize i) c c' := by
  unfold visitTableSize IdxTy
  vok h
  try grind
theorem ok_structNew (h : Sit E F B) {i : BitVec 32} {I : List (BitVec 32)} {c c' : List MT} :
    Ok B (visitStructNew E i) c () c' ↔
      HasTy F.C B.fr.unreachable (IdxTy F I .structNew i) c c' := by
  unfold visitStructNew IdxTy
  vok h
  grind [Fn.Comp]
theorem ok_structNewDefault (h : Sit E F B) {i : BitVec 32} {I : List (BitVec 32)} {c c' : List MT} :
    Ok B (visitStructNewDefault E i) c () c' ↔
      HasTy F.C B.fr.unreachable (IdxTy F I .structNewDefault i) c c' := by
  unfold visitStructNewDefault IdxTy
  vok h
  grind [Fn.Comp]
theorem ok_arrayNew (h : Sit E F B) {i : BitVec 32} {I : List (BitVec 32)} {c c' : List MT} :
    Ok B (visitArrayNew E i) c () c' ↔
      HasTy F.C B.fr.unreachable (IdxTy F I .arrayNew i) c c' := by
  unfold visitArrayNew IdxTy
  vok h
  try grind
theorem ok_arrayNewDefault (h : Sit E F B) {i : BitVec 32} {I : List (BitVec 32)} {c c' : List MT} :
    Ok B (visitArrayNewDefault E i) c () c' ↔
      HasTy F.C B.fr.unreachable (IdxTy F I .arrayNewDefault i) c c' := by
  unfold visitArrayNewDefault IdxTy
  vok h
  try grind
theorem ok_arraySet (h : Sit E F B) {i : BitVec 32} {I : List (BitVec 32)} {c c' : List MT} :
    Ok B (visitArraySet E i) c () c' ↔
      HasTy F.C B.fr.unreachable (IdxTy F I .arraySet i) c c' := by
  unfold visitArraySet IdxTy
  vok h
  try grind
theorem ok_arrayFill (h : Sit E F B) {i : BitVec 32} {I : List (BitVec 32)} {c c' : List MT} :
    Ok B (visitArrayFill E i) c () c' ↔
      HasTy F.C B.fr.unreachable (IdxTy F I .arrayFill i) c c' := by
  unfold visitArrayFill IdxTy
  vok h
  try grind
theorem ok_contNew (h : Sit E F B) {i : BitVec 32} {I : List (BitVec 32)} {c c' : List MT} :
    Ok B (visitContNew E i) c () c' ↔
      HasTy F.C B.fr.unreachable (IdxTy F I .contNew i) c c' := by
  unfold visitContNew IdxTy
  vok h
  try grind
theorem ok_suspend (h : Sit E F B) {i : BitVec 32} {I : List (BitVec 32)} {c c' : List MT} :
    Ok B (visitSuspend E i) c () c' ↔
      HasTy F.C B.fr.unreachable (IdxTy F I .suspend i) c c' := by
  unfold visitSuspend IdxTy checkCallTy
  vok h
  simp only [HasTy, exec_rev]
theorem ok_call (h : Sit E F B) {i : BitVec 32} {I : List (BitVec 32)} {c c' : List MT} :
    Ok B (visitCall E i) c () c' ↔
      HasTy F.C B.fr.unreachable (IdxTy F I .call i) c c' := by
  unfold visitCall IdxTy typeOfFunction checkCallTy
  vok h
  simp only [HasTy, exec_rev]
theorem ok_callRef (h : Sit E F B) {i : BitVec 32} {I : List (BitVec 32)} {c c' : List MT} :
    Ok B (visitCallRef E i) c () c' ↔
      HasTy F.C B.fr.unreachable (IdxTy F I .callRef i) c c' := by
  unfold visitCallRef IdxTy checkCallRefTy checkCallTy
  vok h
  unfold checkConcrete
  vok h
  simp only [HasTy, Ctx.HeapTy, Ctx.IdxRef]
  constructor
  · rintro ⟨_, ⟨id, hi, rfl⟩, r, hr, c1, h1, ps, rs, hf, c2, h2, rfl⟩
    rw [mkRef_id true (h.ctx.lt hi)] at hr
    cases hr
    refine ⟨ps, _, _, rs, ⟨hf, ⟨id, hi, rfl⟩, rfl⟩, ?_⟩
    vok h
    exact ⟨c1, h1, c2, h2, rfl⟩
  · rintro ⟨ps, _, _, rs, ⟨hf, ⟨id, hi, rfl⟩, rfl⟩, he⟩
    simp only [List.reverse_append, List.reverse_cons, List.reverse_nil, List.nil_append,
      List.cons_append, Exec, exec_rev] at he
    obtain ⟨c1, h1, c2, h2, rfl⟩ := he
    exact ⟨_, ⟨id, hi, rfl⟩, _, mkRef_id true (h.ctx.lt hi), c1, h1, ps, rs, hf, c2, h2, rfl⟩
theorem ok_brIf (h : Sit E F B) {i : BitVec 32} {I : List (BitVec 32)} {c c' : List MT} :
    Ok B (visitBrIf E i) c () c' ↔
      HasTy F.C B.fr.unreachable (IdxTy F I .brIf i) c c' := by
  unfold visitBrIf IdxTy popPushLabelTypes
  vok h
  try grind
theorem ok_memoryFill (h : Sit E F B) {i : BitVec 32} {I : List (BitVec 32)} {c c' : List MT} :
    Ok B (visitMemoryFill E i) c () c' ↔
      HasTy F.C B.fr.unreachable (IdxTy F I .memoryFill i) c c' := by
  unfold visitMemoryFill IdxTy
  vok h
  try grind
theorem ok_refFunc (h : Sit E F B) {i : BitVec 32} {I : List (BitVec 32)} {c c' : List MT} :
    Ok B (visitRefFunc E i) c () c' ↔
      HasTy F.C B.fr.unreachable (IdxTy F I .refFunc i) c c' := by
  unfold visitRefFunc IdxTy
  vok h
  simp only [Ctx.IdxRef, Option.bind_eq_some_iff, Bool.false_eq_true, if_false]
  constructor
  · rintro ⟨id, ⟨ti, h1, h2⟩, h3, r, h4, rfl⟩
    rw [mkRef_id false (h.ctx.lt h2)] at h4
    cases h4
    exact ⟨ti, _, h1, h3, ⟨id, h2, rfl⟩, rfl⟩
  · rintro ⟨ti, _, h1, h3, ⟨id, h2, rfl⟩, rfl⟩
    exact ⟨id, ⟨ti, h1, h2⟩, h3, _, mkRef_id false (h.ctx.lt h2), rfl⟩
theorem ok_brOnNonNull (h : Sit E F B) {i : BitVec 32} {I : List (BitVec 32)} {c c' : List MT} :
    Ok B (visitBrOnNonNull E i) c () c' ↔
      HasTy F.C B.fr.unreachable (IdxTy F I .brOnNonNull i) c c' := by
  unfold visitBrOnNonNull IdxTy popPushLabelTypes
  vok h
  constructor
  · rintro ⟨l, h1, ⟨n, hp⟩, ⟨ys, h2⟩, c1, h3, c2, h4, rfl⟩
    rw [h2, List.dropLast_concat] at h4
    rw [h2, List.dropLast_concat]
    exact ⟨l, ys, n, hp, h1, h2, c1, h3, c2, h4, rfl⟩
  · rintro ⟨l, ys, n, hp, h1, h2, c1, h3, c2, h4, rfl⟩
    refine ⟨l, h1, ⟨n, hp⟩, ⟨ys, h2⟩, c1, h3, c2, ?_, ?_⟩
    · rw [h2, List.dropLast_concat]; exact h4
    · rw [h2, List.dropLast_concat]
theorem ok_arrayGet (h : Sit E F B) {i : BitVec 32} {I : List (BitVec 32)} {c c' : List MT} :
    Ok B (visitArrayGet E false i) c () c' ↔
      HasTy F.C B.fr.unreachable (IdxTy F I .arrayGet i) c c' := by
  unfold visitArrayGet IdxTy
  vok h
  try grind
theorem ok_arrayGetS (h : Sit E F B) {i : BitVec 32} {I : List (BitVec 32)} {c c' : List MT} :
    Ok B (visitArrayGet E true i) c () c' ↔
      HasTy F.C B.fr.unreachable (IdxTy F I .arrayGetS i) c c' := by
  unfold visitArrayGet IdxTy
  vok h
  try grind
theorem ok_arrayGetU (h : Sit E F B) {i : BitVec 32} {I : List (BitVec 32)} {c c' : List MT} :
    Ok B (visitArrayGet E true i) c () c' ↔
      HasTy F.C B.fr.unreachable (IdxTy F I .arrayGetU i) c c' := by
  unfold visitArrayGet IdxTy
  vok h
  try grind
theorem ok_memoryCopy (h : Sit E F B) {i j : BitVec 32} {c c' : List MT} :
    Ok B (visitMemoryCopy E i j) c () c' ↔
      HasTy F.C B.fr.unreachable (Idx2Ty F .memoryCopy i j) c c' := by
  unfold visitMemoryCopy Idx2Ty
  vok h
  try grind
theorem ok_structSet (h : Sit E F B) {i j : BitVec 32} {c c' : List MT} :
    Ok B (visitStructSet E i j) c () c' ↔
      HasTy F.C B.fr.unreachable (Idx2Ty F .structSet i j) c c' := by
  unfold visitStructSet Idx2Ty
  vok h
  try grind
theorem ok_arrayNewFixed (h : Sit E F B) {i j : BitVec 32} {c c' : List MT} :
    Ok B (visitArrayNewFixed E i j) c () c' ↔
      HasTy F.C B.fr.unreachable (Idx2Ty F .arrayNewFixed i j) c c' := by
  unfold visitArrayNewFixed Idx2Ty
  vok h
  try grind
theorem ok_arrayNewData (h : Sit E F B) {i j : BitVec 32} {c c' : List MT} :
    Ok B (visitArrayNewData E i j) c () c' ↔
      HasTy F.C B.fr.unreachable (Idx2Ty F .arrayNewData i j) c c' := by
  unfold visitArrayNewData Idx2Ty
  vok h
  try grind
theorem ok_arrayNewElem (h : Sit E F B) {i j : BitVec 32} {c c' : List MT} :
    Ok B (visitArrayNewElem E i j) c () c' ↔
      HasTy F.C B.fr.unreachable (Idx2Ty F .arrayNewElem i j) c c' := by
  unfold visitArrayNewElem Idx2Ty
  vok h
  try grind
theorem ok_arrayCopy (h : Sit E F B) {i j : BitVec 32} {c c' : List MT} :
    Ok B (visitArrayCopy E i j) c () c' ↔
      HasTy F.C B.fr.unreachable (Idx2Ty F .arrayCopy i j) c c' := by
  unfold visitArrayCopy Idx2Ty
  vok h
  try grind
theorem ok_arrayInitData (h : Sit E F B) {i j : BitVec 32} {c c' : List MT} :
    Ok B (visitArrayInitData E i j) c () c' ↔
      HasTy F.C B.fr.unreachable (Idx2Ty F .arrayInitData i j) c c' := by
  unfold visitArrayInitData Idx2Ty
  vok h
  try grind
theorem ok_arrayInitElem (h : Sit E F B) {i j : BitVec 32} {c c' : List MT} :
    Ok B (visitArrayInitElem E i j) c () c' ↔
      HasTy F.C B.fr.unreachable (Idx2Ty F .arrayInitElem i j) c c' := by
  unfold visitArrayInitElem Idx2Ty
  vok h
  try grind
theorem ok_tableCopy (h : Sit E F B) {i j : BitVec 32} {c c' : List MT} :
    Ok B (visitTableCopy E i j) c () c' ↔
      HasTy F.C B.fr.unreachable (Idx2Ty F .tableCopy i j) c c' := by
  unfold visitTableCopy Idx2Ty
  vok h
  try grind
theorem ok_contBind (h : Sit E F B) {i j : BitVec 32} {c c' : List MT} :
    Ok B (visitContBind E i j) c () c' ↔
      HasTy F.C B.fr.unreachable (Idx2Ty F .contBind i j) c c' := by
  unfold visitContBind Idx2Ty
  vok h
  simp only [Fn.Cont]
  constructor
  · rintro ⟨n, hn, ps, rs, hc, m, hm, ps', rs', hc', hle, hs, t, ht, c1, h1, c2, h2, t', ht', rfl⟩
    exact ⟨_, _, rs, ps', rs', t, t', ⟨n, hn, by rw [List.take_append_drop]; exact hc⟩, ⟨m, hm, hc'⟩,
      hs, ht, ht', c1, h1, c2, h2, rfl⟩
  · rintro ⟨bs, ps, rs, ps', rs', t, t', ⟨n, hn, hc⟩, ⟨m, hm, hc'⟩, hs, ht, ht', c1, h1, c2, h2, rfl⟩
    have hl : ps.length = ps'.length := hs.1.length_eq
    have hd : (bs ++ ps).length - ps'.length = bs.length := by simp [hl]
    refine ⟨n, hn, _, rs, hc, m, hm, ps', rs', hc', by simp [hl], ?_, t, ht, c1, h1, c2, ?_, t', ht',
      rfl⟩
    · rw [hd, List.drop_left]; exact hs
    · rw [hd, List.take_left]; exact h2
theorem ok_switch (h : Sit E F B) {i j : BitVec 32} {c c' : List MT} :
    Ok B (visitSwitch E i j) c () c' ↔
      HasTy F.C B.fr.unreachable (Idx2Ty F .switch i j) c c' := by
  unfold visitSwitch Idx2Ty
  vok h
  simp only [Fn.Cont, HasTy, Ctx.FuncSub]
  constructor
  · rintro ⟨n, hn, _, rs, hc, ps', ts, htag, hp', a, ⟨ys, last, rfl, hl⟩, n', hn', ps2, rs2, hc2,
      hs, t, ht, c1, h1, c2, h2, rfl⟩
    cases ps' with
    | cons => simp at hp'
    | nil =>
      refine ⟨ys, last, n', a, rs, ts, rs2, t, ⟨n, hn, hc⟩, hl, htag, hn', _, ps2,
        ⟨hc2, forall₂_flip hs.1, hs.2, ht, rfl⟩, ?_⟩
      vok h
      rw [List.dropLast_concat] at h2
      exact ⟨c1, h1, c2, h2, rfl⟩
  · rintro ⟨ys, last, n', a, rs, ts, rs2, t, ⟨n, hn, hc⟩, hl, htag, hn', _, ps2,
      ⟨hc2, hs1, hs2, ht, rfl⟩, he⟩
    simp only [List.reverse_append, List.reverse_cons, List.reverse_nil, List.nil_append,
      List.cons_append, Exec, exec_rev] at he
    obtain ⟨c1, h1, c2, h2, rfl⟩ := he
    refine ⟨n, hn, _, rs, hc, [], ts, htag, rfl, a, ⟨ys, last, rfl, hl⟩, n', hn', ps2, rs2, hc2,
      ⟨forall₂_flip hs1, hs2⟩, t, ht, c1, h1, c2, ?_, rfl⟩
    rw [List.dropLast_concat]
    exact h2
theorem ok_structGet (h : Sit E F B) {i j : BitVec 32} {c c' : List MT} :
    Ok B (visitStructGet E false i j) c () c' ↔
      HasTy F.C B.fr.unreachable (Idx2Ty F .structGet i j) c c' := by
  unfold visitStructGet Idx2Ty
  vok h
  try grind
theorem ok_structGetS (h : Sit E F B) {i j : BitVec 32} {c c' : List MT} :
    Ok B (visitStructGet E true i j) c () c' ↔
      HasTy F.C B.fr.unreachable (Idx2Ty F .structGetS i j) c c' := by
  unfold visitStructGet Idx2Ty
  vok h
  try grind
theorem ok_structGetU (h : Sit E F B) {i j : BitVec 32} {c c' : List MT} :
    Ok B (visitStructGet E true i j) c () c' ↔
      HasTy F.C B.fr.unreachable (Idx2Ty F .structGetU i j) c c' := by
  unfold visitStructGet Idx2Ty
  vok h
  try grind

end Verif.Op.View
