import Verif.Op.Cur
/-! What the helpers of the validator do, in terms of the typing rules. -/
namespace Verif.Op.View
open Verif.Op.Typing
open Verif.Types (AbsHeap HeapType UnpackedIndex RefType ValType)
open Verif.Instr (FrameKind BlockType MemArg Catch Handle BrTable Operator)
open Verif.TypeList.Spec (Field Storage Comp SubT Decls HeapSub RefSub ValSub StorageSub)
open Verif.TypeList (DeclsOk HeapIn)

instance : LawfulMonad M := LawfulMonad.mk'
  (id_map := fun x => by
    funext S
    show (match x S with | (.ok a, S') => (.ok a, S') | (.error e, S') => (.error e, S')) = x S
    cases x S with
    | mk r S' => cases r <;> rfl)
  (pure_bind := fun _ _ => rfl)
  (bind_assoc := fun x f g => by
    funext S
    simp only [bind_def]
    cases x S with
    | mk r S' => cases r <;> rfl)

variable {α β : Type} {E : Env} {F : Fn} {B : Base}

/-- A computation that changes nothing, followed by another. -/
theorem ok_read {m : M α} [Cur m] {P : α → Prop} {c : List MT}
    (h : ∀ x c', Ok B m c x c' ↔ P x ∧ c' = c) {k : α → M β} {y : β} {S : St} :
    Run B (m >>= k) c y S ↔ ∃ x, P x ∧ Run B (k x) c y S := by
  rw [ok_bind]
  constructor
  · rintro ⟨x, c1, h1, h2⟩
    obtain ⟨hp, rfl⟩ := (h x c1).1 h1
    exact ⟨x, hp, h2⟩
  · rintro ⟨x, hp, h2⟩
    exact ⟨x, c, (h x c).2 ⟨hp, rfl⟩, h2⟩

theorem okb_require {b : Bool} {k : Unit → M β} {y : β} {c : List MT} {S : St} :
    Run B (require b >>= k) c y S ↔ b = true ∧ Run B (k ()) c y S := by
  rw [ok_bindU]; simp only [ok_require]
  constructor
  · rintro ⟨_, ⟨h, rfl⟩, h2⟩; exact ⟨h, h2⟩
  · rintro ⟨h, h2⟩; exact ⟨c, ⟨h, rfl⟩, h2⟩

theorem okb_orError {o : Option α} {k : α → M β} {y : β} {c : List MT} {S : St} :
    Run B (orError o >>= k) c y S ↔ ∃ a, o = some a ∧ Run B (k a) c y S :=
  ok_read fun _ _ => ok_orError

theorem okb_orPanic {o : Option α} {k : α → M β} {y : β} {c : List MT} {S : St} :
    Run B (orPanic o >>= k) c y S ↔ ∃ a, o = some a ∧ Run B (k a) c y S :=
  ok_read fun _ _ => ok_orPanic

theorem okb_lift {o : Except Fail α} {k : α → M β} {y : β} {c : List MT} {S : St} :
    Run B (lift o >>= k) c y S ↔ ∃ a, o = .ok a ∧ Run B (k a) c y S :=
  ok_read fun _ _ => ok_lift

theorem okb_getS {k : St → M β} {y : β} {c : List MT} {S : St} :
    Run B (getS >>= k) c y S ↔ Run B (k (st B c)) c y S := Iff.rfl

theorem okb_push {t : Val} {k : Unit → M β} {y : β} {c : List MT} {S : St} :
    Run B (push t >>= k) c y S ↔ Run B (k ()) (.known t :: c) y S := Iff.rfl

theorem okb_pushMT {t : MT} {k : Unit → M β} {y : β} {c : List MT} {S : St} :
    Run B (pushMT t >>= k) c y S ↔ Run B (k ()) (t :: c) y S := Iff.rfl

/-! ### Popping -/

theorem ok_popT (h : Sit E F B) {t : Val} {c c' : List MT} {u : Unit} :
    Ok B (popT E t) c u c' ↔ Pop F.C B.fr.unreachable t c c' := by
  unfold popT
  rw [ok_bind]
  constructor
  · rintro ⟨m, c1, h1, h2⟩
    obtain ⟨_, rfl⟩ := ok_pure.1 h2
    rcases (ok_pop h).1 h1 with ⟨rfl, hu, rfl, rfl⟩ | ⟨rfl, hc⟩
    · exact ⟨hu, rfl⟩
    · exact ⟨hc _ rfl, rfl⟩
  · intro hp
    cases c with
    | nil =>
      obtain ⟨hu, rfl⟩ := hp
      exact ⟨.bottom, [], (ok_pop h).2 (.inl ⟨rfl, hu, rfl, rfl⟩), ok_pure.2 ⟨rfl, rfl⟩⟩
    | cons m c =>
      obtain ⟨hc, rfl⟩ := hp
      exact ⟨m, c', (ok_pop h).2 (.inr ⟨rfl, fun _ ht => by cases ht; exact hc⟩),
        ok_pure.2 ⟨rfl, rfl⟩⟩

theorem okb_popT (h : Sit E F B) {t : Val} {k : Unit → M β} {y : β} {c : List MT} {S : St} :
    Run B (popT E t >>= k) c y S ↔
      ∃ c1, Pop F.C B.fr.unreachable t c c1 ∧ Run B (k ()) c1 y S := by
  rw [ok_bindU]; simp only [ok_popT h]

/-- Popping and ignoring what is popped. -/
theorem okb_pop_ (h : Sit E F B) {t : Val} {k : M β} {y : β} {c : List MT} {S : St} :
    Run B (pop E (some t) >>= fun _ => k) c y S ↔
      ∃ c1, Pop F.C B.fr.unreachable t c c1 ∧ Run B k c1 y S := by
  have : (pop E (some t) >>= fun _ => k) = (popT E t >>= fun _ => k) := by
    simp [popT]
  rw [this, okb_popT h]

theorem ok_eachPop (h : Sit E F B) {u : Unit} : ∀ {ts : List Val} {c c' : List MT},
    Ok B (each (popT E) ts) c u c' ↔ Pops F.C B.fr.unreachable ts c c'
  | [], c, c' => by
    show Ok B (Pure.pure ()) c u c' ↔ c' = c
    rw [ok_pure]; simp
  | t :: ts, c, c' => by
    show Ok B (popT E t >>= fun _ => each (popT E) ts) c u c' ↔ _
    rw [okb_popT h]
    simp only [ok_eachPop h, Pops]

theorem okb_eachPop (h : Sit E F B) {ts : List Val} {k : Unit → M β} {y : β} {c : List MT} {S : St} :
    Run B (each (popT E) ts >>= k) c y S ↔
      ∃ c1, Pops F.C B.fr.unreachable ts c c1 ∧ Run B (k ()) c1 y S := by
  rw [ok_bindU]; simp only [ok_eachPop h]

theorem ok_popAll (h : Sit E F B) {ts : List Val} {u : Unit} {c c' : List MT} :
    Ok B (popAll E ts) c u c' ↔ Pops F.C B.fr.unreachable ts.reverse c c' := ok_eachPop h

theorem okb_popAll (h : Sit E F B) {ts : List Val} {k : Unit → M β} {y : β} {c : List MT} {S : St} :
    Run B (popAll E ts >>= k) c y S ↔
      ∃ c1, Pops F.C B.fr.unreachable ts.reverse c c1 ∧ Run B (k ()) c1 y S := okb_eachPop h

theorem ok_pushAll {u : Unit} : ∀ {ts : List Val} {c c' : List MT},
    Ok B (pushAll ts) c u c' ↔ c' = pushed ts c
  | [], c, c' => by
    show Ok B (Pure.pure ()) c u c' ↔ _
    rw [ok_pure]; simp [pushed]
  | t :: ts, c, c' => by
    show Ok B (push t >>= fun _ => pushAll ts) c u c' ↔ _
    rw [okb_push, ok_pushAll]
    simp [pushed]

theorem okb_pushAll {ts : List Val} {k : Unit → M β} {y : β} {c : List MT} {S : St} :
    Run B (pushAll ts >>= k) c y S ↔ Run B (k ()) (pushed ts c) y S := by
  rw [ok_bindU]; simp only [ok_pushAll]
  constructor
  · rintro ⟨_, rfl, h⟩; exact h
  · intro h; exact ⟨_, rfl, h⟩

/-! ### Looking things up -/

theorem ok_requireAccess (h : Sit E F B) {s : Bool} {u : Unit} {c c' : List MT} :
    Ok B (requireAccess s) c u c' ↔ F.Access s ∧ c' = c := by
  unfold requireAccess
  rw [okb_getS, ok_require]
  have : (st B c).shared = F.shared := h.shared
  rw [this]
  unfold Fn.Access
  cases F.shared <;> cases s <;> simp

theorem okb_requireAccess (h : Sit E F B) {s : Bool} {k : Unit → M β} {y : β} {c : List MT} {S : St} :
    Run B (requireAccess s >>= k) c y S ↔ F.Access s ∧ Run B (k ()) c y S := by
  rw [ok_bindU]; simp only [ok_requireAccess h]
  constructor
  · rintro ⟨_, ⟨h, rfl⟩, h2⟩; exact ⟨h, h2⟩
  · rintro ⟨h, h2⟩; exact ⟨c, ⟨h, rfl⟩, h2⟩

theorem okb_subTypeAt (h : Sit E F B) {i : BitVec 32} {k : SubT Nat → M β} {y : β}
    {c : List MT} {S : St} :
    Run B (subTypeAt E i >>= k) c y S ↔ ∃ x, F.C.type i = some x ∧ Run B (k x) c y S := by
  unfold subTypeAt
  rw [okb_orError, h.faith.subType]

theorem ok_funcTypeAt (h : Sit E F B) {i : BitVec 32} {x : FuncTy} {c c' : List MT} :
    Ok B (funcTypeAt E i) c x c' ↔ (∃ ps rs, F.Func i ps rs ∧ x = ⟨ps, rs⟩) ∧ c' = c := by
  unfold funcTypeAt
  rw [okb_subTypeAt h]
  unfold Fn.Func Fn.Comp
  constructor
  · rintro ⟨sub, hs, h2⟩
    split at h2
    · next ps rs hc =>
        rw [okb_requireAccess h, ok_pure] at h2
        exact ⟨⟨ps, rs, ⟨sub, hs, hc, h2.1⟩, h2.2.1⟩, h2.2.2⟩
    · exact (ok_fail.1 h2).elim
  · rintro ⟨⟨ps, rs, ⟨sub, hs, hc, ha⟩, rfl⟩, rfl⟩
    refine ⟨sub, hs, ?_⟩
    split
    · next ps' rs' hc' =>
        rw [hc] at hc'
        cases hc'
        rw [okb_requireAccess h, ok_pure]
        exact ⟨ha, rfl, rfl⟩
    · next hn => exact absurd hc (hn _ _)

theorem okb_funcTypeAt (h : Sit E F B) {i : BitVec 32} {k : FuncTy → M β} {y : β}
    {c : List MT} {S : St} :
    Run B (funcTypeAt E i >>= k) c y S ↔
      ∃ ps rs, F.Func i ps rs ∧ Run B (k ⟨ps, rs⟩) c y S := by
  rw [ok_read fun _ _ => ok_funcTypeAt h]
  constructor
  · rintro ⟨x, ⟨ps, rs, h1, rfl⟩, h2⟩; exact ⟨ps, rs, h1, h2⟩
  · rintro ⟨ps, rs, h1, h2⟩; exact ⟨_, ⟨ps, rs, h1, rfl⟩, h2⟩

theorem ok_structTypeAt (h : Sit E F B) {i : BitVec 32} {x : List (Field Nat)} {c c' : List MT} :
    Ok B (structTypeAt E i) c x c' ↔ F.Comp i (.struct x) ∧ c' = c := by
  unfold structTypeAt
  rw [okb_subTypeAt h]
  unfold Fn.Comp
  constructor
  · rintro ⟨sub, hs, h2⟩
    split at h2
    · next fs hc =>
        rw [okb_requireAccess h, ok_pure] at h2
        obtain ⟨ha, rfl, rfl⟩ := h2
        exact ⟨⟨sub, hs, hc, ha⟩, rfl⟩
    · exact (ok_fail.1 h2).elim
  · rintro ⟨⟨sub, hs, hc, ha⟩, rfl⟩
    refine ⟨sub, hs, ?_⟩
    split
    · next fs' hc' =>
        rw [hc] at hc'
        cases hc'
        rw [okb_requireAccess h, ok_pure]
        exact ⟨ha, rfl, rfl⟩
    · next hn => exact absurd hc (hn _)

theorem ok_arrayTypeAt (h : Sit E F B) {i : BitVec 32} {x : Field Nat} {c c' : List MT} :
    Ok B (arrayTypeAt E i) c x c' ↔ F.Comp i (.array x) ∧ c' = c := by
  unfold arrayTypeAt
  rw [okb_subTypeAt h]
  unfold Fn.Comp
  constructor
  · rintro ⟨sub, hs, h2⟩
    split at h2
    · next fs hc =>
        rw [okb_requireAccess h, ok_pure] at h2
        obtain ⟨ha, rfl, rfl⟩ := h2
        exact ⟨⟨sub, hs, hc, ha⟩, rfl⟩
    · exact (ok_fail.1 h2).elim
  · rintro ⟨⟨sub, hs, hc, ha⟩, rfl⟩
    refine ⟨sub, hs, ?_⟩
    split
    · next fs' hc' =>
        rw [hc] at hc'
        cases hc'
        rw [okb_requireAccess h, ok_pure]
        exact ⟨ha, rfl, rfl⟩
    · next hn => exact absurd hc (hn _)

theorem ok_contTypeAt (h : Sit E F B) {i : BitVec 32} {x : Nat} {c c' : List MT} :
    Ok B (contTypeAt E i) c x c' ↔ F.Comp i (.cont x) ∧ c' = c := by
  unfold contTypeAt
  rw [okb_subTypeAt h]
  unfold Fn.Comp
  constructor
  · rintro ⟨sub, hs, h2⟩
    split at h2
    · next fs hc =>
        rw [okb_requireAccess h, ok_pure] at h2
        obtain ⟨ha, rfl, rfl⟩ := h2
        exact ⟨⟨sub, hs, hc, ha⟩, rfl⟩
    · exact (ok_fail.1 h2).elim
  · rintro ⟨⟨sub, hs, hc, ha⟩, rfl⟩
    refine ⟨sub, hs, ?_⟩
    split
    · next fs' hc' =>
        rw [hc] at hc'
        cases hc'
        rw [okb_requireAccess h, ok_pure]
        exact ⟨ha, rfl, rfl⟩
    · next hn => exact absurd hc (hn _)

theorem okb_structTypeAt (h : Sit E F B) {i : BitVec 32} {k : List (Field Nat) → M β} {y : β}
    {c : List MT} {S : St} :
    Run B (structTypeAt E i >>= k) c y S ↔ ∃ fs, F.Comp i (.struct fs) ∧ Run B (k fs) c y S :=
  ok_read fun _ _ => ok_structTypeAt h
theorem okb_arrayTypeAt (h : Sit E F B) {i : BitVec 32} {k : Field Nat → M β} {y : β}
    {c : List MT} {S : St} :
    Run B (arrayTypeAt E i >>= k) c y S ↔ ∃ f, F.Comp i (.array f) ∧ Run B (k f) c y S :=
  ok_read fun _ _ => ok_arrayTypeAt h
theorem okb_contTypeAt (h : Sit E F B) {i : BitVec 32} {k : Nat → M β} {y : β}
    {c : List MT} {S : St} :
    Run B (contTypeAt E i >>= k) c y S ↔ ∃ n, F.Comp i (.cont n) ∧ Run B (k n) c y S :=
  ok_read fun _ _ => ok_contTypeAt h

theorem ok_structFieldAt (h : Sit E F B) {i j : BitVec 32} {x : Field Nat} {c c' : List MT} :
    Ok B (structFieldAt E i j) c x c' ↔ F.Field i j x ∧ c' = c := by
  unfold structFieldAt Fn.Field
  rw [okb_structTypeAt h]
  simp only [ok_orError]
  constructor
  · rintro ⟨fs, h1, h2, h3⟩; exact ⟨⟨fs, h1, h2⟩, h3⟩
  · rintro ⟨⟨fs, h1, h2⟩, h3⟩; exact ⟨fs, h1, h2, h3⟩
theorem okb_structFieldAt (h : Sit E F B) {i j : BitVec 32} {k : Field Nat → M β} {y : β}
    {c : List MT} {S : St} :
    Run B (structFieldAt E i j >>= k) c y S ↔ ∃ f, F.Field i j f ∧ Run B (k f) c y S :=
  ok_read fun _ _ => ok_structFieldAt h

theorem okb_mutableStructFieldAt (h : Sit E F B) {i j : BitVec 32} {k : Field Nat → M β} {y : β}
    {c : List MT} {S : St} : Run B (mutableStructFieldAt E i j >>= k) c y S ↔
      ∃ f, F.Field i j f ∧ f.mutable = true ∧ Run B (k f) c y S := by
  unfold mutableStructFieldAt
  simp only [bind_assoc, pure_bind, okb_structFieldAt h, okb_require]
theorem okb_mutableArrayTypeAt (h : Sit E F B) {i : BitVec 32} {k : Field Nat → M β} {y : β}
    {c : List MT} {S : St} : Run B (mutableArrayTypeAt E i >>= k) c y S ↔
      ∃ f, F.Comp i (.array f) ∧ f.mutable = true ∧ Run B (k f) c y S := by
  unfold mutableArrayTypeAt
  simp only [bind_assoc, pure_bind, okb_arrayTypeAt h, okb_require]

theorem ok_funcTypeOfContType (h : Sit E F B) {n : Nat} {x : FuncTy} {c c' : List MT} :
    Ok B (funcTypeOfContType E n) c x c' ↔
      (∃ ps rs, F.C.ContAt n ps rs ∧ x = ⟨ps, rs⟩) ∧ c' = c := by
  unfold funcTypeOfContType Ctx.ContAt
  rw [okb_orPanic, h.faith.subTypeId]
  constructor
  · rintro ⟨sub, hs, h2⟩
    split at h2
    · next ps rs hc =>
        rw [ok_pure] at h2
        exact ⟨⟨ps, rs, ⟨sub, hs, hc⟩, h2.1⟩, h2.2⟩
    · exact (ok_fail.1 h2).elim
  · rintro ⟨⟨ps, rs, ⟨sub, hs, hc⟩, rfl⟩, rfl⟩
    refine ⟨sub, hs, ?_⟩
    split
    · next ps' rs' hc' =>
        rw [hc] at hc'
        cases hc'
        exact ok_pure.2 ⟨rfl, rfl⟩
    · next hn => exact absurd hc (hn _ _)
theorem okb_funcTypeOfContType (h : Sit E F B) {n : Nat} {k : FuncTy → M β} {y : β}
    {c : List MT} {S : St} :
    Run B (funcTypeOfContType E n >>= k) c y S ↔
      ∃ ps rs, F.C.ContAt n ps rs ∧ Run B (k ⟨ps, rs⟩) c y S := by
  rw [ok_read fun _ _ => ok_funcTypeOfContType h]
  constructor
  · rintro ⟨x, ⟨ps, rs, h1, rfl⟩, h2⟩; exact ⟨ps, rs, h1, h2⟩
  · rintro ⟨ps, rs, h1, h2⟩; exact ⟨_, ⟨ps, rs, h1, rfl⟩, h2⟩

theorem okb_contAtId (h : Sit E F B) {n : Nat} {k : Nat → M β} {y : β} {c : List MT} {S : St} :
    Run B (contAtId E n >>= k) c y S ↔
      ∃ n', (∃ s, F.C.defs n = some s ∧ s.comp = .cont n') ∧ Run B (k n') c y S := by
  refine ok_read fun x c'' => ?_
  unfold contAtId
  rw [okb_orPanic, h.faith.subTypeId]
  constructor
  · rintro ⟨sub, hs, h2⟩
    split at h2
    · next hc =>
        obtain ⟨rfl, h3⟩ := ok_pure.1 h2
        exact ⟨⟨sub, hs, hc⟩, h3⟩
    · exact (ok_fail.1 h2).elim
  · rintro ⟨⟨sub, hs, hc⟩, rfl⟩
    refine ⟨sub, hs, ?_⟩
    split
    · next hc' =>
        rw [hc] at hc'
        cases hc'
        exact ok_pure.2 ⟨rfl, rfl⟩
    · next hn => exact absurd hc (hn _)

theorem okb_tagAt (h : Sit E F B) {i : BitVec 32} {k : FuncTy → M β} {y : β} {c : List MT} {S : St} :
    Run B (tagAt E i >>= k) c y S ↔
      ∃ ps rs, F.C.tags[i.toNat]? = some (ps, rs) ∧ Run B (k ⟨ps, rs⟩) c y S := by
  unfold tagAt
  rw [okb_orError, h.faith.tag]
  constructor
  · rintro ⟨x, h1, h2⟩
    obtain ⟨⟨ps, rs⟩, h4, rfl⟩ := Option.map_eq_some_iff.1 h1
    exact ⟨ps, rs, h4, h2⟩
  · rintro ⟨ps, rs, h1, h2⟩
    exact ⟨_, by rw [h1]; rfl, h2⟩

theorem okb_exceptionTagAt (h : Sit E F B) {i : BitVec 32} {k : FuncTy → M β} {y : β}
    {c : List MT} {S : St} : Run B (exceptionTagAt E i >>= k) c y S ↔
      ∃ ps, F.C.Exn i ps ∧ Run B (k ⟨ps, []⟩) c y S := by
  unfold exceptionTagAt Ctx.Exn
  simp only [bind_assoc, pure_bind, okb_tagAt h, okb_require]
  constructor
  · rintro ⟨ps, rs, h1, h2, h3⟩
    cases rs with
    | nil => exact ⟨ps, h1, h3⟩
    | cons => simp at h2
  · rintro ⟨ps, h1, h2⟩; exact ⟨ps, [], h1, rfl, h2⟩

theorem okb_globalTypeAt (h : Sit E F B) {i : BitVec 32} {k : GlobalTy → M β} {y : β}
    {c : List MT} {S : St} : Run B (globalTypeAt E i >>= k) c y S ↔
      ∃ g, F.Global i g ∧ Run B (k ⟨g.content, g.mutable, g.shared⟩) c y S := by
  unfold globalTypeAt Fn.Global
  simp only [bind_assoc, pure_bind, okb_orError, okb_requireAccess h, h.faith.global]
  constructor
  · rintro ⟨x, h1, h2, h3⟩
    obtain ⟨g, h4, rfl⟩ := Option.map_eq_some_iff.1 h1
    exact ⟨g, ⟨h4, h2⟩, h3⟩
  · rintro ⟨g, ⟨h1, h2⟩, h3⟩
    exact ⟨_, by rw [h1]; rfl, h2, h3⟩

theorem okb_tableTypeAt (h : Sit E F B) {i : BitVec 32} {k : TableTy → M β} {y : β}
    {c : List MT} {S : St} : Run B (tableTypeAt E i >>= k) c y S ↔
      ∃ t, F.Table i t ∧ Run B (k ⟨t.elem, t.is64, t.shared⟩) c y S := by
  unfold tableTypeAt Fn.Table
  simp only [bind_assoc, pure_bind, okb_orError, okb_requireAccess h, h.faith.table]
  constructor
  · rintro ⟨x, h1, h2, h3⟩
    obtain ⟨g, h4, rfl⟩ := Option.map_eq_some_iff.1 h1
    exact ⟨g, ⟨h4, h2⟩, h3⟩
  · rintro ⟨g, ⟨h1, h2⟩, h3⟩
    exact ⟨_, by rw [h1]; rfl, h2, h3⟩

theorem okb_elementTypeAt (h : Sit E F B) {i : BitVec 32} {k : Ref → M β} {y : β}
    {c : List MT} {S : St} : Run B (elementTypeAt E i >>= k) c y S ↔
      ∃ e, F.C.elems[i.toNat]? = some e ∧ Run B (k e) c y S := by
  unfold elementTypeAt
  rw [okb_orError, h.faith.elem]

theorem indexType_eq (b : Bool) : indexType b = addr b := by cases b <;> rfl

theorem okb_checkMemoryIndex (h : Sit E F B) {i : BitVec 32} {k : Val → M β} {y : β}
    {c : List MT} {S : St} : Run B (checkMemoryIndex E i >>= k) c y S ↔
      ∃ m, F.C.mems[i.toNat]? = some m ∧ Run B (k (addr m)) c y S := by
  unfold checkMemoryIndex
  simp only [bind_assoc, pure_bind, okb_orError, h.faith.memory, indexType_eq]

theorem ok_checkDataSegment (h : Sit E F B) {i : BitVec 32} {u : Unit} {c c' : List MT} :
    Ok B (checkDataSegment E i) c u c' ↔ i.toNat < F.C.datas ∧ c' = c := by
  unfold checkDataSegment
  rw [okb_orError, ← h.faith.data]
  simp only [ok_require, decide_eq_true_eq]
  constructor
  · rintro ⟨n, h1, h2, h3⟩; exact ⟨⟨n, h1, h2⟩, h3⟩
  · rintro ⟨⟨n, h1, h2⟩, h3⟩; exact ⟨n, h1, h2, h3⟩
theorem okb_checkDataSegment (h : Sit E F B) {i : BitVec 32} {k : Unit → M β} {y : β}
    {c : List MT} {S : St} : Run B (checkDataSegment E i >>= k) c y S ↔
      i.toNat < F.C.datas ∧ Run B (k ()) c y S := by
  rw [ok_read fun x c'' => ok_checkDataSegment h]
  constructor
  · rintro ⟨_, h2⟩; exact h2
  · intro h2; exact ⟨(), h2⟩

/-! ### Types -/

theorem mkRef_id (n : Bool) {i : Nat} (h : i < 2 ^ 20) :
    mkRef n (.concrete i) = some ⟨n, .concrete i⟩ := by
  simp only [mkRef, if_pos h]
theorem mkRef_exact (n : Bool) {i : Nat} (h : i < 2 ^ 20) :
    mkRef n (.exact i) = some ⟨n, .exact i⟩ := by
  simp only [mkRef, if_pos h]

theorem CtxOk.lt {C : Ctx} (h : CtxOk C) {i : BitVec 32} {id : Nat}
    (hi : C.types[i.toNat]? = some id) : id < 2 ^ 20 :=
  (h.types id (List.mem_of_getElem? hi)).2

/-- A heap type of the module is one that references can have. -/
theorem heapTy_mkRef {C : Ctx} (h : CtxOk C) {x : HeapType} {y : Heap} (hx : C.HeapTy x y)
    (n : Bool) : mkRef n y = some ⟨n, y⟩ := by
  cases x with
  | abstract s a => cases hx; rfl
  | concrete i =>
    cases i with
    | module i => obtain ⟨id, hi, rfl⟩ := hx; exact mkRef_id n (h.lt hi)
    | recGroup i => cases hx
    | id i => cases hx
  | exact i =>
    cases i with
    | module i => obtain ⟨id, hi, rfl⟩ := hx; exact mkRef_exact n (h.lt hi)
    | recGroup i => cases hx
    | id i => cases hx

theorem okb_checkHeapType (h : Sit E F B) {x : HeapType} {k : Heap → M β} {y : β}
    {c : List MT} {S : St} : Run B (lift (E.R.checkHeapType x) >>= k) c y S ↔
      ∃ t, F.C.HeapTy x t ∧ Run B (k t) c y S := by
  rw [okb_lift]; simp only [h.faith.heap]

/-- The reference type for a type index, checked. -/
theorem okb_concrete (h : Sit E F B) {i : BitVec 32} {n : Bool} {k : Ref → M β} {y : β}
    {c : List MT} {S : St} :
    Run B (checkConcrete E i >>= fun t => orError (mkRef n t) >>= k) c y S ↔
      ∃ id, F.C.types[i.toNat]? = some id ∧ Run B (k ⟨n, .concrete id⟩) c y S := by
  unfold checkConcrete
  rw [okb_checkHeapType h]
  simp only [Ctx.HeapTy, okb_orError]
  constructor
  · rintro ⟨t, ⟨id, hi, rfl⟩, r, hr, h2⟩
    rw [mkRef_id n (h.ctx.lt hi)] at hr
    cases hr
    exact ⟨id, hi, h2⟩
  · rintro ⟨id, hi, h2⟩
    exact ⟨_, ⟨id, hi, rfl⟩, _, mkRef_id n (h.ctx.lt hi), h2⟩

theorem ok_pushConcreteRef (h : Sit E F B) {i : BitVec 32} {n : Bool} {u : Unit}
    {c c' : List MT} : Ok B (pushConcreteRef E n i) c u c' ↔
      ∃ t, F.C.IdxRef n i t ∧ c' = .known t :: c := by
  unfold pushConcreteRef Ctx.IdxRef
  rw [okb_concrete h]
  simp only [ok_pushRef]
  constructor
  · rintro ⟨id, h1, h2⟩; exact ⟨_, ⟨id, h1, rfl⟩, h2⟩
  · rintro ⟨_, ⟨id, h1, rfl⟩, h2⟩; exact ⟨id, h1, h2⟩

theorem ok_pushExactRefIfAvailable (h : Sit E F B) {i : BitVec 32} {n : Bool} {u : Unit}
    {c c' : List MT} : Ok B (pushExactRefIfAvailable E n i) c u c' ↔
      ∃ t, F.C.IdxRef n i t ∧ c' = .known t :: c := by
  unfold pushExactRefIfAvailable
  rw [h.full, if_neg (by decide), ok_pushConcreteRef h]

theorem okb_popConcreteRef (h : Sit E F B) {i : BitVec 32} {n : Bool} {k : M β} {y : β}
    {c : List MT} {S : St} : Run B (popConcreteRef E n i >>= fun _ => k) c y S ↔
      ∃ t, F.C.IdxRef n i t ∧ ∃ c1, Pop F.C B.fr.unreachable t c c1 ∧ Run B k c1 y S := by
  unfold popConcreteRef Ctx.IdxRef
  rw [bind_assoc]
  simp only [bind_assoc]
  rw [okb_concrete h]
  simp only [okb_pop_ h]
  constructor
  · rintro ⟨id, h1, h2⟩; exact ⟨_, ⟨id, h1, rfl⟩, h2⟩
  · rintro ⟨_, ⟨id, h1, rfl⟩, h2⟩; exact ⟨id, h1, h2⟩

theorem ok_checkRefType (h : Sit E F B) {r : RefType} {x : Ref} {c c' : List MT} :
    Ok B (checkRefType E r) c x c' ↔ F.C.RefTy r x ∧ c' = c := by
  unfold checkRefType Ctx.RefTy
  rw [okb_orPanic]
  simp only [okb_checkHeapType h, ok_orPanic]
  constructor
  · rintro ⟨a, h1, t, h2, h3, h4⟩
    rw [heapTy_mkRef h.ctx h2] at h3
    cases h3
    exact ⟨⟨a, h1, h2, rfl⟩, h4⟩
  · rintro ⟨⟨a, h1, h2, h3⟩, h4⟩
    refine ⟨a, h1, x.heap, h2, ?_, h4⟩
    rw [heapTy_mkRef h.ctx h2, ← h3]
theorem okb_checkRefType (h : Sit E F B) {r : RefType} {k : Ref → M β} {y : β} {c : List MT} {S : St} :
    Run B (checkRefType E r >>= k) c y S ↔ ∃ x, F.C.RefTy r x ∧ Run B (k x) c y S :=
  ok_read fun _ _ => ok_checkRefType h

/-! ### Labels and results -/

theorem Func.unique {i : BitVec 32} {ps rs ps' rs' : List V} (h : F.Func i ps rs)
    (h' : F.Func i ps' rs') : ps = ps' ∧ rs = rs' := by
  obtain ⟨x, hx, hc, _⟩ := h
  obtain ⟨x', hx', hc', _⟩ := h'
  rw [hx] at hx'
  cases hx'
  rw [hc] at hc'
  cases hc'
  exact ⟨rfl, rfl⟩

theorem BTIs.unique {t : BT} {ps rs ps' rs' : List V} (h : BTIs F t ps rs)
    (h' : BTIs F t ps' rs') : ps = ps' ∧ rs = rs' := by
  cases t with
  | empty => exact ⟨h.1.trans h'.1.symm, h.2.trans h'.2.symm⟩
  | type t => exact ⟨h.1.trans h'.1.symm, h.2.trans h'.2.symm⟩
  | func i => exact Func.unique h h'

theorem ok_params (h : Sit E F B) {t : BT} {x : List Val} {c c' : List MT} :
    Ok B (params E t) c x c' ↔ (∃ rs, BTIs F t x rs) ∧ c' = c := by
  cases t with
  | empty => simp [params, ok_pure, BTIs]
  | type t => simp [params, ok_pure, BTIs]
  | func i =>
    simp only [params, okb_funcTypeAt h, ok_pure, BTIs]
    constructor
    · rintro ⟨ps, rs, h1, rfl, rfl⟩; exact ⟨⟨rs, h1⟩, rfl⟩
    · rintro ⟨⟨rs, h1⟩, rfl⟩; exact ⟨x, rs, h1, rfl, rfl⟩
theorem ok_results (h : Sit E F B) {t : BT} {x : List Val} {c c' : List MT} :
    Ok B (results E t) c x c' ↔ (∃ ps, BTIs F t ps x) ∧ c' = c := by
  cases t with
  | empty => simp [results, ok_pure, BTIs]
  | type t => simp [results, ok_pure, BTIs]
  | func i =>
    simp only [results, okb_funcTypeAt h, ok_pure, BTIs]
    constructor
    · rintro ⟨ps, rs, h1, rfl, rfl⟩; exact ⟨⟨ps, h1⟩, rfl⟩
    · rintro ⟨⟨ps, h1⟩, rfl⟩; exact ⟨ps, x, h1, rfl, rfl⟩
theorem okb_params (h : Sit E F B) {t : BT} {k : List Val → M β} {y : β} {c : List MT} {S : St} :
    Run B (params E t >>= k) c y S ↔ ∃ ps, (∃ rs, BTIs F t ps rs) ∧ Run B (k ps) c y S :=
  ok_read fun _ _ => ok_params h
theorem okb_results (h : Sit E F B) {t : BT} {k : List Val → M β} {y : β} {c : List MT} {S : St} :
    Run B (results E t >>= k) c y S ↔ ∃ rs, (∃ ps, BTIs F t ps rs) ∧ Run B (k rs) c y S :=
  ok_read fun _ _ => ok_results h

theorem forall₂_getElem {γ δ : Type} {P : γ → δ → Prop} : ∀ {xs : List γ} {ys : List δ},
    List.Forall₂ P xs ys → ∀ n : Nat, (∀ x, xs[n]? = some x → ∃ y, ys[n]? = some y ∧ P x y) ∧
      (∀ y, ys[n]? = some y → ∃ x, xs[n]? = some x ∧ P x y)
  | [], [], .nil, n => by simp
  | x :: xs, y :: ys, .cons h hs, 0 => by simp [h]
  | x :: xs, y :: ys, .cons h hs, n + 1 => by simpa using forall₂_getElem hs n

theorem ok_jump (h : Sit E F B) {d : BitVec 32} {x : BT × FrameKind} {c c' : List MT} :
    Ok B (jump d) c x c' ↔
      (∃ fr, (B.fr :: B.frs)[d.toNat]? = some fr ∧ x = (fr.blockType, fr.kind)) ∧ c' = c := by
  unfold jump
  rw [okb_getS]
  show Ok B (if (B.fr :: B.frs).isEmpty = true then _ else
    orError (B.fr :: B.frs)[d.toNat]? >>= fun fr => Pure.pure (fr.blockType, fr.kind)) c x c' ↔ _
  rw [if_neg (by simp), okb_orError]
  simp only [ok_pure]
  constructor
  · rintro ⟨fr, h1, h2, h3⟩; exact ⟨⟨fr, h1, h2⟩, h3⟩
  · rintro ⟨⟨fr, h1, h2⟩, h3⟩; exact ⟨fr, h1, h2, h3⟩

/-- The types of a label. -/
theorem ok_jumpTypes (h : Sit E F B) {d : BitVec 32} {x : List Val} {c c' : List MT} :
    Ok B (jumpTypes E d) c x c' ↔
      (∃ l, F.labels[d.toNat]? = some l ∧ x = l.types) ∧ c' = c := by
  have hl := forall₂_getElem h.labels d.toNat
  have hty : ∀ fr l, FrameIs F fr l → ∀ x c', (Ok B (labelTypes E fr.blockType fr.kind) c x c' ↔
      x = l.types ∧ c' = c) := by
    rintro fr l ⟨ps, rs, hbt, ht, -⟩ x c'
    by_cases hk : fr.kind = .loop
    · rw [if_pos hk] at ht
      rw [hk, labelTypes, ok_params h, ht]
      constructor
      · rintro ⟨⟨rs', h1⟩, h2⟩; exact ⟨(BTIs.unique h1 hbt).1, h2⟩
      · rintro ⟨rfl, h2⟩; exact ⟨⟨rs, hbt⟩, h2⟩
    · rw [if_neg hk] at ht
      have : labelTypes E fr.blockType fr.kind = results E fr.blockType := by
        cases hk' : fr.kind with
        | loop => exact absurd hk' hk
        | _ => rfl
      rw [this, ok_results h, ht]
      constructor
      · rintro ⟨⟨rs', h1⟩, h2⟩; exact ⟨(BTIs.unique h1 hbt).2, h2⟩
      · rintro ⟨rfl, h2⟩; exact ⟨⟨ps, hbt⟩, h2⟩
  unfold jumpTypes
  rw [ok_read fun _ _ => ok_jump h]
  constructor
  · rintro ⟨⟨a, b⟩, ⟨fr, hfr, heq⟩, h2⟩
    cases heq
    obtain ⟨l, hl1, hl2⟩ := hl.1 fr hfr
    obtain ⟨h3, h4⟩ := (hty fr l hl2 x c').1 h2
    exact ⟨⟨l, hl1, h3⟩, h4⟩
  · rintro ⟨⟨l, hl1, h3⟩, h4⟩
    obtain ⟨fr, hfr, hl2⟩ := hl.2 l hl1
    exact ⟨_, ⟨fr, hfr, rfl⟩, (hty fr l hl2 x c').2 ⟨h3, h4⟩⟩
theorem okb_jumpTypes (h : Sit E F B) {d : BitVec 32} {k : List Val → M β} {y : β}
    {c : List MT} {S : St} : Run B (jumpTypes E d >>= k) c y S ↔
      ∃ l, F.labels[d.toNat]? = some l ∧ Run B (k l.types) c y S := by
  rw [ok_read fun _ _ => ok_jumpTypes h]
  constructor
  · rintro ⟨x, ⟨l, h1, rfl⟩, h2⟩; exact ⟨l, h1, h2⟩
  · rintro ⟨l, h1, h2⟩; exact ⟨_, ⟨l, h1, rfl⟩, h2⟩

theorem ok_functionResults (h : Sit E F B) {x : List Val} {c c' : List MT} :
    Ok B (functionResults E) c x c' ↔ x = F.results ∧ c' = c := by
  unfold functionResults
  obtain ⟨fr, ps, hfr, hbt⟩ := h.results
  rw [okb_getS]
  show Ok B (orPanic (B.fr :: B.frs).getLast? >>= fun fr => results E fr.blockType) c x c' ↔ _
  rw [okb_orPanic, hfr]
  simp only [ok_results h]
  constructor
  · rintro ⟨fr', h1, ⟨ps', h2⟩, h3⟩
    cases h1
    exact ⟨(BTIs.unique h2 hbt).2, h3⟩
  · rintro ⟨rfl, h3⟩
    exact ⟨fr, rfl, ⟨ps, hbt⟩, h3⟩
theorem okb_functionResults (h : Sit E F B) {k : List Val → M β} {y : β} {c : List MT} {S : St} :
    Run B (functionResults E >>= k) c y S ↔ Run B (k F.results) c y S := by
  rw [ok_read fun _ _ => ok_functionResults h]
  simp

end Verif.Op.View
