import Verif.Op.SoundFn
import Verif.Op.BodyLemmas
import Verif.Op.ModuleLemmas
/-! Without the feature for shared types there are no shared types. -/
namespace Verif.Op.View
open Verif.Op.Typing
open Verif.Types (AbsHeap HeapType UnpackedIndex RefType ValType)
open Verif.Instr (BlockType Operator)
open Verif.TypeList (Reaches State SrcOp)
open Verif.TypeList.Spec (Comp SubT SubFeats ValFeats)

variable {E : Env}

theorem each_ok {α : Type} {g : α → M Unit} {S S' : St} {u : Unit} : ∀ {xs : List α},
    each g xs S = (.ok u, S') → ∀ x ∈ xs, ∃ S1 S2, g x S1 = (.ok (), S2)
  | [], _, x, hx => by cases hx
  | y :: ys, h, x, hx => by
    unfold each at h
    obtain ⟨a, S1, h1, h2⟩ := bind_eq_ok h
    rcases List.mem_cons.1 hx with rfl | hx
    · exact ⟨S, S1, h1⟩
    · exact each_ok h2 x hx

/-- The type of a block has been checked. -/
theorem inline_checked {o : Operator} {S S' : St} {u : Unit} {t : ValType}
    (h : op E o S = (.ok u, S')) (ht : inlineTy o = some t) :
    ∃ u, TypeList.checkValueType E.f.types t = .ok u := by
  have key : ∀ {S S' : St} {bt : BT}, checkBlockType E (.type t) S = (.ok bt, S') →
      ∃ u, TypeList.checkValueType E.f.types t = .ok u := by
    intro S S' bt h
    cases hc : TypeList.checkValueType E.f.types t with
    | ok u => exact ⟨u, rfl⟩
    | error e =>
      exfalso
      obtain ⟨v, S1, h1, -⟩ := bind_eq_ok (m := checkValueType E t) (k := fun v => pure (BT.type v)) h
      obtain ⟨_, S2, h2, -⟩ := bind_eq_ok h1
      unfold featuresCheck at h2
      rw [hc] at h2
      cases e <;> cases h2
  unfold op at h
  obtain ⟨_, S1, -, h'⟩ := bind_eq_ok h
  unfold inlineTy at ht
  split at ht
  · cases ht
    rename_i b
    have h' : visitBlk E b (.type t) S1 = (.ok u, S') := h'
    cases b <;> (obtain ⟨bt, S1, h1, -⟩ := bind_eq_ok h'; exact key h1)
  · cases ht
    have h' : visitTryTable E (.type t) _ S1 = (.ok u, S') := h'
    obtain ⟨bt, S1, h1, -⟩ := bind_eq_ok h'
    exact key h1
  · cases ht

theorem unshared_ref {f : TypeList.Features} (hf : f.sharedEverythingThreads = false) {r : RefType}
    {u : Unit} (h : TypeList.checkRefType f r = .ok u) {a : AbsHeap} :
    r.heapType ≠ some (.abstract true a) := by
  intro hr
  unfold TypeList.checkRefType at h
  rw [TypeList.require_bind, hr] at h
  replace h := h.2
  simp only [TypeList.unwrap, TypeList.ok_bind] at h
  rw [TypeList.reqIf_ok, hf] at h
  exact absurd (h.1 trivial) (by decide)

variable {f : TypeList.Features} {ops : List TypeList.Op} {src : List SrcOp} {s : State}
  {L : List (SubT Nat)} {m : Module}

/-- No type of the list is shared. -/
theorem unshared_list (hf : f.sharedEverythingThreads = false) (hr : Reaches f ops src s)
    (hL : TypeList.View s.types L) {i : Nat} {x : SubT Nat} (hx : L[i]? = some x) :
    x.shared = false := by
  cases hs : x.shared with
  | false => rfl
  | true =>
    have := (TypeList.reaches_feats hr hL hx).2.1 hs
    rw [hf] at this
    cases this

theorem unshared_heap (hf : f.sharedEverythingThreads = false) (hr : Reaches f ops src s)
    (hL : TypeList.View s.types L) {h : Heap} (hh : ∀ a, h ≠ .abs true a) :
    (ctxOf L m).sharedHeap h = false := by
  have key : ∀ i, Option.any (·.shared) ((ctxOf L m).defs i) = false := by
    intro i
    show Option.any (·.shared) L[i]? = false
    cases hx : L[i]? with
    | none => rfl
    | some x => exact unshared_list hf hr hL hx
  cases h with
  | abs s a =>
    cases s with
    | false => rfl
    | true => exact absurd rfl (hh a)
  | concrete i => exact key i
  | exact i => exact key i

/-- Bodies accepted without shared types have none. -/
theorem unshared_body (hf : f.sharedEverythingThreads = false) (hr : Reaches f ops src s)
    (hL : TypeList.View s.types L) (hE : E.f.sharedEverythingThreads = false) {os : List Operator}
    {S S' : St} {u : Unit} (h : runOps E os S = (.ok u, S')) : UnsharedTypes (ctxOf L m) os := by
  refine ⟨fun i x ps rs hx hc t ht r hr' => ?_, fun o ho t v ht hv r hr' => ?_⟩
  · subst hr'
    obtain ⟨j, _, hj⟩ := Option.bind_eq_some_iff.1 hx
    have hfe := (TypeList.reaches_feats hr hL hj).2.2
    rw [hc] at hfe
    have hv := (hfe.1 _ ht).2
    refine unshared_heap hf hr hL fun a ha => ?_
    rw [ha] at hv
    have := hv.1 rfl
    rw [hf] at this
    cases this
  · subst hr'
    obtain ⟨S1, S2, h1⟩ := each_ok h o ho
    obtain ⟨u, h2⟩ := inline_checked h1 ht
    cases t with
    | ref r' =>
      obtain ⟨r'', ⟨h, h3, h4, -⟩, e⟩ := hv
      cases e
      refine unshared_heap hf hr hL fun a ha => ?_
      refine unshared_ref hE h2 (a := a) ?_
      rw [h3]
      rw [ha] at h4
      cases h with
      | abstract s b => cases h4; rfl
      | concrete p => cases p <;> simp [Ctx.HeapTy] at h4
      | exact p => cases p <;> simp [Ctx.HeapTy] at h4
    | _ => cases hv

end Verif.Op.View
