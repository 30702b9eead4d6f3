import Verif.TypeList.AcceptLemmas
import Verif.TypeList.Props
/-!
# Properties: recursion groups that are accepted (C60)

The converse of C41 and C43: what the rules for type definitions allow is accepted.
-/
namespace Verif.TypeList.Accept
open Verif.Types
open Spec (SubT Comp Heap Ref Val Storage Field Kind Decls CompSub FieldSub StorageSub ValSub RefSub
  Comp.kind)

variable {f : Features} {ops : List Op} {os : List SrcOp} {s : State} {L : List (SubT Nat)}

/-- **C60.** Whatever a validator with garbage collected types has seen: a recursion group that
satisfies the rules (`Addable`: scope, order, matching supertypes that are not final, shared parts
of shared types, function types under continuations, paired clauses for descriptors, enabled
proposals, depth) is added to a module that has room for it, and its types get identifiers. The
rules are checked with the group at the end of the list; if the same group is there already, its
identifiers are used. -/
theorem c60_accepts (h : Reaches f ops os s) (hf : f.gc = true) (hL : View s.types L)
    {n : Nat} {m : List Nat} (hm : s.modules[n]? = some m) {g : RecGroup} {xs : List (SubT Nat)}
    (hg : Src g xs) (hroom : L.length + xs.length ≤ 2 ^ 20)
    (hlim : m.length + xs.length ≤ maxWasmTypes) (ha : Addable f L m xs) :
    ∃ s' ids, step f s (.add n g) = .ok s' ∧ s'.modules[n]? = some (m ++ ids) ∧
      ids.length = xs.length ∧ ∀ k, k ≠ n → s'.modules[k]? = s.modules[k]? := by
  obtain ⟨G, ⟨hi, hms⟩, rfl⟩ := h.view hL
  have o : ∃ gs, ModOk G m gs := by
    rcases forall₂_get hms n with ⟨h3, _⟩ | ⟨m', gs', h3, h4, h5⟩
    · rw [h3] at hm; cases hm
    · rw [hm] at h3; cases h3; exact ⟨gs', h5⟩
  obtain ⟨gs, o⟩ := o
  rw [flat_length] at hroom
  obtain ⟨⟨T', m'⟩, he⟩ := add_ok hf hi o.lt hg hroom hlim ha
  obtain ⟨G', k, _, _, e, _⟩ := (addTypes_spec (sz := False) hi o.lt hg nofun).1 _ he
  simp only at e
  subst e
  refine ⟨⟨T', s.modules.set n (m ++ List.range' (startOf (G ++ G') k) xs.length)⟩,
    List.range' (startOf (G ++ G') k) xs.length, ?_, ?_, List.length_range', ?_⟩
  · unfold step
    simp only [hm, unwrap, ok_bind]
    rw [he]
    rfl
  · have := (List.getElem?_eq_some_iff.1 hm).1
    simp [this]
  · intro k hk
    simp only [List.getElem?_set]
    rw [if_neg (Ne.symm hk)]

/-! ## An example -/

namespace Sample
open Verif.TypeList.Sample (g x0 x1 src)

theorem add0 : ∃ s, Reaches allOn [.newModule] [.newModule] s ∧ View s.types [] ∧
    s.modules[0]? = some [] :=
  ⟨⟨.default, [[]]⟩, ⟨.cons trivial .nil, rfl⟩, ⟨.nil, by simp⟩, rfl⟩

theorem wg : withGroup [] [] [x0, x1] = [x0, x1] := rfl

/-- The group of two structures, one of which is a subtype of the other, can be added to an empty
module. -/
theorem addable : Addable allOn [] [] [x0, x1] where
  scope := by decide
  earlier := by
    intro p x hp r hr
    match p, hp with
    | 0, hp => cases hp; rcases hr with hr | hr <;> cases hr
    | 1, hp =>
      cases hp
      rcases hr with hr | hr
      · cases hr; decide
      · cases hr
  types := by
    rw [wg]
    intro i x _ hx
    match i, hx with
    | 0, hx =>
      cases hx
      refine ⟨fun j hj => (nomatch hj), fun e => (nomatch e), fun j hj => (nomatch hj),
        ⟨?_, fun j hj => (nomatch hj), fun j hj => (nomatch hj), fun j y hj => (nomatch hj)⟩,
        ?_, ?_⟩
      · simp [x0]
      · simp [x0, Spec.SubFeats, Spec.CompFeats, Spec.StorageFeats, Spec.ValFeats, Spec.RefFeats,
          allOn]
      · simp [x0]
    | 1, hx =>
      cases hx
      refine ⟨?_, fun e => (nomatch e), fun j hj => (nomatch hj),
        ⟨?_, fun j hj => (nomatch hj), fun j hj => (nomatch hj), ?_⟩, ?_, ?_⟩
      · intro j hj
        cases hj
        exact ⟨x0, rfl, rfl, rfl, .struct (.cons (.const (.val .refl)) .nil)⟩
      · simp [x1]
      · intro j y hj hy
        cases hj
        cases hy
        exact ⟨fun j hj => (nomatch hj), fun j hj => (nomatch hj), fun _ => rfl⟩
      · simp [x1, Spec.SubFeats, Spec.CompFeats, Spec.StorageFeats, Spec.ValFeats, Spec.RefFeats,
          allOn]
      · simp [x1]
  depth := by
    rw [wg]
    intro i _ hi
    match i, hi with
    | 0, _ => exact ⟨0, by omega, .top rfl rfl⟩
    | 1, _ => exact ⟨1, by omega, .sub rfl rfl (.top rfl rfl)⟩

example : ∃ s s' ids, Reaches allOn [.newModule] [.newModule] s ∧
    step allOn s (.add 0 g) = .ok s' ∧ s'.modules[0]? = some ids ∧ ids.length = 2 := by
  obtain ⟨s, h1, h2, h3⟩ := add0
  obtain ⟨s', ids, k1, k2, k3, _⟩ := c60_accepts h1 rfl h2 h3 src (by simp) (by simp [maxWasmTypes])
    addable
  exact ⟨s, s', _, h1, k1, k2, by simpa using k3⟩

end Sample

end Verif.TypeList.Accept
