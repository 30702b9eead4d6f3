import Verif.Topo.Lemmas
/-
Property C32: `toposort` is a correct, cycle-detecting, source-order-stable topological sort.
-/
namespace Verif.Topo.Props

open Verif.Topo Verif.Topo.Spec

variable {α σ : Type} [DecidableEq α]

/-- C32: sorting succeeds exactly when every dependency exists and there is no cycle. -/
theorem c32_succeeds_iff (deps : Deps α σ) (hwf : WF deps) :
    (∃ order, toposort deps = .ok order) ↔ Closed deps ∧ Acyclic deps := by
  constructor
  · rintro ⟨order, ho⟩
    by_cases hc : Closed deps
    · refine ⟨hc, ?_⟩
      rcases toposort_found hwf (closed_iff.mp hc) with ⟨o, h1, h2⟩ | ⟨_, _, _, _, _, _, _, h⟩
      · exact acyclic_of_stable h2
      · rw [ho] at h; cases h
    · obtain ⟨e, he⟩ := missing_of_not_closed hc
      rw [toposort_missing he] at ho
      cases ho
  · rintro ⟨hc, ha⟩
    rcases toposort_found hwf (closed_iff.mp hc) with ⟨o, h1, h2⟩ | ⟨_, _, _, _, _, ⟨z, _, hz⟩, _, _⟩
    · exact ⟨o, h1⟩
    · exact absurd hz (ha z)

/-- C32: the order returned lists every item once, after its dependencies, and always picks the
earliest declared item that is ready. -/
theorem c32_order (deps : Deps α σ) (hwf : WF deps) (order : List α)
    (h : toposort deps = .ok order) : SourceStable deps order := by
  have hc := ((c32_succeeds_iff deps hwf).mp ⟨order, h⟩).1
  rcases toposort_found hwf (closed_iff.mp hc) with ⟨o, h1, h2⟩ | ⟨_, _, _, _, _, _, _, h'⟩
  · rw [h] at h1; cases h1; exact h2
  · rw [h] at h'; cases h'

/-- C32: there is only one such order, so the result is a function of the declarations: two
dependency lists of the items that make the same items ready give the same order. -/
theorem c32_order_unique (deps : Deps α σ) (hwf : WF deps) (order order' : List α)
    (h : SourceStable deps order) (h' : SourceStable deps order') : order = order' := by
  have hlen : order.length = order'.length := (h.perm.trans h'.perm.symm).length_eq
  have key : ∀ (n : Nat), order.take n = order'.take n := by
    intro n
    induction n with
    | zero => simp
    | succ n ih =>
      by_cases hn : n < order.length
      · have hn' : n < order'.length := by omega
        have e1 : order = order.take n ++ order[n] :: order.drop (n + 1) := by simp
        have e2 : order' = order.take n ++ order'[n] :: order'.drop (n + 1) := by
          rw [ih]; simp
        have r1 := h.ready _ _ _ e1
        have r2 := h'.ready _ _ _ e2
        have : order[n] = order'[n] := by
          by_contra hne
          obtain ⟨i, j, hij, hi, hj⟩ := h.first _ _ _ e1 _ r2 (Ne.symm hne)
          obtain ⟨i', j', hij', hi', hj'⟩ := h'.first _ _ _ e2 _ r1 hne
          have a := keys_inj hwf hi hj'
          have b := keys_inj hwf hj hi'
          omega
        rw [← List.take_append_getElem hn, ← List.take_append_getElem hn', ih, this]
      · rw [List.take_of_length_le (by omega), List.take_of_length_le (by omega)]
        rw [List.take_of_length_le (by omega), List.take_of_length_le (by omega)] at ih
        exact ih
  have := key order.length
  rw [List.take_length, hlen, List.take_length] at this
  exact this

/-- C32: a missing item is reported exactly when there is one, and it is the first one. -/
theorem c32_missing (deps : Deps α σ) (hwf : WF deps) (name : α) (span : σ) :
    toposort deps = .itemNotFound name span ↔ FirstMissing deps ⟨name, span⟩ := by
  constructor
  · intro h
    by_cases hc : Closed deps
    · rcases toposort_found hwf (closed_iff.mp hc) with ⟨o, h1, _⟩ | ⟨_, _, _, _, _, _, _, h'⟩
      · rw [h] at h1; cases h1
      · rw [h] at h'; cases h'
    · obtain ⟨e, he⟩ := missing_of_not_closed hc
      have := toposort_missing he
      rw [h] at this
      cases this
      exact he
  · exact toposort_missing

/-- C32: a cycle is reported exactly when nothing is missing and there is a cycle, and the edge
reported leads from an item on (or depending on) a cycle to another such item. -/
theorem c32_cycle (deps : Deps α σ) (hwf : WF deps) :
    ((∃ name span, toposort deps = .typeCycle name span) ↔ Closed deps ∧ ¬ Acyclic deps) ∧
    ∀ name span, toposort deps = .typeCycle name span →
      ∃ x es, (x, es) ∈ deps ∧ ⟨name, span⟩ ∈ es ∧ Blocked deps x ∧ Blocked deps name := by
  have hcl : ∀ name span, toposort deps = .typeCycle name span → Closed deps := by
    intro name span h
    by_contra hc
    obtain ⟨e, he⟩ := missing_of_not_closed hc
    rw [toposort_missing he] at h
    cases h
  refine ⟨⟨?_, ?_⟩, ?_⟩
  · rintro ⟨name, span, h⟩
    refine ⟨hcl name span h, fun ha => ?_⟩
    obtain ⟨o, ho⟩ := (c32_succeeds_iff deps hwf).mpr ⟨hcl name span h, ha⟩
    rw [h] at ho
    cases ho
  · rintro ⟨hc, ha⟩
    rcases toposort_found hwf (closed_iff.mp hc) with ⟨o, h1, h2⟩ | ⟨_, _, e, _, _, _, _, h⟩
    · exact absurd (acyclic_of_stable h2) ha
    · exact ⟨_, _, h⟩
  · intro name span h
    rcases toposort_found hwf (closed_iff.mp (hcl name span h)) with
      ⟨o, h1, h2⟩ | ⟨x, es, e, h1, h2, h3, h4, h5⟩
    · rw [h] at h1; cases h1
    · rw [h] at h5; cases h5
      exact ⟨x, es, h1, h2, h3, h4⟩

/-- C32: `toposort` never panics (and the bound on the iterations of the model is never hit). -/
theorem c32_no_panic (deps : Deps α σ) (hwf : WF deps) :
    toposort deps ≠ .panic ∧ toposort deps ≠ .fuel := by
  by_cases hc : Closed deps
  · rcases toposort_found hwf (closed_iff.mp hc) with ⟨o, h1, _⟩ | ⟨_, _, _, _, _, _, _, h⟩
    · rw [h1]; exact ⟨by simp, by simp⟩
    · rw [h]; exact ⟨by simp, by simp⟩
  · obtain ⟨e, he⟩ := missing_of_not_closed hc
    rw [toposort_missing he]; exact ⟨by simp, by simp⟩

/-! ## The hypotheses are met by non-trivial graphs -/

/-- `c` depends on `a` twice and on `b`; `a` depends on `d`. -/
def diamond : Deps Char Nat :=
  [('c', [⟨'a', 0⟩, ⟨'b', 1⟩, ⟨'a', 2⟩]), ('b', []), ('a', [⟨'d', 3⟩]), ('d', [])]

/-- `x -> y -> z -> y`. -/
def loop : Deps Char Nat := [('x', [⟨'y', 0⟩]), ('y', [⟨'z', 1⟩]), ('z', [⟨'y', 2⟩])]

example : WF diamond := by simp [WF, diamond]
example : toposort diamond = .ok ['b', 'd', 'a', 'c'] := by rfl
example : WF loop := by simp [WF, loop]
example : toposort loop = .typeCycle 'y' 0 := by rfl
example : toposort [('a', [⟨'a', 7⟩, ⟨'q', 8⟩]), ('b', [⟨'r', 9⟩])] = .itemNotFound 'q' 8 := by rfl
example : SourceStable diamond ['b', 'd', 'a', 'c'] := c32_order _ (by simp [WF, diamond]) _ rfl

end Verif.Topo.Props
