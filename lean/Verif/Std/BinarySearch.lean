/-!
# `<[T]>::binary_search_by_key` by its documentation

The standard library documents the result of `binary_search` on a sorted slice without fixing
which of several equal elements is found, nor the probing order. `BSearch` is any function
with the documented behaviour, over the keys of the slice; models take one as a parameter.
-/
namespace Verif.Std

/-- Any implementation of binary search for natural number keys (documentation of
`slice::binary_search`: "If the value is found then `Result::Ok` is returned, containing the
index of the matching element … If the value is not found then `Result::Err` is returned,
containing the index where a matching element could be inserted while maintaining sorted
order"). Nothing is assumed about slices that are not sorted. -/
structure BSearch where
  search : List Nat → Nat → Except Nat Nat
  ok_spec : ∀ {l x i}, l.Pairwise (· ≤ ·) → search l x = .ok i → l[i]? = some x
  error_spec : ∀ {l x i}, l.Pairwise (· ≤ ·) → search l x = .error i →
    i ≤ l.length ∧ (∀ j y, j < i → l[j]? = some y → y < x) ∧
      (∀ j y, i ≤ j → l[j]? = some y → x < y)

/-- A linear search, to show that `BSearch` is inhabited and to run examples. -/
def linearSearch : List Nat → Nat → Except Nat Nat
  | [], _ => .error 0
  | y :: l, x =>
    if x = y then .ok 0
    else if x < y then .error 0
    else match linearSearch l x with
      | .ok i => .ok (i + 1)
      | .error i => .error (i + 1)

/-- Linear search behaves as documented. -/
def BSearch.linear : BSearch where
  search := linearSearch
  ok_spec := by
    intro l
    induction l with
    | nil => intro x i _ h; simp [linearSearch] at h
    | cons y l ih =>
      intro x i hs h
      rw [List.pairwise_cons] at hs
      unfold linearSearch at h
      split at h
      · cases h; simp_all
      · split at h
        · cases h
        · split at h
          · cases h
            rename_i j hj
            simpa using ih hs.2 hj
          · cases h
  error_spec := by
    intro l
    induction l with
    | nil => intro x i _ h; simp [linearSearch] at h; subst h; simp
    | cons y l ih =>
      intro x i hs h
      rw [List.pairwise_cons] at hs
      unfold linearSearch at h
      split at h
      · cases h
      · split at h
        · cases h
          refine ⟨by simp, by intro j y hj; omega, ?_⟩
          intro j z _ hz
          cases j with
          | zero => simp at hz; omega
          | succ j =>
            have := hs.1 z (List.mem_of_getElem? (i := j) (by simpa using hz))
            omega
        · split at h
          · cases h
          · cases h
            rename_i j hj
            obtain ⟨h1, h2, h3⟩ := ih hs.2 hj
            refine ⟨by simp; omega, ?_, ?_⟩
            · intro k z hk hz
              cases k with
              | zero => simp at hz; omega
              | succ k => exact h2 k z (by omega) (by simpa using hz)
            · intro k z hk hz
              cases k with
              | zero => omega
              | succ k => exact h3 k z (by omega) (by simpa using hz)

end Verif.Std
