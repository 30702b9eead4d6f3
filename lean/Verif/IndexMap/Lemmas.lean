import Verif.IndexMap.Spec
import Mathlib.Data.List.Nodup
namespace Verif.IndexMap
variable {K V : Type} [DecidableEq K]

/-- The b-tree and the slots agree. -/
def Inv (m : IndexMap K V) : Prop :=
  ∀ k i, m.key2slot k = some i ↔ (m.slots[i]?.map (·.key)) = some k

theorem inv_new : Inv (.new : IndexMap K V) := by
  intro k i; simp [IndexMap.new]

theorem iter_get (m : IndexMap K V) (i : Nat) :
    m.iter[i]? = m.slots[i]?.map fun s => (s.key, s.value) := by
  simp [IndexMap.iter]

theorem inv_inj {m : IndexMap K V} (h : Inv m) {i j : Nat} {s t : Slot K V}
    (hi : m.slots[i]? = some s) (hj : m.slots[j]? = some t) (hk : s.key = t.key) : i = j := by
  have h1 := (h s.key i).2 (by simp [hi])
  have h2 := (h s.key j).2 (by simp [hj, hk])
  rw [h1] at h2; injection h2

theorem inv_nodup {m : IndexMap K V} (h : Inv m) : (m.iter.map (·.1)).Nodup := by
  rw [List.nodup_iff_getElem?_ne_getElem?]
  intro i j hij hj
  simp only [IndexMap.iter, List.map_map, List.length_map] at hj
  simp only [IndexMap.iter, List.map_map, List.getElem?_map]
  have hi : i < m.slots.length := by omega
  rw [List.getElem?_eq_getElem hi, List.getElem?_eq_getElem hj]
  intro he
  have := inv_inj h (List.getElem?_eq_getElem hi) (List.getElem?_eq_getElem hj)
    (by simpa using he)
  omega

/-- Lookups in the list agree with the b-tree. -/
theorem find_none {m : IndexMap K V} (h : Inv m) {k : K} (hk : m.key2slot k = none) :
    Spec.find m.iter k = none ∧ Spec.pos m.iter k = none ∧ ∀ p ∈ m.iter, p.1 ≠ k := by
  have : ∀ p ∈ m.iter, p.1 ≠ k := by
    intro p hp hpk
    obtain ⟨i, hi⟩ := List.mem_iff_getElem?.1 hp
    rw [iter_get] at hi
    cases hs : m.slots[i]? with
    | none => rw [hs] at hi; cases hi
    | some s =>
      rw [hs] at hi
      simp only [Option.map_some, Option.some.injEq] at hi
      have := (h k i).2 (by rw [hs]; simp [← hpk, ← hi])
      rw [hk] at this; cases this
  refine ⟨?_, ?_, this⟩
  · unfold Spec.find
    rw [List.find?_eq_none]
    simpa using this
  · unfold Spec.pos
    rw [List.findIdx?_eq_none_iff]
    simpa using this

theorem find_some {m : IndexMap K V} (h : Inv m) {k : K} {i : Nat} (hk : m.key2slot k = some i) :
    ∃ v, m.slots[i]? = some ⟨k, v⟩ ∧ Spec.find m.iter k = some (k, v) ∧
      Spec.pos m.iter k = some i := by
  have h1 := (h k i).1 hk
  cases hs : m.slots[i]? with
  | none => rw [hs] at h1; cases h1
  | some s =>
    rw [hs] at h1
    simp only [Option.map_some, Option.some.injEq] at h1
    obtain ⟨key, v⟩ := s
    simp only at h1
    subst h1
    have hlt : i < m.iter.length := by
      simp only [IndexMap.iter, List.length_map]
      exact (List.getElem?_eq_some_iff.1 hs).1
    have hget : m.iter[i]? = some (key, v) := by rw [iter_get, hs]; rfl
    have hpos : Spec.pos m.iter key = some i := by
      unfold Spec.pos
      rw [List.findIdx?_eq_some_iff_getElem]
      refine ⟨hlt, ?_, ?_⟩
      · rw [List.getElem?_eq_getElem hlt] at hget
        injection hget with hget
        rw [hget]; simp
      · intro j hj
        have hj' : j < m.slots.length := by
          simp only [IndexMap.iter, List.length_map] at hlt; omega
        simp only [IndexMap.iter, List.getElem_map, decide_eq_true_eq]
        intro he
        have := inv_inj h (List.getElem?_eq_getElem hj') hs he
        omega
    refine ⟨v, rfl, ?_, hpos⟩
    unfold Spec.find
    unfold Spec.pos at hpos
    rw [List.find?_eq_some_iff_getElem]
    rw [List.findIdx?_eq_some_iff_getElem] at hpos
    obtain ⟨h1, h2, h3⟩ := hpos
    refine ⟨by simp, i, h1, ?_, ?_⟩
    · rw [List.getElem?_eq_getElem h1] at hget
      injection hget
    · intro j hj; simpa using h3 j hj

/-- Changing the value in the slot of a key. -/
theorem set_value {m : IndexMap K V} (h : Inv m) {k : K} {i : Nat} {v w : V}
    (hs : m.slots[i]? = some ⟨k, v⟩) :
    Inv ⟨m.key2slot, m.slots.set i ⟨k, w⟩⟩ ∧
    (⟨m.key2slot, m.slots.set i ⟨k, w⟩⟩ : IndexMap K V).iter =
      m.iter.map fun p => if p.1 = k then (k, w) else p := by
  have hlt := (List.getElem?_eq_some_iff.1 hs).1
  constructor
  · intro k' j
    rw [h k' j]
    by_cases hij : i = j
    · subst hij
      simp [hs, List.getElem?_set_self hlt]
    · simp [List.getElem?_set_ne hij]
  · apply List.ext_getElem?
    intro j
    simp only [IndexMap.iter, List.map_map, List.getElem?_map]
    by_cases hij : i = j
    · subst hij
      simp [hs, List.getElem?_set_self hlt]
    · rw [List.getElem?_set_ne hij]
      cases hj : m.slots[j]? with
      | none => rfl
      | some t =>
        have : t.key ≠ k := fun e => hij (inv_inj h hs hj (by simp [e]))
        simp [this]

/-- Appending a new key. -/
theorem push {m : IndexMap K V} (h : Inv m) {k : K} {v : V} (hk : m.key2slot k = none) :
    Inv (⟨mapSet m.key2slot k m.slots.length, m.slots ++ [⟨k, v⟩]⟩ : IndexMap K V) ∧
    (⟨mapSet m.key2slot k m.slots.length, m.slots ++ [⟨k, v⟩]⟩ : IndexMap K V).iter =
      m.iter ++ [(k, v)] := by
  refine ⟨?_, by simp [IndexMap.iter]⟩
  intro k' j
  simp only [mapSet]
  rcases Nat.lt_trichotomy j m.slots.length with hj | rfl | hj
  · rw [List.getElem?_append_left hj]
    by_cases he : k' = k
    · subst he
      rw [if_pos rfl, ← h, hk]
      simp only [Option.some.injEq, reduceCtorEq, iff_false]
      omega
    · rw [if_neg he]; exact h k' j
  · by_cases he : k' = k
    · subst he; simp
    · rw [if_neg he]
      have h1 : m.slots[m.slots.length]? = none := by simp
      constructor
      · intro h2
        have := (h k' _).1 h2
        rw [h1] at this; cases this
      · intro h2
        simp only [List.getElem?_concat_length, Option.map_some, Option.some.injEq] at h2
        exact absurd h2.symm he
  · have h1 : (m.slots ++ [(⟨k, v⟩ : Slot K V)])[j]? = none := by
      rw [List.getElem?_eq_none]; simp; omega
    have h2 : m.slots[j]? = none := by rw [List.getElem?_eq_none]; omega
    rw [h1]
    constructor
    · intro h3
      by_cases he : k' = k
      · subst he; simp at h3; omega
      · rw [if_neg he] at h3
        have := (h k' j).1 h3
        rw [h2] at this; cases this
    · intro h3; cases h3

theorem insertFull_spec {m : IndexMap K V} (h : Inv m) (k : K) (v : V) :
    ∃ m', m.insertFull k v = some (m', (Spec.pos m.iter k).getD m.iter.length,
        (Spec.find m.iter k).map (·.2)) ∧ Inv m' ∧ m'.iter = Spec.insert m.iter k v := by
  unfold IndexMap.insertFull Spec.insert
  cases hk : m.key2slot k with
  | none =>
    obtain ⟨h1, h2, -⟩ := find_none h hk
    rw [h1, h2]
    obtain ⟨h3, h4⟩ := push (v := v) h hk
    exact ⟨_, by simp [IndexMap.iter], h3, by simpa using h4⟩
  | some i =>
    obtain ⟨w, h0, h1, h2⟩ := find_some h hk
    rw [h1, h2]
    obtain ⟨h3, h4⟩ := set_value (w := v) h h0
    exact ⟨_, by simp [h0], h3, by simpa using h4⟩

theorem dropLast_get? {α : Type} (l : List α) (j : Nat) :
    l.dropLast[j]? = if j + 1 < l.length then l[j]? else none := by
  rw [List.getElem?_dropLast]
  by_cases h : j + 1 < l.length
  · rw [if_pos h, if_pos (by omega)]
  · rw [if_neg h, if_neg (by omega)]

theorem removeAt_eq (l : List (K × V)) {i : Nat} (hi : i < l.length) {x : K × V}
    (hx : l[l.length - 1]? = some x) : Spec.removeAt l i = (l.set i x).dropLast := by
  apply List.ext_getElem?
  intro j
  rw [dropLast_get?]
  unfold Spec.removeAt
  have hlast : l.getLast? = some x := by rw [List.getLast?_eq_getElem?, hx]
  split
  · rename_i he
    simp only [List.length_set]
    by_cases hj : j + 1 < l.length
    · rw [if_pos hj, List.getElem?_set_ne (by omega), List.getElem?_take_of_lt (by omega)]
    · rw [if_neg hj, List.getElem?_eq_none]; simp; omega
  · rename_i he
    simp only [List.length_set, hlast, Option.toList]
    rcases Nat.lt_trichotomy j i with h1 | h1 | h1
    · rw [if_pos (by omega), List.getElem?_set_ne (by omega), List.append_assoc,
        List.getElem?_append_left (by simp; omega), List.getElem?_take_of_lt h1]
    · subst h1
      rw [if_pos (by omega), List.getElem?_set_self hi, List.append_assoc,
        List.getElem?_append_right (by simp; omega)]
      simp [Nat.min_eq_left (Nat.le_of_lt hi)]
    · rw [List.getElem?_append_right (by simp; omega), dropLast_get?, List.getElem?_drop]
      have hl : (l.take i ++ [x]).length = i + 1 := by simp; omega
      rw [hl]
      by_cases hj : j + 1 < l.length
      · rw [if_pos hj, if_pos (by simp; omega), List.getElem?_set_ne (by omega)]
        congr 1; omega
      · rw [if_neg hj, if_neg (by simp; omega)]

theorem swapRemoveFull_spec {m : IndexMap K V} (h : Inv m) (k : K) :
    ∃ m', m.swapRemoveFull k = some (m', Spec.full m.iter k) ∧ Inv m' ∧
      m'.iter = Spec.swapRemove m.iter k := by
  unfold IndexMap.swapRemoveFull Spec.swapRemove Spec.full
  cases hk : m.key2slot k with
  | none =>
    obtain ⟨h1, h2, -⟩ := find_none h hk
    rw [h1, h2]
    exact ⟨m, rfl, h, rfl⟩
  | some i =>
    obtain ⟨w, h0, h1, h2⟩ := find_some h hk
    rw [h1, h2]
    have hlt := (List.getElem?_eq_some_iff.1 h0).1
    have hlt' : m.slots.length - 1 < m.slots.length := by omega
    obtain ⟨last, hlast⟩ : ∃ s, m.slots[m.slots.length - 1]? = some s :=
      ⟨_, List.getElem?_eq_getElem hlt'⟩
    have hvec : vecSwapRemove m.slots i = some (⟨k, w⟩, (m.slots.set i last).dropLast) := by
      unfold vecSwapRemove
      rw [h0, List.getLast?_eq_getElem?, hlast]
      rfl
    have hiter : ∀ f : K → Option Nat,
        (⟨f, (m.slots.set i last).dropLast⟩ : IndexMap K V).iter = Spec.removeAt m.iter i := by
      intro f
      rw [removeAt_eq m.iter (x := (last.key, last.value)) (by simpa [IndexMap.iter] using hlt)
        (by simp [IndexMap.iter, hlast])]
      simp [IndexMap.iter, List.map_dropLast, List.map_set]
    have hlen : (m.slots.set i last).dropLast.length = m.slots.length - 1 := by simp
    -- keys of the new slots
    have hslot : ∀ j, (m.slots.set i last).dropLast[j]? =
        if j + 1 < m.slots.length then (if j = i then some last else m.slots[j]?) else none := by
      intro j
      rw [dropLast_get?, List.length_set]
      by_cases hj : j + 1 < m.slots.length
      · rw [if_pos hj, if_pos hj]
        by_cases hji : j = i
        · subst hji; rw [if_pos rfl, List.getElem?_set_self hlt]
        · rw [if_neg hji, List.getElem?_set_ne (Ne.symm hji)]
      · rw [if_neg hj, if_neg hj]
    simp only [hvec, Option.bind_eq_bind, Option.bind_some, hlen]
    by_cases hi : i = m.slots.length - 1
    · rw [if_neg (by simpa using hi)]
      refine ⟨_, rfl, ?_, hiter _⟩
      intro k' j
      simp only [mapRemove]
      rw [hslot]
      by_cases he : k' = k
      · subst he
        rw [if_pos rfl]
        constructor
        · intro hc; cases hc
        · intro hc
          split at hc
          · rw [if_neg (by omega), ← h, hk] at hc
            injection hc with hc
            omega
          · cases hc
      · rw [if_neg he, h k' j]
        by_cases hj : j + 1 < m.slots.length
        · rw [if_pos hj, if_neg (by omega)]
        · rw [if_neg hj]
          constructor
          · intro hc
            have : j < m.slots.length := by
              cases hs : m.slots[j]? with
              | none => rw [hs] at hc; cases hc
              | some => exact (List.getElem?_eq_some_iff.1 hs).1
            have : j = i := by omega
            subst this
            rw [h0] at hc
            simp only [Option.map_some, Option.some.injEq] at hc
            exact absurd hc.symm he
          · intro hc; cases hc
    · rw [if_pos hi]
      have hli : last.key ≠ k := fun e => hi (inv_inj h h0 hlast e.symm)
      have hgi : (m.slots.set i last).dropLast[i]? = some last := by
        rw [hslot, if_pos (by omega), if_pos rfl]
      have hkl : m.key2slot last.key = some (m.slots.length - 1) := (h _ _).2 (by simp [hlast])
      simp only [hgi, Option.bind_some, mapRemove, if_neg hli, hkl]
      refine ⟨_, rfl, ?_, hiter _⟩
      intro k' j
      simp only [mapSet, mapRemove]
      rw [hslot]
      by_cases hl : k' = last.key
      · subst hl
        rw [if_pos rfl]
        constructor
        · intro hc
          injection hc with hc
          subst hc
          rw [if_pos (by omega), if_pos rfl]; rfl
        · intro hc
          split at hc
          · split at hc
            · rename_i hji; rw [hji]
            · rw [← h, hkl] at hc
              injection hc with hc
              omega
          · cases hc
      · rw [if_neg hl]
        by_cases he : k' = k
        · subst he
          rw [if_pos rfl]
          constructor
          · intro hc; cases hc
          · intro hc
            split at hc
            · split at hc
              · simp only [Option.map_some, Option.some.injEq] at hc
                exact absurd hc hli
              · rename_i hji
                rw [← h, hk] at hc
                injection hc with hc
                exact absurd hc.symm hji
            · cases hc
        · rw [if_neg he, h k' j]
          by_cases hj : j + 1 < m.slots.length
          · rw [if_pos hj]
            by_cases hji : j = i
            · subst hji
              rw [if_pos rfl, h0]
              simp only [Option.map_some, Option.some.injEq]
              exact ⟨fun e => absurd e.symm he, fun e => absurd e.symm hl⟩
            · rw [if_neg hji]
          · rw [if_neg hj]
            constructor
            · intro hc
              have : j < m.slots.length := by
                cases hs : m.slots[j]? with
                | none => rw [hs] at hc; cases hc
                | some => exact (List.getElem?_eq_some_iff.1 hs).1
              have : j = m.slots.length - 1 := by omega
              subst this
              rw [hlast] at hc
              simp only [Option.map_some, Option.some.injEq] at hc
              exact absurd hc.symm hl
            · intro hc; cases hc

theorem extend_spec {m : IndexMap K V} (h : Inv m) (l : List (K × V)) :
    ∃ m', m.extend l = some m' ∧ Inv m' ∧
      m'.iter = l.foldl (fun l p => Spec.insert l p.1 p.2) m.iter := by
  induction l generalizing m with
  | nil => exact ⟨m, rfl, h, rfl⟩
  | cons p l ih =>
    obtain ⟨k, v⟩ := p
    obtain ⟨m1, h1, h2, h3⟩ := insertFull_spec h k v
    obtain ⟨m2, h4, h5, h6⟩ := ih h2
    refine ⟨m2, ?_, h5, ?_⟩
    · simp [IndexMap.extend, IndexMap.insert, h1, h4]
    · rw [h6, h3]; rfl

theorem full_eq {m : IndexMap K V} (h : Inv m) (k : K) :
    (Spec.full m.iter k).map (·.2) = Spec.find m.iter k := by
  unfold Spec.full
  cases hk : m.key2slot k with
  | none =>
    obtain ⟨h1, h2, -⟩ := find_none h hk
    rw [h1, h2]; rfl
  | some i =>
    obtain ⟨w, h0, h1, h2⟩ := find_some h hk
    rw [h1, h2]; rfl

theorem modify_iter (l : List (K × V)) (k : K) (v : V) (f : V → V)
    (h : ∀ p ∈ l, p.1 = k → p.2 = v) :
    (l.map fun p => if p.1 = k then (k, f v) else p) = Spec.modify l k f := by
  unfold Spec.modify
  apply List.map_congr_left
  intro p hp
  split
  · rename_i he
    rw [h p hp he, he]
  · rfl

theorem value_of {m : IndexMap K V} (h : Inv m) {i : Nat} {k : K} {v : V}
    (hs : m.slots[i]? = some ⟨k, v⟩) : ∀ p ∈ m.iter, p.1 = k → p.2 = v := by
  intro p hp he
  obtain ⟨j, hj⟩ := List.mem_iff_getElem?.1 hp
  rw [iter_get] at hj
  cases hsj : m.slots[j]? with
  | none => rw [hsj] at hj; cases hj
  | some s =>
    rw [hsj] at hj
    simp only [Option.map_some, Option.some.injEq] at hj
    subst hj
    have := inv_inj h hs hsj he.symm
    subst this
    rw [hs] at hsj
    injection hsj with hsj
    rw [← hsj]

theorem step_refines {m : IndexMap K V} (h : Inv m) (op : Op K V) :
    ∃ m', step m op = some (m', (Spec.step m.iter op).2) ∧ Inv m' ∧
      m'.iter = (Spec.step m.iter op).1 := by
  cases op with
  | insertFull k v =>
    obtain ⟨m1, h1, h2, h3⟩ := insertFull_spec h k v
    exact ⟨m1, by simp [step, h1, Spec.step], h2, h3⟩
  | insert k v =>
    obtain ⟨m1, h1, h2, h3⟩ := insertFull_spec h k v
    exact ⟨m1, by simp [step, IndexMap.insert, h1, Spec.step], h2, h3⟩
  | swapRemoveFull k =>
    obtain ⟨m1, h1, h2, h3⟩ := swapRemoveFull_spec h k
    exact ⟨m1, by simp [step, h1, Spec.step], h2, h3⟩
  | swapRemoveEntry k =>
    obtain ⟨m1, h1, h2, h3⟩ := swapRemoveFull_spec h k
    refine ⟨m1, ?_, h2, h3⟩
    simp only [step, IndexMap.swapRemoveEntry, h1, Spec.step, ← full_eq h k]
    rfl
  | swapRemove k =>
    obtain ⟨m1, h1, h2, h3⟩ := swapRemoveFull_spec h k
    refine ⟨m1, ?_, h2, h3⟩
    simp only [step, IndexMap.swapRemove, h1, Spec.step, ← full_eq h k, Option.map_map]
    rfl
  | modify k f =>
    simp only [step, IndexMap.modify, Spec.step]
    cases hk : m.key2slot k with
    | none =>
      obtain ⟨h1, h2, h3⟩ := find_none h hk
      refine ⟨m, by simp [h1], h, ?_⟩
      unfold Spec.modify
      have : ∀ p ∈ m.iter, (if p.1 = k then (p.1, f p.2) else p) = id p :=
        fun p hp => if_neg (h3 p hp)
      rw [List.map_congr_left this]
      simp
    | some i =>
      obtain ⟨w, h0, h1, h2⟩ := find_some h hk
      obtain ⟨h3, h4⟩ := set_value (w := f w) h h0
      refine ⟨_, by simp [h0, h1], h3, ?_⟩
      rw [h4, modify_iter _ _ _ _ (value_of h h0)]
  | modifyIndex i f =>
    simp only [step, IndexMap.modifyIndex, Spec.step, iter_get]
    cases hs : m.slots[i]? with
    | none => exact ⟨m, by simp, h, by simp⟩
    | some s =>
      obtain ⟨k, w⟩ := s
      obtain ⟨h3, h4⟩ := set_value (w := f w) h hs
      refine ⟨_, by simp, h3, ?_⟩
      rw [h4, modify_iter _ _ _ _ (value_of h hs)]
      simp
  | entryOrInsert k v =>
    simp only [step, IndexMap.entryOrInsert, Spec.step]
    cases hk : m.key2slot k with
    | none =>
      obtain ⟨h1, h2, h3⟩ := find_none h hk
      obtain ⟨h3, h4⟩ := push (v := v) h hk
      refine ⟨_, by simp [h1], h3, by simpa [h1] using h4⟩
    | some i =>
      obtain ⟨w, h0, h1, h2⟩ := find_some h hk
      exact ⟨m, by simp [h0, h1], h, by simp [h1]⟩
  | entryReplace k v =>
    simp only [step, IndexMap.entryReplace, Spec.step]
    cases hk : m.key2slot k with
    | none =>
      obtain ⟨h1, h2, h3⟩ := find_none h hk
      exact ⟨m, by simp [h1], h, by simp [h1]⟩
    | some i =>
      obtain ⟨w, h0, h1, h2⟩ := find_some h hk
      obtain ⟨h3, h4⟩ := set_value (w := v) h h0
      exact ⟨_, by simp [h0, h1], h3, by simp [h1, h4, Spec.insert]⟩
  | extend l =>
    obtain ⟨m1, h1, h2, h3⟩ := extend_spec h l
    exact ⟨m1, by simp [step, h1, Spec.step], h2, h3⟩
  | clear => exact ⟨_, rfl, inv_new, rfl⟩
  | len => exact ⟨m, by simp [step, Spec.step, IndexMap.len, IndexMap.iter], h, rfl⟩
  | containsKey k =>
    refine ⟨m, ?_, h, rfl⟩
    simp only [step, Spec.step, IndexMap.containsKey]
    cases hk : m.key2slot k with
    | none => rw [(find_none h hk).1]; rfl
    | some i =>
      obtain ⟨w, h0, h1, h2⟩ := find_some h hk
      rw [h1]; rfl
  | get k =>
    refine ⟨m, ?_, h, rfl⟩
    simp only [step, Spec.step, IndexMap.get]
    cases hk : m.key2slot k with
    | none => rw [(find_none h hk).1]; rfl
    | some i =>
      obtain ⟨w, h0, h1, h2⟩ := find_some h hk
      rw [h1]; simp [h0]
  | getFull k =>
    refine ⟨m, ?_, h, rfl⟩
    simp only [step, Spec.step, IndexMap.getFull, Spec.full]
    cases hk : m.key2slot k with
    | none => rw [(find_none h hk).1, (find_none h hk).2.1]; rfl
    | some i =>
      obtain ⟨w, h0, h1, h2⟩ := find_some h hk
      rw [h1, h2]; simp [h0]
  | getIndexOf k =>
    refine ⟨m, ?_, h, rfl⟩
    simp only [step, Spec.step, IndexMap.getIndexOf]
    cases hk : m.key2slot k with
    | none => rw [(find_none h hk).2.1]
    | some i =>
      obtain ⟨w, h0, h1, h2⟩ := find_some h hk
      rw [h2]
  | getIndex i => exact ⟨m, by simp [step, Spec.step, iter_get, IndexMap.getIndex], h, rfl⟩
  | iter => exact ⟨m, rfl, h, rfl⟩

theorem run_refines {m : IndexMap K V} (h : Inv m) (ops : List (Op K V)) :
    ∃ m', run m ops = some (m', (Spec.run m.iter ops).2) ∧ Inv m' ∧
      m'.iter = (Spec.run m.iter ops).1 := by
  induction ops generalizing m with
  | nil => exact ⟨m, rfl, h, rfl⟩
  | cons op ops ih =>
    obtain ⟨m1, h1, h2, h3⟩ := step_refines h op
    obtain ⟨m2, h4, h5, h6⟩ := ih h2
    refine ⟨m2, ?_, h5, ?_⟩
    · simp [run, h1, h4, Spec.run, ← h3]
    · rw [h6]; simp [Spec.run, ← h3]

end Verif.IndexMap
