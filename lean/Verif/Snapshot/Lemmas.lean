import Mathlib.Data.List.Forall2
import Verif.Snapshot.Spec
/-! # Invariant of `SnapshotList` -/
namespace Verif.Snapshot
open Verif.Std
variable {T : Type}

/-- The buckets starting at `start`: each begins where the previous one ends, none is empty. -/
def Chain : Nat → List (Snapshot T) → Nat → Prop
  | start, [], stop => start = stop
  | start, s :: l, stop => s.priorTypes = start ∧ s.items ≠ [] ∧
      Chain (start + s.items.length) l stop

theorem Chain.append {a b c : Nat} {l₁ l₂ : List (Snapshot T)} (h₁ : Chain a l₁ b)
    (h₂ : Chain b l₂ c) : Chain a (l₁ ++ l₂) c := by
  induction l₁ generalizing a with
  | nil => cases h₁; exact h₂
  | cons s l ih => exact ⟨h₁.1, h₁.2.1, ih h₁.2.2⟩

theorem Chain.le {a b : Nat} {l : List (Snapshot T)} (h : Chain a l b) :
    ∀ s ∈ l, a ≤ s.priorTypes := by
  induction l generalizing a with
  | nil => simp
  | cons s l ih =>
    intro x hx
    cases hx with
    | head => exact Nat.le_of_eq h.1.symm
    | tail _ hx => have := ih h.2.2 x hx; omega

theorem Chain.sorted {a b : Nat} {l : List (Snapshot T)} (h : Chain a l b) :
    (l.map (·.priorTypes)).Pairwise (· ≤ ·) := by
  induction l generalizing a with
  | nil => simp
  | cons s l ih =>
    rw [List.map_cons, List.pairwise_cons]
    refine ⟨?_, ih h.2.2⟩
    intro y hy
    obtain ⟨x, hx, rfl⟩ := List.mem_map.1 hy
    have := h.2.2.le x hx
    have := h.1
    omega

/-- All committed items, in order. -/
def flat (l : List (Snapshot T)) : List T := l.flatMap (·.items)

theorem Chain.length {a b : Nat} {l : List (Snapshot T)} (h : Chain a l b) :
    a + (flat l).length = b := by
  induction l generalizing a with
  | nil => cases h; simp [flat]
  | cons s l ih =>
    have := ih h.2.2
    simp only [flat, List.flatMap_cons, List.length_append] at *
    omega

/-- The bucket at position `i` covers `[priorTypes, priorTypes + length)` and the next bucket
starts there. -/
theorem Chain.get {a b : Nat} {l : List (Snapshot T)} (h : Chain a l b) {i : Nat}
    {s : Snapshot T} (hi : l[i]? = some s) :
    (∀ k, k < s.items.length → (flat l)[s.priorTypes - a + k]? = s.items[k]?) ∧
      (∀ t, l[i + 1]? = some t → t.priorTypes = s.priorTypes + s.items.length) ∧
      (l[i + 1]? = none → b = s.priorTypes + s.items.length) := by
  induction l generalizing a i with
  | nil => simp at hi
  | cons x l ih =>
    cases i with
    | zero =>
      simp at hi
      subst hi
      refine ⟨?_, ?_, ?_⟩
      · intro k hk
        rw [h.1]
        simp only [flat, List.flatMap_cons, Nat.sub_self, Nat.zero_add]
        rw [List.getElem?_append_left hk]
      · intro t ht
        cases l with
        | nil => simp at ht
        | cons y l => simp at ht; subst ht; rw [h.2.2.1, h.1]
      · intro hn
        cases l with
        | nil => rw [h.1]; exact h.2.2.symm
        | cons y l => simp at hn
    | succ i =>
      simp at hi
      obtain ⟨h1, h2, h3⟩ := ih h.2.2 hi
      have hle := h.2.2.le s (List.mem_of_getElem? hi)
      refine ⟨?_, ?_, ?_⟩
      · intro k hk
        have := h1 k hk
        simp only [flat, List.flatMap_cons] at *
        rw [List.getElem?_append_right (by omega), ← this]
        congr 1
        omega
      · intro t ht; exact h2 t (by simpa using ht)
      · intro hn; exact h3 (by simpa using hn)

/-- The invariant relating a list to the vector it stands for. -/
structure Inv (l : SnapshotList T) (v : Spec.Vec T) : Prop where
  chain : Chain 0 l.snapshots l.snapshotsTotal
  items : v.items = flat l.snapshots ++ l.cur
  committed : v.committed = l.snapshotsTotal

theorem Inv.total {l : SnapshotList T} {v : Spec.Vec T} (h : Inv l v) :
    (flat l.snapshots).length = l.snapshotsTotal := by have := h.chain.length; omega

theorem get_spec (bs : BSearch) {l : SnapshotList T} {v : Spec.Vec T} (h : Inv l v) (i : Nat) :
    l.get bs i = some v.items[i]? := by
  unfold SnapshotList.get
  rw [h.items]
  split
  · rename_i hi
    rw [List.getElem?_append_right (by rw [h.total]; exact hi), h.total]
  · rename_i hi
    have hsort := h.chain.sorted
    -- the bucket found
    have key : ∀ j s, l.snapshots[j]? = some s → s.priorTypes ≤ i →
        (∀ t, l.snapshots[j + 1]? = some t → i < t.priorTypes) →
        ∃ x, s.items[i - s.priorTypes]? = some x ∧ (flat l.snapshots ++ l.cur)[i]? = some x := by
      intro j s hs hle hnext
      obtain ⟨h1, h2, h3⟩ := h.chain.get hs
      have hlt : i - s.priorTypes < s.items.length := by
        cases hn : l.snapshots[j + 1]? with
        | none => have := h3 hn; omega
        | some t => have := h2 t hn; have := hnext t hn; omega
      refine ⟨s.items[i - s.priorTypes], List.getElem?_eq_getElem hlt, ?_⟩
      have := h1 _ hlt
      rw [List.getElem?_append_left (by rw [h.total]; omega),
        ← List.getElem?_eq_getElem hlt, ← this]
      congr 1
      omega
    have fin : ∀ j s, l.snapshots[j]? = some s → s.priorTypes ≤ i →
        (∀ t, l.snapshots[j + 1]? = some t → i < t.priorTypes) →
        (do
          let snapshot ← l.snapshots[j]?
          if i < snapshot.priorTypes then none
          else
            let x ← snapshot.items[i - snapshot.priorTypes]?
            pure (some x) : Option (Option T)) = some (flat l.snapshots ++ l.cur)[i]? := by
      intro j s hs hle hnext
      obtain ⟨x, hx1, hx2⟩ := key j s hs hle hnext
      simp only [hs, Option.bind_eq_bind, Option.bind_some, hx1, hx2]
      rw [if_neg (by omega)]
      rfl
    have hmap : ∀ j : Nat, (l.snapshots.map (·.priorTypes))[j]? =
        (l.snapshots[j]?).map Snapshot.priorTypes := by intro j; simp
    cases hb : bs.search (l.snapshots.map (·.priorTypes)) i with
    | ok j =>
      have hj := bs.ok_spec hsort hb
      rw [hmap] at hj
      cases hs : l.snapshots[j]? with
      | none => simp [hs] at hj
      | some s =>
        simp [hs] at hj
        refine fin j s hs (by omega) ?_
        intro t ht
        obtain ⟨_, h2, _⟩ := h.chain.get hs
        have h2 := h2 t ht
        have : s.items ≠ [] := by
          have : ∀ (a b : Nat) (l : List (Snapshot T)), Chain a l b → ∀ s ∈ l, s.items ≠ [] := by
            intro a b l
            induction l generalizing a with
            | nil => simp
            | cons x l ih =>
              intro hc s hs
              cases hs with
              | head => exact hc.2.1
              | tail _ hs => exact ih _ hc.2.2 s hs
          exact this _ _ _ h.chain s (List.mem_of_getElem? hs)
        have := List.length_pos_iff.2 this
        omega
    | error j =>
      obtain ⟨h1, h2, h3⟩ := bs.error_spec hsort hb
      have hj0 : j ≠ 0 := by
        intro hj0
        subst hj0
        cases hl : l.snapshots with
        | nil =>
          have := h.chain
          rw [hl] at this
          have : 0 = l.snapshotsTotal := this
          omega
        | cons s rest =>
          have hc := h.chain
          rw [hl] at hc
          have := h3 0 s.priorTypes (by omega) (by rw [hmap, hl]; rfl)
          have := hc.1
          omega
      simp only [hj0, if_false, Option.bind_eq_bind, Option.bind_some]
      have hlt : j - 1 < l.snapshots.length := by simp at h1; omega
      have hs := List.getElem?_eq_getElem hlt
      refine fin (j - 1) _ hs ?_ ?_
      · have := h2 (j - 1) (Snapshot.priorTypes (l.snapshots[j - 1])) (by omega)
          (by rw [hmap, hs]; rfl)
        omega
      · intro t ht
        exact h3 (j - 1 + 1) t.priorTypes (by omega) (by rw [hmap, ht]; rfl)

theorem Inv.default : Inv (.default : SnapshotList T) ⟨[], 0⟩ := ⟨rfl, rfl, rfl⟩

theorem Inv.push {l : SnapshotList T} {v : Spec.Vec T} (h : Inv l v) (x : T) :
    Inv (l.push x) ⟨v.items ++ [x], v.committed⟩ :=
  ⟨h.chain, by simp [SnapshotList.push, h.items], h.committed⟩

theorem Inv.len {l : SnapshotList T} {v : Spec.Vec T} (h : Inv l v) :
    l.len = v.items.length := by
  rw [h.items, List.length_append, h.total, SnapshotList.len]; omega

theorem Inv.truncate {l : SnapshotList T} {v : Spec.Vec T} (h : Inv l v) (n : Nat)
    (hn : v.committed ≤ n) :
    ∃ l', l.truncate n = some l' ∧ Inv l' ⟨v.items.take n, v.committed⟩ := by
  refine ⟨{ l with cur := l.cur.take (n - l.snapshotsTotal) },
    by rw [SnapshotList.truncate, if_pos (by rw [← h.committed]; exact hn)], h.chain,
    ?_, h.committed⟩
  have ht := h.total
  have hc := h.committed
  simp only [h.items]
  rw [List.take_append, ht, List.take_of_length_le (by omega)]

theorem Inv.commit {l : SnapshotList T} {v : Spec.Vec T} (h : Inv l v) :
    Inv l.commit.1 ⟨v.items, v.items.length⟩ ∧ Inv l.commit.2 ⟨v.items, v.items.length⟩ := by
  have ht := h.total
  have hi := h.items
  unfold SnapshotList.commit
  by_cases hc : 0 < l.cur.length
  · simp only [hc, if_true]
    have hch : Chain 0 (l.snapshots ++ [⟨l.snapshotsTotal, l.cur⟩])
        (l.snapshotsTotal + l.cur.length) :=
      h.chain.append ⟨rfl, List.length_pos_iff.1 hc, rfl⟩
    refine ⟨⟨hch, ?_, ?_⟩, ⟨hch, ?_, ?_⟩⟩ <;> simp [hi, flat, ht] <;>
      simp [flat] at ht <;> omega
  · simp only [hc, if_false]
    have hc' : l.cur = [] := List.length_eq_zero_iff.1 (by omega)
    refine ⟨⟨h.chain, ?_, ?_⟩, ⟨h.chain, ?_, ?_⟩⟩ <;> simp [hi, hc', ht]

/-- The pools correspond handle by handle. -/
def PInv (p : List (SnapshotList T)) (q : List (Spec.Vec T)) : Prop := List.Forall₂ Inv p q

theorem PInv.get {p : List (SnapshotList T)} {q : List (Spec.Vec T)} (h : PInv p q) (i : Nat) :
    (p[i]? = none ∧ q[i]? = none) ∨
      ∃ l v, p[i]? = some l ∧ q[i]? = some v ∧ Inv l v := by
  induction h generalizing i with
  | nil => exact .inl (by simp)
  | cons h1 _ ih =>
    cases i with
    | zero => exact .inr ⟨_, _, rfl, rfl, h1⟩
    | succ i => simpa using ih i

theorem PInv.set {p : List (SnapshotList T)} {q : List (Spec.Vec T)} (h : PInv p q) (i : Nat)
    {l : SnapshotList T} {v : Spec.Vec T} (hl : Inv l v) : PInv (p.set i l) (q.set i v) := by
  induction h generalizing i with
  | nil => exact .nil
  | cons h1 h2 ih =>
    cases i with
    | zero => exact .cons hl h2
    | succ i => exact .cons h1 (ih i)

theorem PInv.append {p : List (SnapshotList T)} {q : List (Spec.Vec T)} (h : PInv p q)
    {l : SnapshotList T} {v : Spec.Vec T} (hl : Inv l v) : PInv (p ++ [l]) (q ++ [v]) := by
  induction h with
  | nil => exact .cons hl .nil
  | cons h1 _ ih => exact .cons h1 ih

/-- The two machines panic together, and otherwise show the same. -/
theorem step_refines (bs : BSearch) {p : List (SnapshotList T)} {q : List (Spec.Vec T)}
    (h : PInv p q) (op : Op T) :
    (step bs p op = none ∧ Spec.step q op = none) ∨
      ∃ p' q' r, step bs p op = some (p', r) ∧ Spec.step q op = some (q', r) ∧ PInv p' q' := by
  cases op with
  | default => exact .inr ⟨_, _, _, rfl, rfl, h.append .default⟩
  | push i v =>
    rcases h.get i with ⟨h1, h2⟩ | ⟨l, w, h1, h2, hi⟩
    · exact .inl (by simp [step, Spec.step, h1, h2])
    · exact .inr ⟨_, _, _, by simp [step, h1]; rfl, by simp [Spec.step, h2], h.set i (hi.push v)⟩
  | truncate i n =>
    rcases h.get i with ⟨h1, h2⟩ | ⟨l, w, h1, h2, hi⟩
    · exact .inl (by simp [step, Spec.step, h1, h2])
    · by_cases hn : w.committed ≤ n
      · obtain ⟨l', e, hi'⟩ := hi.truncate n hn
        exact .inr ⟨_, _, _, by simp [step, h1, e]; rfl,
          by simp [Spec.step, h2, hn], h.set i hi'⟩
      · refine .inl ⟨?_, by simp [Spec.step, h2, hn]⟩
        have : ¬ l.snapshotsTotal ≤ n := by rw [← hi.committed]; exact hn
        simp [step, h1, SnapshotList.truncate, this]
  | commit i =>
    rcases h.get i with ⟨h1, h2⟩ | ⟨l, w, h1, h2, hi⟩
    · exact .inl (by simp [step, Spec.step, h1, h2])
    · exact .inr ⟨_, _, _, by simp [step, h1]; rfl, by simp [Spec.step, h2],
        (h.set i hi.commit.1).append hi.commit.2⟩
  | get i k =>
    rcases h.get i with ⟨h1, h2⟩ | ⟨l, w, h1, h2, hi⟩
    · exact .inl (by simp [step, Spec.step, h1, h2])
    · exact .inr ⟨_, _, _, by simp [step, h1, get_spec bs hi]; rfl,
        by simp [Spec.step, h2], h⟩
  | index i k =>
    rcases h.get i with ⟨h1, h2⟩ | ⟨l, w, h1, h2, hi⟩
    · exact .inl (by simp [step, Spec.step, h1, h2])
    · cases hx : w.items[k]? with
      | none =>
        exact .inl (by simp [step, Spec.step, h1, h2, SnapshotList.index, get_spec bs hi, hx])
      | some x =>
        exact .inr ⟨_, _, _,
          by simp [step, h1, SnapshotList.index, get_spec bs hi, hx]; rfl,
          by simp [Spec.step, h2, hx], h⟩
  | len i =>
    rcases h.get i with ⟨h1, h2⟩ | ⟨l, w, h1, h2, hi⟩
    · exact .inl (by simp [step, Spec.step, h1, h2])
    · exact .inr ⟨_, _, _, by simp [step, h1, hi.len]; rfl,
        by simp [Spec.step, h2], h⟩

theorem run_refines (bs : BSearch) (ops : List (Op T)) {p : List (SnapshotList T)}
    {q : List (Spec.Vec T)} (h : PInv p q) :
    (run bs p ops).map (·.2) = (Spec.run q ops).map (·.2) := by
  induction ops generalizing p q with
  | nil => rfl
  | cons op ops ih =>
    rcases step_refines bs h op with ⟨h1, h2⟩ | ⟨p', q', r, h1, h2, hi⟩
    · simp [run, Spec.run, h1, h2]
    · have := ih hi
      simp only [run, Spec.run, h1, h2, Option.bind_eq_bind, Option.bind_some]
      cases hr : run bs p' ops <;> cases hs : Spec.run q' ops <;> simp_all

end Verif.Snapshot
