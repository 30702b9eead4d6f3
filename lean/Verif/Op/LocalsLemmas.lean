import Verif.Op.Locals
import Verif.Op.LocalsSpec
/-! Looking up locals: lemmas. -/
namespace Verif.Op
open Verif.Std LocalsSpec

/-- A sequence of calls of `Locals::define`: the returned values and the final state. -/
def Locals.defineAll : Locals → List (BitVec 32 × Val) → List Bool × Locals
  | l, [] => ([], l)
  | l, (n, t) :: ds =>
    let r := (l.define n t).2.defineAll ds
    ((l.define n t).1 :: r.1, r.2)

/-- What the representation means. -/
structure Locals.Rep (l : Locals) (L : List Val) : Prop where
  num : l.numLocals.toNat = L.length
  max : L.length ≤ 50000
  first : l.first = L.take 50
  sorted : (l.uncached.map (·.1.toNat)).Pairwise (· < ·)
  entry : ∀ (i : Nat) (k : BitVec 32) (t : Val), l.uncached[i]? = some (k, t) → k.toNat < L.length ∧
    ∀ idx, 50 ≤ idx → idx ≤ k.toNat →
      (∀ (j : Nat) (k' : BitVec 32) (t' : Val), j < i → l.uncached[j]? = some (k', t') →
        k'.toNat < idx) → L[idx]? = some t
  small : L.length ≤ 50 → l.uncached = []
  last : 50 < L.length → ∃ (i : Nat) (k : BitVec 32) (t : Val), l.uncached[i]? = some (k, t) ∧ k.toNat = L.length - 1

theorem Locals.rep_new : Locals.new.Rep [] :=
  ⟨rfl, by simp, rfl, .nil, by intro i k t h; simp [Locals.new] at h, fun _ => rfl, by simp⟩

theorem take_append_replicate {L : List Val} (n : Nat) (t : Val) :
    (L ++ List.replicate n t).take 50 =
      L.take 50 ++ List.replicate (min (50 - L.length) n) t := by
  rw [List.take_append, List.take_replicate]

theorem Locals.rep_define {l : Locals} {L : List Val} (h : l.Rep L) (n : BitVec 32) (t : Val) :
    (L.length + n.toNat ≤ 50000 → (l.define n t).1 = true ∧
      (l.define n t).2.Rep (L ++ List.replicate n.toNat t)) ∧
    (¬ L.length + n.toNat ≤ 50000 → l.define n t = (false, l)) := by
  have hm := h.max
  have hn := n.isLt
  by_cases h0 : n = 0
  · subst h0
    simp [Locals.define, hm, h]
  have hpos : 0 < n.toNat := by
    rcases Nat.eq_zero_or_pos n.toNat with h' | h'
    · exact absurd (BitVec.eq_of_toNat_eq (by simpa using h')) h0
    · exact h'
  unfold Locals.define checkedAdd
  rw [if_neg h0, h.num]
  dsimp only
  constructor
  · intro hle
    rw [if_pos (by omega)]
    dsimp only
    have hadd : (l.numLocals + n).toNat = L.length + n.toNat := by
      rw [BitVec.toNat_add, h.num, Nat.mod_eq_of_lt (by omega)]
    rw [if_neg (by rw [hadd]; unfold maxWasmFunctionLocals; omega)]
    refine ⟨rfl, ?_⟩
    have hsub : (l.numLocals + n - 1).toNat = L.length + n.toNat - 1 := by
      rw [BitVec.toNat_sub, hadd]
      simp
      omega
    unfold maxLocalsToTrack
    refine ⟨by simp [h.num]; omega, by simp; omega, by rw [take_append_replicate, h.first], ?_, ?_, ?_, ?_⟩
    · dsimp only
      split
      · rw [List.map_append, List.pairwise_append]
        refine ⟨h.sorted, by simp, ?_⟩
        intro a ha b hb
        simp only [List.map_cons, List.map_nil, List.mem_singleton] at hb
        obtain ⟨⟨k, t'⟩, hk, rfl⟩ := List.mem_map.1 ha
        obtain ⟨i, hi⟩ := List.getElem?_of_mem hk
        have := (h.entry i k t' hi).1
        dsimp only
        omega
      · exact h.sorted
    · intro i k t' hi
      dsimp only at hi ⊢
      have old : ∀ (hi : l.uncached[i]? = some (k, t')),
          k.toNat < (L ++ List.replicate n.toNat t).length ∧ ∀ idx, 50 ≤ idx → idx ≤ k.toNat →
          (∀ (j : Nat) (k'' : BitVec 32) (t'' : Val), j < i → l.uncached[j]? = some (k'', t'') → k''.toNat < idx) →
          (L ++ List.replicate n.toNat t)[idx]? = some t' := by
        intro hi
        obtain ⟨h1, h2⟩ := h.entry i k t' hi
        refine ⟨by simp; omega, fun idx h5 hk hj => ?_⟩
        rw [List.getElem?_append_left (by omega)]
        exact h2 idx h5 hk hj
      split at hi
      · next hun =>
        rw [if_pos hun]
        rcases Nat.lt_or_ge i l.uncached.length with hlt | hge
        · rw [List.getElem?_append_left hlt] at hi
          obtain ⟨h1, h2⟩ := old hi
          refine ⟨h1, fun idx h5 hk hj => h2 idx h5 hk fun j k'' t'' hji he => ?_⟩
          exact hj j k'' t'' hji (by rw [List.getElem?_append_left (by omega)]; exact he)
        · rw [List.getElem?_append_right hge] at hi
          have hi0 : i - l.uncached.length = 0 := by
            rcases Nat.eq_zero_or_pos (i - l.uncached.length) with h' | h'
            · exact h'
            · rw [List.getElem?_eq_none (by simp; omega)] at hi; simp at hi
          rw [hi0] at hi
          simp only [List.getElem?_cons_zero, Option.some.injEq, Prod.mk.injEq] at hi
          obtain ⟨rfl, rfl⟩ := hi
          rw [hsub]
          refine ⟨by simp; omega, fun idx h5 hk hj => ?_⟩
          have hge' : L.length ≤ idx := by
            by_cases h50 : 50 < L.length
            · obtain ⟨j, k', t', he, hk'⟩ := h.last h50
              have hjl : j < l.uncached.length := (List.getElem?_eq_some_iff.1 he).1
              have := hj j k' t' (by omega) (by rw [List.getElem?_append_left hjl]; exact he)
              omega
            · omega
          rw [List.getElem?_append_right hge', List.getElem?_replicate, if_pos (by omega)]
      · next hun => rw [if_neg hun]; exact old hi
    · intro h50
      simp only [List.length_append, List.length_replicate] at h50
      rw [if_neg (by omega)]
      exact h.small (by omega)
    · intro h50
      simp only [List.length_append, List.length_replicate] at h50 ⊢
      rw [if_pos (by omega)]
      exact ⟨l.uncached.length, _, t, by simp, hsub⟩
  · intro hgt
    split
    · rfl
    · next m hm' =>
      split at hm'
      · cases hm'
        have hadd : (l.numLocals + n).toNat = L.length + n.toNat := by
          rw [BitVec.toNat_add, h.num, Nat.mod_eq_of_lt (by omega)]
        rw [if_pos (by rw [hadd]; unfold maxWasmFunctionLocals; omega)]
      · cases hm'

theorem Locals.rep_defineAll : ∀ (ds : List (BitVec 32 × Val)) {l : Locals} {L : List Val},
    l.Rep L → (l.defineAll ds).1 = (declare L ds).1 ∧
      (l.defineAll ds).2.Rep (declare L ds).2
  | [], _, _, h => ⟨rfl, h⟩
  | (n, t) :: ds, l, L, h => by
    obtain ⟨h1, h2⟩ := Locals.rep_define h n t
    unfold Locals.defineAll declare
    by_cases hle : L.length + n.toNat ≤ 50000
    · rw [if_pos hle]
      obtain ⟨ht, hr⟩ := h1 hle
      obtain ⟨ha, hb⟩ := Locals.rep_defineAll ds hr
      exact ⟨by dsimp only; rw [ht, ha], hb⟩
    · rw [if_neg hle]
      rw [h2 hle]
      obtain ⟨ha, hb⟩ := Locals.rep_defineAll ds h
      exact ⟨by dsimp only; rw [ha], hb⟩

theorem Locals.rep_get {l : Locals} {L : List Val} (h : l.Rep L) (bs : BSearch)
    (idx : BitVec 32) : l.get bs idx = L[idx.toNat]? := by
  unfold Locals.get
  rw [h.first, List.getElem?_take]
  by_cases hlt : idx.toNat < 50
  · rw [if_pos hlt]
    rcases Nat.lt_or_ge idx.toNat L.length with hl | hl
    · rw [List.getElem?_eq_getElem hl]
    · rw [List.getElem?_eq_none hl]
      dsimp only
      rw [Locals.getBsearch, h.small (by omega)]
      cases hs : bs.search (List.map (fun p : BitVec 32 × Val => p.1.toNat) []) idx.toNat with
      | ok i => simp
      | error i => simp
  · rw [if_neg hlt]
    dsimp only
    unfold Locals.getBsearch
    have hsorted : (l.uncached.map (·.1.toNat)).Pairwise (· ≤ ·) :=
      h.sorted.imp fun hab => Nat.le_of_lt hab
    have lookup : ∀ i : Nat, i < l.uncached.length →
        (∀ (j : Nat) (k' : BitVec 32) (t' : Val), j < i → l.uncached[j]? = some (k', t') →
          k'.toNat < idx.toNat) →
        (∀ (k : BitVec 32) (t : Val), l.uncached[i]? = some (k, t) → idx.toNat ≤ k.toNat) →
        (l.uncached[i]?).map (·.2) = L[idx.toNat]? := by
      intro i hi hlow hup
      obtain ⟨⟨k, t⟩, hk⟩ : ∃ p, l.uncached[i]? = some p :=
        ⟨_, List.getElem?_eq_getElem hi⟩
      rw [hk, (h.entry i k t hk).2 idx.toNat (by omega) (hup k t hk) hlow]
      rfl
    split
    · next i hs =>
      obtain ⟨h1, h2, h3⟩ := bs.error_spec hsorted hs
      have hlow : ∀ (j : Nat) (k' : BitVec 32) (t' : Val), j < i →
          l.uncached[j]? = some (k', t') → k'.toNat < idx.toNat := by
        intro j k' t' hj he
        exact h2 j k'.toNat hj (by rw [List.getElem?_map, he]; rfl)
      rw [List.length_map] at h1
      split
      · next hi =>
        symm
        rw [List.getElem?_eq_none_iff]
        by_cases h50 : 50 < L.length
        · obtain ⟨j, k, t, he, hk⟩ := h.last h50
          have := hlow j k t (by rw [hi]; exact (List.getElem?_eq_some_iff.1 he).1) he
          omega
        · omega
      · refine lookup i (by omega) hlow fun k t hk => ?_
        exact Nat.le_of_lt (h3 i k.toNat (Nat.le_refl i) (by rw [List.getElem?_map, hk]; rfl))
    · next i hs =>
      have hi := bs.ok_spec hsorted hs
      rw [List.getElem?_map] at hi
      obtain ⟨⟨k, t⟩, hk, hkt⟩ := Option.map_eq_some_iff.1 hi
      have hil : i < l.uncached.length := (List.getElem?_eq_some_iff.1 hk).1
      refine lookup i hil ?_ ?_
      · intro j k' t' hj he
        have := List.pairwise_iff_getElem.1 h.sorted j i (by simp; omega) (by simpa using hil) hj
        rw [List.getElem_map, List.getElem_map] at this
        rw [List.getElem?_eq_some_iff] at he hk
        obtain ⟨_, he⟩ := he
        obtain ⟨_, hk⟩ := hk
        rw [he, hk] at this
        dsimp only at this hkt
        omega
      · intro k' t' hk'
        rw [hk] at hk'
        cases hk'
        dsimp only at hkt
        omega

end Verif.Op

