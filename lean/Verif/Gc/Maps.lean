import Verif.Gc.Agree
import Verif.Gc.LiveLemmas
/-! The index maps of the encoder. -/
namespace Verif.Gc
open Verif.Reader Verif.Instr Verif.Items Verif.Reenc Verif.Reenc.Spec Spec

/-! ### `Remap` -/

def Remap.pushAll (r : Remap) (is : List (BitVec 32)) : Remap := is.foldl Remap.push r

theorem pushAll_append (r : Remap) (a b : List (BitVec 32)) :
    r.pushAll (a ++ b) = (r.pushAll a).pushAll b := List.foldl_append ..

theorem pushAll_next (r : Remap) (is : List (BitVec 32)) :
    (r.pushAll is).next = r.next + is.length := by
  induction is generalizing r with
  | nil => rfl
  | cons i is ih =>
    show ((r.push i).pushAll is).next = _
    rw [ih]
    simp only [Remap.push, List.length_cons]
    omega

theorem push_get (r : Remap) (i j : BitVec 32) :
    (r.push i).get? j = if j = i then some (BitVec.ofNat 32 r.next) else r.get? j := by
  unfold Remap.push Remap.get?
  rw [List.lookup_cons]
  by_cases h : j = i
  · simp [h]
  · have : (j == i) = false := by simp [h]
    rw [this, if_neg h]

theorem pushAll_get_other {r : Remap} {is : List (BitVec 32)} {j : BitVec 32} (h : j ∉ is) :
    (r.pushAll is).get? j = r.get? j := by
  induction is generalizing r with
  | nil => rfl
  | cons i is ih =>
    show ((r.push i).pushAll is).get? j = _
    rw [ih fun hm => h (List.mem_cons_of_mem _ hm), push_get, if_neg]
    rintro rfl
    exact h List.mem_cons_self

theorem pushAll_get {r : Remap} {is : List (BitVec 32)} (hn : is.Nodup) {k : Nat} {i : BitVec 32}
    (h : is[k]? = some i) : (r.pushAll is).get? i = some (BitVec.ofNat 32 (r.next + k)) := by
  induction is generalizing r k with
  | nil => cases h
  | cons a is ih =>
    show ((r.push a).pushAll is).get? i = _
    have hn' := List.nodup_cons.1 hn
    cases k with
    | zero =>
      cases h
      rw [pushAll_get_other hn'.1, push_get, if_pos rfl]
      rfl
    | succ k =>
      rw [ih hn'.2 h]
      simp only [Remap.push]
      congr 2
      omega

theorem pushAll_mem {r : Remap} {is : List (BitVec 32)} {j : BitVec 32}
    (h : ((r.pushAll is).get? j).isSome) : j ∈ is ∨ (r.get? j).isSome := by
  by_cases hm : j ∈ is
  · exact .inl hm
  · rw [pushAll_get_other hm] at h
    exact .inr h

theorem skip_get (r : Remap) (j : BitVec 32) : r.skip.get? j = r.get? j := rfl

/-- Whatever the one maps, the other maps to the same. -/
def Remap.Sub (r r' : Remap) : Prop := ∀ i j, r.get? i = some j → r'.get? i = some j

theorem Remap.Sub.refl (r : Remap) : r.Sub r := fun _ _ h => h

theorem Remap.Sub.trans {r r' r'' : Remap} (h : r.Sub r') (h' : r'.Sub r'') : r.Sub r'' :=
  fun i j g => h' i j (h i j g)

theorem sub_push {r : Remap} {i : BitVec 32} (h : r.get? i = none) : r.Sub (r.push i) := by
  intro j k hk
  rw [push_get, if_neg]
  · exact hk
  · rintro rfl
    rw [h] at hk
    cases hk

theorem sub_pushAll {r : Remap} : ∀ {is : List (BitVec 32)}, is.Nodup →
    (∀ i ∈ is, r.get? i = none) → r.Sub (r.pushAll is) := by
  intro is hn h j k hk
  rw [pushAll_get_other]
  · exact hk
  · intro hm
    rw [h j hm] at hk
    cases hk

/-- The map of an index space whose indices were pushed in this order, from 0. -/
structure Remap.Of (r : Remap) (is : List (BitVec 32)) : Prop where
  get : ∀ k i, is[k]? = some i → r.get? i = some (BitVec.ofNat 32 k)
  mem : ∀ i, (r.get? i).isSome → i ∈ is

theorem of_pushAll {is : List (BitVec 32)} (hn : is.Nodup) : (({} : Remap).pushAll is).Of is where
  get k i h := by
    rw [pushAll_get hn h]
    congr 2
    exact Nat.zero_add k
  mem i h := by
    rcases pushAll_mem h with h | h
    · exact h
    · cases h

/-! ### `Encoder` -/

structure Encoder.Sub (e e' : Encoder) : Prop where
  types : e.types.Sub e'.types
  funcs : e.funcs.Sub e'.funcs
  memories : e.memories.Sub e'.memories
  globals : e.globals.Sub e'.globals
  tables : e.tables.Sub e'.tables

theorem sub_getD {r r' : Remap} (h : r.Sub r') {i : BitVec 32} (hi : (r.get? i).isSome = true) :
    (r.get? i).getD i = (r'.get? i).getD i := by
  cases e : r.get? i with
  | none => rw [e] at hi; cases hi
  | some j => rw [h i j e]

theorem check_ok {e : Encoder} {cs : List (Method × BitVec 32)} {u : Unit}
    (h : e.check cs = .ok u) : ∀ c ∈ cs, e.knows c = true := by
  unfold Encoder.check at h
  split at h
  · next g => exact List.all_eq_true.1 g
  · cases h

theorem agree_of_check {e e' : Encoder} (hs : e.Sub e') {cs : List (Method × BitVec 32)} {u : Unit}
    (h : e.check cs = .ok u) : Agree e.maps e'.maps cs := by
  intro c hc
  have := check_ok h c hc
  obtain ⟨k, i⟩ := c
  cases k with
  | type => exact sub_getD hs.types this
  | func => exact sub_getD hs.funcs this
  | table => exact sub_getD hs.tables this
  | memory => exact sub_getD hs.memories this
  | global => exact sub_getD hs.globals this
  | _ => rfl

theorem remap_ok {r : Remap} {i j : BitVec 32} (h : r.remap i = .ok j) : r.get? i = some j := by
  unfold Remap.remap at h
  split at h
  · next e => cases h; exact e
  · cases h

/-! ### `live_iter` -/

theorem liveIter_mem {α : Type} {s : BitSet} {xs : List α} (hl : xs.length < 2 ^ 32)
    {p : BitVec 32 × α} : p ∈ liveIter s xs ↔ xs[p.1.toNat]? = some p.2 ∧ s.contains p.1 = true := by
  unfold liveIter
  rw [List.mem_filter, List.mem_map]
  refine and_congr_left fun _ => ?_
  constructor
  · rintro ⟨q, hq, rfl⟩
    obtain ⟨a, k⟩ := q
    have := List.mem_zipIdx_iff_getElem?.1 hq
    have hk := lt_length this
    rw [BitVec.toNat_ofNat, Nat.mod_eq_of_lt (by omega)]
    exact this
  · intro h
    refine ⟨(p.2, p.1.toNat), List.mem_zipIdx_iff_getElem?.2 h, ?_⟩
    simp
where
  lt_length {α : Type} {xs : List α} {k : Nat} {a : α} (h : xs[k]? = some a) : k < xs.length :=
    (List.getElem?_eq_some_iff.1 h).1

/-- The indices are in increasing order. -/
theorem liveIter_sorted {α : Type} {s : BitSet} {xs : List α} (hl : xs.length < 2 ^ 32) :
    ((liveIter s xs).map (·.1.toNat)).Pairwise (· < ·) := by
  unfold liveIter
  rw [List.pairwise_map]
  refine List.Pairwise.filter _ ?_
  rw [List.pairwise_map, List.pairwise_iff_getElem]
  intro i j hi hj hij
  rw [List.length_zipIdx] at hi hj
  rw [List.getElem_zipIdx, List.getElem_zipIdx]
  simp only [BitVec.toNat_ofNat]
  rw [Nat.mod_eq_of_lt (by omega), Nat.mod_eq_of_lt (by omega)]
  omega

theorem liveIter_nodup {α : Type} {s : BitSet} {xs : List α} (hl : xs.length < 2 ^ 32) :
    ((liveIter s xs).map (·.1)).Nodup := by
  have := liveIter_sorted (s := s) hl
  rw [List.pairwise_map] at this
  unfold List.Nodup
  rw [List.pairwise_map]
  refine this.imp ?_
  intro a b h e
  rw [e] at h
  omega

theorem liveIter_length {α : Type} (s : BitSet) (xs : List α) :
    (liveIter s xs).length ≤ xs.length := by
  unfold liveIter
  refine Nat.le_trans (List.length_filter_le ..) ?_
  simp

/-- The items of a part of the list, in the same order. -/
theorem liveIter_snd {α : Type} (s : BitSet) (xs : List α) :
    ((liveIter s xs).map (·.2)).Sublist xs := by
  unfold liveIter
  refine (List.filter_sublist.map _).trans ?_
  rw [List.map_map]
  rw [show (Prod.snd ∘ fun p : α × Nat => (BitVec.ofNat 32 p.2, p.1)) = Prod.fst from rfl]
  simp

/-- The number of the items before is at most the index. -/
theorem index_le {is : List Nat} (h : is.Pairwise (· < ·)) {k i : Nat} (hk : is[k]? = some i) :
    k ≤ i := by
  induction k generalizing i with
  | zero => omega
  | succ k ih =>
    obtain ⟨hlt, e⟩ := List.getElem?_eq_some_iff.1 hk
    have h1 := ih (List.getElem?_eq_getElem (by omega : k < is.length))
    have h2 := List.pairwise_iff_getElem.1 h k (k + 1) (by omega) hlt (by omega)
    omega

/-- Hence the new index is at most the old one. -/
theorem Remap.Of.le {r : Remap} {is : List (BitVec 32)} (h : r.Of is)
    (hs : (is.map (·.toNat)).Pairwise (· < ·)) (i : BitVec 32) :
    ((r.get? i).getD i).toNat ≤ i.toNat := by
  cases e : r.get? i with
  | none => exact Nat.le_refl _
  | some j =>
    obtain ⟨k, hk, hi⟩ := List.getElem_of_mem (h.mem i (by rw [e]; rfl))
    have h1 := h.get k i (List.getElem?_eq_some_iff.2 ⟨hk, hi⟩)
    rw [e] at h1
    cases h1
    have h2 : k ≤ i.toNat := index_le hs (k := k) (by
      rw [List.getElem?_map, List.getElem?_eq_some_iff.2 ⟨hk, hi⟩]; rfl)
    show (BitVec.ofNat 32 k).toNat ≤ _
    rw [BitVec.toNat_ofNat]
    exact Nat.le_trans (Nat.mod_le _ _) h2

theorem Remap.Of.inj {r : Remap} {is : List (BitVec 32)} (h : r.Of is) (hl : is.length < 2 ^ 32)
    {i j : BitVec 32} (hi : i ∈ is) (hj : j ∈ is)
    (e : (r.get? i).getD i = (r.get? j).getD j) : i = j := by
  obtain ⟨k, hk, rfl⟩ := List.getElem_of_mem hi
  obtain ⟨l, hl', rfl⟩ := List.getElem_of_mem hj
  rw [h.get k _ (List.getElem?_eq_getElem hk), h.get l _ (List.getElem?_eq_getElem hl')] at e
  have e := congrArg BitVec.toNat e
  simp only [Option.getD_some, BitVec.toNat_ofNat] at e
  rw [Nat.mod_eq_of_lt (by omega), Nat.mod_eq_of_lt (by omega)] at e
  subst e
  rfl

end Verif.Gc
