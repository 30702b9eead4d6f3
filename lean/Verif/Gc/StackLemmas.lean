import Verif.Gc.Part
import Verif.Gc.StackSpec
/-! Lemmas for C58. -/
namespace Verif.Gc
open Verif.Reader Verif.Instr Verif.Items Verif.Reenc Verif.Reenc.Spec Spec

variable {f : Instr.Features} {m : Module} {main : Option (List UInt8)} {L : Live} {o : Out}
variable {e : Encoder} {si : Option Nat} {x : Lists}

theorem named_mem (hl : m.globals.length < 2 ^ 32) {name : List UInt8} {i : BitVec 32} :
    IsNamed m L name i ↔ ∃ p, p.1 = i ∧ p ∈ (liveIter L.globals m.globals).filter (fun p =>
      p.2.ty.mutable && p.2.ty.contentType = .i32 && m.globalNames.lookup p.1 = some name) := by
  constructor
  · rintro ⟨g, h1, h2, h3, h4, h5⟩
    refine ⟨(i, g), rfl, List.mem_filter.2 ⟨(liveIter_mem hl).2 ⟨h1, h2⟩, ?_⟩⟩
    simp [h3, h4, h5]
  · rintro ⟨p, rfl, h⟩
    obtain ⟨h1, h2⟩ := List.mem_filter.1 h
    obtain ⟨h3, h4⟩ := (liveIter_mem hl).1 h1
    simp only [Bool.and_eq_true, decide_eq_true_eq] at h2
    exact ⟨p.2, h3, h4, h2.1.1, h2.1.2, h2.2⟩

theorem findGlobal_named (hl : m.globals.length < 2 ^ 32) {name : List UInt8}
    {r : Option (BitVec 32)} (h : findGlobal m L name = .ok r) : Named m L name r := by
  unfold findGlobal at h
  have key := fun i => named_mem (L := L) hl (name := name) (i := i)
  generalize (liveIter L.globals m.globals).filter _ = xs at h key
  cases xs with
  | nil =>
    cases h
    intro i hi
    obtain ⟨p, -, hp⟩ := (key i).1 hi
    cases hp
  | cons p xs =>
    cases xs with
    | cons q xs => cases h
    | nil =>
      cases h
      refine ⟨(key p.1).2 ⟨p, rfl, List.mem_singleton_self _⟩, ?_⟩
      intro j hj
      obtain ⟨q, rfl, hq⟩ := (key j).1 hj
      rw [List.mem_singleton.1 hq]

theorem no_memory (hp : Parsed f m) (h : (liveIter L.memories m.memories).length = 0) :
    ∀ i t, m.memories[i.toNat]? = some t → live L (.memory, i) = false := by
  intro i t ht
  cases hlive : live L (.memory, i) with
  | false => rfl
  | true =>
    have := (liveIter_mem (s := L.memories) (p := (i, t)) hp.numMemories).2 ⟨ht, hlive⟩
    rw [List.length_eq_zero_iff.1 h] at this
    cases this

theorem a_memory (hp : Parsed f m) (h : (liveIter L.memories m.memories).length = 1) :
    ∃ i t, m.memories[i.toNat]? = some t ∧ live L (.memory, i) = true := by
  cases hx : liveIter L.memories m.memories with
  | nil => rw [hx] at h; cases h
  | cons p ps =>
    have := (liveIter_mem (s := L.memories) (p := p) hp.numMemories).1 (by rw [hx]; exact List.mem_cons_self)
    exact ⟨p.1, p.2, this.1, this.2⟩

/-- Index `k` of the functions of the result. -/
theorem Shape.sizes (hp : Parsed f m) (h : Shape f m main L o e si x) :
    x.fs.length = (impFuncs m main L).length ∧ x.ltys.length = (locFuncs m main L).length ∧
    (impFuncs m main L).length + (locFuncs m main L).length + 4 < 2 ^ 32 ∧ x.ex.length ≤ 1 ∧
    x.lz.length ≤ 1 ∧ x.rl.length ≤ 1 := by
  have hsum : (impFuncs m main L).length + (locFuncs m main L).length =
      (liveIter L.funcs m.funcs).length :=
    (List.length_eq_length_filter_add (l := liveIter L.funcs m.funcs)
      (fun p => staysImport main p.2)).symm
  have := liveIter_length L.funcs m.funcs
  have := hp.numFuncs
  refine ⟨(forall₂_len h.fEnc).symm, (forall₂_len h.lEnc).symm, by omega, h.exLen, ?_, ?_⟩
  · rcases h.lz with ⟨-, h1, -⟩ | ⟨-, -, ty, b, r, p, h1, -⟩ <;> rw [h1]
    · exact Nat.zero_le _
    · exact Nat.le_refl _
  · rcases h.rl with ⟨h1, -⟩ | ⟨ty, -, h1, -⟩ <;> rw [h1]
    · exact Nat.zero_le _
    · exact Nat.le_refl _

/-- What the index of `cabi_realloc` is before helpers are added. -/
theorem Shape.reallocFirst (hp : Parsed f m) (h : Shape f m main L o e si x) {k : Nat}
    (hk : x.ri = some k) : ReallocAt main o (BitVec.ofNat 32 k) := by
  obtain ⟨locs, ho, hlocs, -⟩ := h.outFuncs hp
  obtain ⟨s1, s2, s3, s4, s5, s6⟩ := h.sizes hp
  have hll := forall₂_len hlocs
  rcases h.ri k hk with ⟨p, h1, h2⟩ | ⟨rfl, h1⟩ | ⟨j, p, h1, h2, rfl⟩
  · have hlt := (List.getElem?_eq_some_iff.1 h1).1
    obtain ⟨b, hb, mm, n, ty, e1, e2, rfl⟩ := forall₂_get h.fEnc h1
    obtain ⟨mm', n', e3, e4⟩ := h2
    rw [e1] at e3
    cases e3
    have hst := (List.mem_filter.1 (List.mem_of_getElem? h1)).2
    simp only [staysImport, e1, e4, Bool.not_true, Bool.false_or] at hst
    obtain ⟨r, rfl⟩ := Option.isSome_iff_exists.1 hst
    refine ⟨_, (?_ : _ = some (OutFunc.imp mm (if isRealloc mm n then (some r).getD n else n) ty)), ?_⟩
    · rw [BitVec.toNat_ofNat, Nat.mod_eq_of_lt (by omega), ho, List.getElem?_append_left (by omega),
        hb]
    · rw [if_pos e4]
      refine ⟨?_, rfl⟩
      simp only [isRealloc, Bool.and_eq_true, decide_eq_true_eq] at e4
      exact e4.1
  · rcases h.ex with h2 | ⟨n, ty, h2, h3, -⟩
    · exact (h1 h2).elim
    · refine ⟨.imp mainModule n ty, ?_, rfl, h3⟩
      rw [h2] at ho
      rw [BitVec.toNat_ofNat, Nat.mod_eq_of_lt (by omega), ho,
        List.getElem?_append_right (by omega), s1, Nat.sub_self]
      rfl
  · have hlt := (List.getElem?_eq_some_iff.1 h1).1
    obtain ⟨b, hb, hb'⟩ := forall₂_get hlocs h1
    cases b with
    | imp => exact hb'.elim
    | loc ty b =>
      refine ⟨.loc ty b, ?_, ?_⟩
      · rw [BitVec.toNat_ofNat, Nat.mod_eq_of_lt (by omega), ho,
          List.getElem?_append_right (by omega), List.getElem?_append_right (by omega),
          List.getElem?_append_left (by omega), ← hb]
        congr 1
        omega
      · show reallocFunction = .ok b
        rw [hb'.2.2 h2]
        exact reallocFunction_eq

/-- The same afterwards. -/
theorem Shape.reallocLast (hp : Parsed f m) (h : Shape f m main L o e si x) {k : Nat}
    (hk : x.ri' = some k) : ReallocAt main o (BitVec.ofNat 32 k) := by
  rcases h.rl with ⟨-, h1, -⟩ | ⟨ty, -, h1, -, h2⟩
  · exact h.reallocFirst hp (h1 ▸ hk)
  · obtain ⟨locs, ho, hlocs, -⟩ := h.outFuncs hp
    obtain ⟨s1, s2, s3, s4, s5, s6⟩ := h.sizes hp
    have hll := forall₂_len hlocs
    rw [hk] at h2
    cases h2
    refine ⟨.loc ty reallocBody, ?_, reallocFunction_eq⟩
    rw [h.more, h1] at ho
    rw [BitVec.toNat_ofNat, Nat.mod_eq_of_lt (by omega), ho,
      List.getElem?_append_right (by omega), List.getElem?_append_right (by omega),
      List.getElem?_append_right (by omega), List.append_assoc,
      List.getElem?_append_right (by omega),
      show (impFuncs m main L).length + x.ex.length + x.ltys.length + x.lz.length - x.fs.length -
        x.ex.length - locs.length - x.lz.length = 0 by omega]
    rfl

/-- Where the lazy function is. -/
theorem Shape.lzAt (hp : Parsed f m) (h : Shape f m main L o e si x) {y : OutFunc}
    (hy : x.lz = [y]) : (Spec.outFuncs o)[(BitVec.ofNat 32 ((impFuncs m main L).length +
      x.ex.length + x.ltys.length)).toNat]? = some y := by
  obtain ⟨locs, ho, hlocs, -⟩ := h.outFuncs hp
  obtain ⟨s1, s2, s3, s4, s5, s6⟩ := h.sizes hp
  have hll := forall₂_len hlocs
  rw [h.more, hy] at ho
  rw [BitVec.toNat_ofNat, Nat.mod_eq_of_lt (by omega), ho,
    List.getElem?_append_right (by omega), List.getElem?_append_right (by omega),
    List.getElem?_append_right (by omega),
    show (impFuncs m main L).length + x.ex.length + x.ltys.length - x.fs.length -
      x.ex.length - locs.length = 0 by omega]
  rfl

/-- Where the start function is. -/
theorem Shape.stAt (hp : Parsed f m) (h : Shape f m main L o e si x) {y : OutFunc}
    (hy : x.st = [y]) : (Spec.outFuncs o)[(BitVec.ofNat 32 ((impFuncs m main L).length +
      x.ex.length + x.ltys.length + x.lz.length + x.rl.length)).toNat]? = some y := by
  obtain ⟨locs, ho, hlocs, -⟩ := h.outFuncs hp
  obtain ⟨s1, s2, s3, s4, s5, s6⟩ := h.sizes hp
  have hll := forall₂_len hlocs
  rw [h.more, hy] at ho
  rw [BitVec.toNat_ofNat, Nat.mod_eq_of_lt (by omega), ho,
    List.getElem?_append_right (by omega), List.getElem?_append_right (by omega),
    List.getElem?_append_right (by omega),
    List.getElem?_append_right (by rw [List.length_append]; omega), List.length_append,
    show (impFuncs m main L).length + x.ex.length + x.ltys.length + x.lz.length + x.rl.length -
      x.fs.length - x.ex.length - locs.length - (x.lz.length + x.rl.length) = 0 by omega]
  rfl

/-- The index of an item with only live items before it stays. -/
theorem liveIter_prefix {α : Type} {s : BitSet} {xs : List α} (hl : xs.length < 2 ^ 32) {i : Nat}
    {a : α} (hi : xs[i]? = some a) (h : ∀ j, j ≤ i → s.contains (BitVec.ofNat 32 j) = true) :
    (liveIter s xs)[i]? = some (BitVec.ofNat 32 i, a) := by
  have hlt := (List.getElem?_eq_some_iff.1 hi).1
  unfold liveIter
  have hsplit := List.take_append_drop (i + 1) xs.zipIdx
  have hall : ((xs.zipIdx.take (i + 1)).map fun p => (BitVec.ofNat 32 p.2, p.1)).filter
      (fun p => s.contains p.1) = (xs.zipIdx.take (i + 1)).map fun p => (BitVec.ofNat 32 p.2, p.1) := by
    refine List.filter_eq_self.2 ?_
    intro p hp
    obtain ⟨q, hq, rfl⟩ := List.mem_map.1 hp
    obtain ⟨k, hk⟩ := mem_index hq
    have hk' := (List.getElem?_eq_some_iff.1 hk).1
    simp only [List.length_take, List.length_zipIdx] at hk'
    rw [List.getElem?_take_of_lt (by omega), List.getElem?_zipIdx] at hk
    cases hx : xs[k]? with
    | none => rw [hx] at hk; cases hk
    | some b =>
      rw [hx] at hk
      cases hk
      show s.contains (BitVec.ofNat 32 (0 + k)) = true
      rw [Nat.zero_add]
      exact h k (by omega)
  rw [← hsplit, List.map_append, List.filter_append, hall,
    List.getElem?_append_left, List.getElem?_map, List.getElem?_take_of_lt (by omega),
    List.getElem?_zipIdx, hi]
  · simp
  · simp only [List.length_map, List.length_take, List.length_zipIdx]; omega

theorem Shape.stays (hp : Parsed f m) (h : Shape f m main L o e si x) {i : BitVec 32}
    (hi : i.toNat < m.globals.length)
    (hb : ∀ j : BitVec 32, j.toNat ≤ i.toNat → live L (.global, j) = true) :
    e.maps.global i = i := by
  have h1 := liveIter_prefix (s := L.globals) hp.numGlobals (List.getElem?_eq_getElem hi) (by
    intro j hj
    refine hb _ ?_
    rw [BitVec.toNat_ofNat, Nat.mod_eq_of_lt (by omega)]
    exact hj)
  have h2 := map_at h.globals (liveIter_nodup hp.numGlobals)
    (by have := liveIter_length L.globals m.globals; have := hp.numGlobals; omega) h1
  rw [BitVec.ofNat_toNat, BitVec.setWidth_eq] at h2
  exact BitVec.eq_of_toNat_eq h2

end Verif.Gc
