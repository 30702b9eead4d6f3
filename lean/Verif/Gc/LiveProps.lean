import Verif.Gc.Loop
/-! # C56: liveness of the items of an adapter module -/
namespace Verif.Gc
open Verif.Reader Verif.Instr Verif.Items Verif.Reenc Verif.Reenc.Spec Spec

variable {f : Instr.Features} {m : Module} {L : Live}

theorem liveness_inv (h : liveness f m = .ok L) : Inv f m L ∧ L.work = [] := by
  unfold liveness at h
  split at h
  · cases h
  · next L0 e => exact loop_inv (exports_inv e) h

theorem refs_collected {x y : Item} (h : Refs f m x y) : collected x.1 = true := by
  cases h <;> rfl

theorem refs_item {x y : Item} (h : Refs f m x y) : ∃ w, itemOf w = x := by
  cases h
  · exact ⟨(_, .func), rfl⟩
  · exact ⟨(_, .func), rfl⟩
  · exact ⟨(_, .func), rfl⟩
  · exact ⟨(_, .global), rfl⟩
  · exact ⟨(_, .global), rfl⟩
  · exact ⟨(_, .table), rfl⟩
  · exact ⟨(_, .type), rfl⟩

/-- Only what the exports need is live. -/
theorem c56_sound (h : liveness f m = .ok L) (x : Item) (hx : live L x = true) : Reach f m x :=
  (liveness_inv h).1.sound x hx

/-- If no local, no global and no result of a block has a type with an index, then everything that
the exports need is live, hence exactly that. Missing for all modules: see `c56_false`. -/
theorem c56_exact_partial (h : liveness f m = .ok L) (hs : Simple f m) (x : Item)
    (hc : collected x.1 = true) : live L x = true ↔ Reach f m x := by
  refine ⟨c56_sound h x, ?_⟩
  intro hx
  obtain ⟨hi, hw⟩ := liveness_inv h
  induction hx with
  | root he => exact hi.roots _ he
  | @step x y _ hr ih =>
    obtain ⟨w, rfl⟩ := refs_item hr
    exact hi.done hs w (ih (refs_collected hr)) (by rw [hw]; simp) y hr hc

/-- The analysis succeeds if all that can be reached exists and can be read, and no tag is
exported. -/
theorem c56_total (he : ∀ e ∈ m.exports, e.kind ≠ .tag)
    (hf : ∀ x, Reach f m x → ItemFine f m x) : ∃ L, liveness f m = .ok L := by
  obtain ⟨L0, h0⟩ := exports_total {} he
  unfold liveness
  rw [h0]
  exact loop_total hf (exports_inv h0) (Nat.lt_of_le_of_lt (cnt_le _) (by omega))

/-- The worklist is empty after as many steps as the model allows, so the bound is none:
any larger number of steps gives the same result. -/
theorem c56_fuel {L0 : Live} (h : liveExports {} m.exports = .ok L0) {n : Nat}
    (hn : m.size + 2 ≤ n) : liveLoop f m n L0 = liveness f m := by
  unfold liveness
  rw [h]
  have := cnt_le (m := m) L0
  exact loop_fuel (exports_inv h) (by omega) (by omega)

namespace LiveSample

def feats : Instr.Features := ⟨true, true, true, true⟩

/-- `(ref null 1)`. -/
def ref1 : Types.ValType := .ref (.concrete true ⟨1#32⟩)

/-- A function with a local of this type: `(module (type (func)) (type (func))
(func (export "f") (type 0) (local (ref null 1))))`. -/
def withLocal : Module where
  types := [⟨[], 0⟩, ⟨[], 0⟩]
  funcs := [⟨.loc ⟨[1, 1, 0x63, 1, 0x0B], 0, 0⟩, 0⟩]
  exports := [⟨[0x66], .func, 0⟩]

/-- The same with `block (result (ref null 1)) unreachable end drop`. -/
def withBlock : Module where
  types := [⟨[], 0⟩, ⟨[], 0⟩]
  funcs := [⟨.loc ⟨[0, 0x02, 0x63, 1, 0x00, 0x0B, 0x1A, 0x0B], 0, 0⟩, 0⟩]
  exports := [⟨[0x66], .func, 0⟩]

/-- An exported global of this type, `(global (export "f") (ref null 1) (ref.null nofunc))`. -/
def withGlobal : Module where
  types := [⟨[], 0⟩, ⟨[], 0⟩]
  globals := [⟨.loc ⟨⟨[0xD0, 0x73, 0x0B], 0, 0⟩⟩, ⟨ref1, false, false⟩⟩]
  exports := [⟨[0x66], .global, 0⟩]

/-- Something is kept and something is not: function 1 calls function 3, which reads global 1;
functions 0 and 2 and global 0 are not needed. -/
def plain : Module where
  types := [⟨[], 0⟩, ⟨[.i32], 0⟩, ⟨[.i32], 1⟩]
  globals := [⟨.loc ⟨⟨[0x41, 0, 0x0B], 0, 0⟩⟩, ⟨.i32, true, false⟩⟩,
    ⟨.loc ⟨⟨[0x41, 1, 0x0B], 0, 0⟩⟩, ⟨.i32, true, false⟩⟩]
  funcs := [⟨.imp [0x61] [0x62], 2⟩, ⟨.loc ⟨[0, 0x10, 3, 0x1A, 0x0B], 0, 0⟩, 0⟩,
    ⟨.loc ⟨[0, 0x0B], 0, 0⟩, 0⟩, ⟨.loc ⟨[0, 0x23, 1, 0x0B], 0, 0⟩, 1⟩]
  exports := [⟨[0x66], .func, 1⟩]

end LiveSample
open LiveSample

/-- Exactness fails in general: the type of a local of an exported function is not live. -/
theorem c56_false : ∃ (f : Instr.Features) (m : Module) (L : Live) (x : Item),
    liveness f m = .ok L ∧ Reach f m x ∧ collected x.1 = true ∧ live L x = false := by
  refine ⟨feats, withLocal, { types := ⟨[1]⟩, funcs := ⟨[1]⟩ }, (.type, 1), by decide +kernel, ?_,
    rfl, by decide +kernel⟩
  refine .step (.root (e := ⟨[0x66], .func, 0⟩) (by simp [withLocal]))
    (.funcLocal (ds := [(1, ref1)]) (d := (1, ref1)) rfl rfl (by decide +kernel) (by simp)
      (by decide +kernel))

/-- `run` panics then, in each of the three cases. -/
theorem c56_panics : ∀ m ∈ [withLocal, withBlock, withGlobal],
    run feats m none [[0x66]] = .error (.panic "can't map to a new index") := by
  decide +kernel

/-- An operator of the exceptions proposal, which is on by default, panics as well:
`block try_table (catch_all 0) end end`. -/
theorem c56_try_table : run feats { withLocal with
    funcs := [⟨.loc ⟨[0, 0x02, 0x40, 0x1F, 0x40, 1, 2, 0, 0x0B, 0x0B, 0x0B], 0, 0⟩, 0⟩] } none
      [[0x66]] = .error (.panic "not implemented") := by
  decide +kernel

example : ∃ L, liveness feats plain = .ok L ∧
    ([0, 1, 2, 3].map fun i => live L (.func, i)) = [false, true, false, true] ∧
    ([0, 1].map fun i => live L (.global, i)) = [false, true] ∧
    ([0, 1, 2].map fun i => live L (.type, i)) = [true, true, false] :=
  ⟨{ types := ⟨[3]⟩, globals := ⟨[2]⟩, funcs := ⟨[10]⟩ }, by decide +kernel⟩

namespace LiveSample

def simpleB : Operator → Bool
  | .block _ (.type t) => valRefs t = []
  | .idx .contNew _ => false
  | .idx2 .contBind _ _ => false
  | .idx2 .switch _ _ => false
  | _ => true

theorem simple_of {op : Operator} (h : simpleB op = true) : OpSimple op := by
  unfold simpleB at h
  split at h <;> simp_all [OpSimple]

def fineB : Operator → Bool
  | .tryTable _ _ | .resume _ _ | .resumeThrow _ _ _ | .resumeThrowRef _ _ | .heap _ _
  | .cast _ _ _ _ | .typedSelect _ | .typedSelectMulti _ => false
  | _ => true

theorem fine_of {op : Operator} (h : fineB op = true) : OpFine op := by
  unfold fineB at h
  split at h <;> simp_all [OpFine]

def allOps (p : Operator → Bool) : Except Err (List Operator × OperatorsReader) → Bool
  | .ok (ops, s) => ops.all p && s.finish = .ok ()
  | .error _ => false

theorem allOps_mem {p : Operator → Bool} {r : Except Err (List Operator × OperatorsReader)}
    (h : allOps p r = true) {ops s} (e : r = .ok (ops, s)) : ∀ op ∈ ops, p op = true := by
  subst e
  simp only [allOps, Bool.and_eq_true, List.all_eq_true] at h
  exact h.1

theorem allOps_ok {p : Operator → Bool} {r : Except Err (List Operator × OperatorsReader)}
    (h : allOps p r = true) : ∃ ops s, r = .ok (ops, s) ∧ s.finish = .ok () ∧
      ∀ op ∈ ops, p op = true := by
  unfold allOps at h
  split at h
  · simp only [Bool.and_eq_true, List.all_eq_true, decide_eq_true_eq] at h
    exact ⟨_, _, rfl, h.2, h.1⟩
  · cases h

def bodyOf : Func → Option Reader
  | ⟨.loc b, _⟩ => some b
  | _ => none

def initOf : Global → Option ConstExpr
  | ⟨.loc e, _⟩ => some e
  | _ => none

theorem bodyOf_eq {fn : Func} {b : Reader} (h : fn.dfn = .loc b) : bodyOf fn = some b := by
  obtain ⟨d, t⟩ := fn
  cases h
  rfl

theorem initOf_eq {g : Global} {e : ConstExpr} (h : g.dfn = .loc e) : initOf g = some e := by
  obtain ⟨d, t⟩ := g
  cases h
  rfl

theorem plain_simple : Simple feats plain where
  locals fn hf b hb ds hd d h := by
    have : ∀ fn ∈ plain.funcs, ∀ b ∈ bodyOf fn, localsOf b = .ok [] := by decide +kernel
    rw [this fn hf b (bodyOf_eq hb)] at hd
    cases hd
    cases h
  ops fn hf b hb ops s ho op h := by
    have : ∀ fn ∈ plain.funcs, ∀ b ∈ bodyOf fn, allOps simpleB (operatorsOf feats b) = true := by
      decide +kernel
    exact simple_of (allOps_mem (this fn hf b (bodyOf_eq hb)) ho op h)
  globals := by decide +kernel
  inits g hg e he ops s ho op h := by
    have : ∀ g ∈ plain.globals, ∀ e ∈ initOf g, allOps simpleB (initOps feats e) = true := by
      decide +kernel
    exact simple_of (allOps_mem (this g hg e (initOf_eq he)) ho op h)

def plainLive : Live := { types := ⟨[3]⟩, globals := ⟨[2]⟩, funcs := ⟨[10]⟩ }

theorem contains_lt {w : BitVec 64} {i : BitVec 32} (h : BitSet.contains ⟨[w]⟩ i = true) :
    i.toNat < 64 := by
  unfold BitSet.contains idxBit at h
  by_cases hi : i.toNat < 64
  · exact hi
  · rw [List.getElem?_eq_none (by simp; omega)] at h
    cases h

theorem plain_fine (x : Item) (hx : Reach feats plain x) : ItemFine feats plain x := by
  have hl : collected x.1 = true → live plainLive x = true := fun hc =>
    (c56_exact_partial (L := plainLive) (by decide +kernel) plain_simple x hc).2 hx
  obtain ⟨s, i⟩ := x
  cases s with
  | func =>
    have h := hl rfl
    have hlt := contains_lt h
    have key : ∀ k < 64, BitSet.contains ⟨[10]⟩ (BitVec.ofNat 32 k) = true → k = 1 ∨ k = 3 := by
      decide +kernel
    have hk := key i.toNat hlt (by rw [BitVec.ofNat_toNat, BitVec.setWidth_eq]; exact h)
    have : ∀ fn ∈ plain.funcs, ∀ b ∈ bodyOf fn, allOps fineB (operatorsOf feats b) = true := by
      decide +kernel
    have hget : i.toNat < plain.funcs.length := by
      rcases hk with h | h <;> rw [h] <;> decide
    refine ⟨_, List.getElem?_eq_getElem hget, ?_⟩
    intro b hb
    obtain ⟨ops, s, h1, h2, h3⟩ := allOps_ok (this _ (List.getElem_mem _) b (bodyOf_eq hb))
    exact ⟨ops, s, h1, h2, fun op h => fine_of (h3 op h)⟩
  | global =>
    have h := hl rfl
    have hlt := contains_lt h
    have key : ∀ k < 64, BitSet.contains ⟨[2]⟩ (BitVec.ofNat 32 k) = true → k = 1 := by
      decide +kernel
    have hk := key i.toNat hlt (by rw [BitVec.ofNat_toNat, BitVec.setWidth_eq]; exact h)
    have : ∀ g ∈ plain.globals, ∀ e ∈ initOf g, allOps fineB (initOps feats e) = true := by
      decide +kernel
    have hget : i.toNat < plain.globals.length := by rw [hk]; decide
    refine ⟨_, List.getElem?_eq_getElem hget, ?_⟩
    intro e he
    obtain ⟨ops, s, h1, h2, h3⟩ := allOps_ok (this _ (List.getElem_mem _) e (initOf_eq he))
    exact ⟨ops, s, h1, h2, fun op h => fine_of (h3 op h)⟩
  | type =>
    have h := hl rfl
    have hlt := contains_lt h
    have key : ∀ k < 64, BitSet.contains ⟨[3]⟩ (BitVec.ofNat 32 k) = true → k < 3 := by
      decide +kernel
    have hk := key i.toNat hlt (by rw [BitVec.ofNat_toNat, BitVec.setWidth_eq]; exact h)
    refine ⟨_, List.getElem?_eq_getElem (l := plain.types) hk, ?_⟩
    have : ∀ t ∈ plain.types, ∀ v ∈ t.params ++ t.results, v = .i32 := by decide +kernel
    intro v hv
    rw [this _ (List.getElem_mem _) v (List.mem_append.2 hv)]
    trivial
  | table => cases hl rfl
  | _ => trivial

end LiveSample

/-- The hypotheses of `c56_exact_partial` and `c56_total` hold for this module, in which something
is live and something is not. -/
example : Simple feats plain ∧ (∀ x, Reach feats plain x → ItemFine feats plain x) ∧
    (∀ e ∈ plain.exports, e.kind ≠ .tag) ∧ Reach feats plain (.global, 1) ∧
    ¬ Reach feats plain (.global, 0) := by
  have h : liveness feats plain = .ok plainLive := by decide +kernel
  refine ⟨plain_simple, plain_fine, by decide, ?_, ?_⟩
  · exact (c56_exact_partial h plain_simple (.global, 1) rfl).1 (by decide +kernel)
  · intro g
    exact absurd ((c56_exact_partial h plain_simple (.global, 0) rfl).2 g) (by decide +kernel)

end Verif.Gc
