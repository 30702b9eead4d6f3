import Verif.Gc.Props
import Verif.Gc.StackLemmas
/-! # C58: the collected adapter allocates its stack -/
namespace Verif.Gc
open Verif.Reader Verif.Instr Verif.Items Verif.Reenc Verif.Reenc.Spec Spec

variable {f : Instr.Features} {m : Module} {main : Option (List UInt8)} {L : Live} {o : Out}

theorem shape_stackInit (hp : Parsed f m) {e : Encoder} {si : Option Nat} {x : Lists}
    (h : Shape f m main L o e si x) {sp : BitVec 32} (hsp : x.sp = some sp) :
    StackInit m main L o (firstOps si)
      (if x.state.isSome ∧ main.isSome then sp else e.maps.global sp) x.state x.state := by
  unfold StackInit
  rcases h.lz with ⟨rfl, h1, h2⟩ | ⟨h2, rfl, ty, b, r, p, h1, h3, h4, h5, h6⟩
  · have hc : ¬ (x.state.isSome = true ∧ main.isSome = true) :=
      fun hc => h2 ⟨by rw [hsp]; rfl, hc⟩
    rw [if_neg hc, if_neg hc]
    refine ⟨rfl, ?_⟩
    rcases h.st with ⟨-, h4, h5⟩ | ⟨ty, b, p, p', r, h4, -, h5, h6, h7, h8, h9, h10, h11⟩
    · refine .inl ⟨?_, h4⟩
      rcases h5 with h5 | h5 | h5
      · rw [hsp] at h5; cases h5
      · cases h5
      · exact no_memory hp h5
    · rw [hsp] at h5
      cases h5
      have hsp' : e.maps.global sp = p' := by
        show (e.globals.get? sp).getD sp = p'
        rw [h7]; rfl
      rw [hsp']
      exact .inr ⟨a_memory hp h6, _, h9, ty, b, _, h.stAt hp h4, h11, h.reallocLast hp h8, h10⟩
  · rw [if_pos h2.2, if_pos h2.2]
    rw [hsp] at h4
    cases h4
    refine ⟨?_, _, rfl, ty, b, _, h.lzAt hp h1, h6, h.reallocFirst hp h3, h5⟩
    rcases h.st with ⟨-, h7, -⟩ | ⟨_, _, _, _, _, -, h7, -⟩
    · exact h7
    · cases h7

theorem shape_noStack {e : Encoder} {si : Option Nat} {x : Lists}
    (h : Shape f m main L o e si x) (hsp : x.sp = none) : firstOps si = [] ∧ o.start = none := by
  constructor
  · rcases h.lz with ⟨rfl, -⟩ | ⟨h2, -⟩
    · rfl
    · rw [hsp] at h2; cases h2.1
  · rcases h.st with ⟨-, h7, -⟩ | ⟨_, _, _, _, _, -, -, h7, -⟩
    · exact h7
    · rw [hsp] at h7; cases h7

/-- What `encode` does about the stack. The claim would be `Stack m main L o ρ first`, which is
false (`c58_false`): the index of the global for the state is not renamed, nor is, in the function
that is called by exported functions, the index of the stack pointer. -/
theorem c58_partial (hp : Parsed f m) (h : encode f m main L = .ok o) :
    ∃ ρ first, Part f m main L o ρ first ∧ ∃ sp st, Named m L stackPointer sp ∧
      Named m L allocationState st ∧
      match sp with
      | none => first = [] ∧ o.start = none
      | some sp => StackInit m main L o first
          (if st.isSome ∧ main.isSome then sp else ρ.global sp) st st := by
  obtain ⟨e, si, x, hs⟩ := encode_shape hp h
  refine ⟨e.maps, firstOps si, hs.part hp, x.sp, x.state,
    findGlobal_named hp.numGlobals hs.spFound, findGlobal_named hp.numGlobals hs.stateFound, ?_⟩
  cases hsp : x.sp with
  | none => exact shape_noStack hs hsp
  | some sp => exact shape_stackInit hp hs hsp

/-- If no global is removed before the stack pointer and the state, the stack is allocated as it
should. -/
theorem c58_kept_partial (hp : Parsed f m) (h : encode f m main L = .ok o)
    (hk : ∀ i, IsNamed m L stackPointer i ∨ IsNamed m L allocationState i →
      ∀ j : BitVec 32, j.toNat ≤ i.toNat → live L (.global, j) = true) :
    ∃ ρ first, Part f m main L o ρ first ∧ Stack m main L o ρ first := by
  obtain ⟨e, si, x, hs⟩ := encode_shape hp h
  have n1 := findGlobal_named hp.numGlobals hs.spFound
  have n2 := findGlobal_named hp.numGlobals hs.stateFound
  refine ⟨e.maps, firstOps si, hs.part hp, x.sp, x.state, n1, n2, ?_⟩
  have lt : ∀ {name i}, IsNamed m L name i → i.toNat < m.globals.length := fun ⟨g, hg, _⟩ =>
    (List.getElem?_eq_some_iff.1 hg).1
  cases hsp : x.sp with
  | none => exact shape_noStack hs hsp
  | some sp =>
    have := shape_stackInit hp hs hsp
    rw [hsp] at n1
    have hsp' := hs.stays hp (lt n1.1) (hk sp (.inl n1.1))
    have hst' : x.state.map e.maps.global = x.state := by
      cases hst : x.state with
      | none => rfl
      | some st =>
        rw [hst] at n2
        rw [Option.map_some, hs.stays hp (lt n2.1) (hk st (.inr n2.1))]
    show StackInit m main L o (firstOps si) (e.maps.global sp) x.state (x.state.map e.maps.global)
    rw [hst', hsp']
    rw [hsp', ite_self] at this
    exact this

namespace StackSample
open LiveSample PartSample

/-- `lazy` with the export that is needed. -/
def lazyOne : Module := { lazy with exports := [⟨[0x66], .func, 2⟩] }

theorem lazyOne_parsed : Parsed feats lazyOne :=
  ⟨lazy_parsed.funcs, lazy_parsed.globals, lazy_parsed.inits, by decide, by decide, by decide,
    by decide, by decide⟩

/-- What it needs. -/
def lazyLive : Live := { types := ⟨[1]⟩, globals := ⟨[3]⟩, funcs := ⟨[4]⟩, memories := ⟨[1]⟩ }

theorem lazy_named {name : List UInt8} {i : BitVec 32}
    (h : IsNamed lazyOne lazyLive name i) : i.toNat < 2 := by
  obtain ⟨g, h1, h2, -⟩ := h
  have h3 : i.toNat < 3 := (List.getElem?_eq_some_iff.1 h1).1
  have h4 : i ≠ 2 := by rintro rfl; revert h2; decide
  have h5 : i.toNat ≠ 2 := fun h => h4 (BitVec.eq_of_toNat_eq h)
  omega

/-- `lazy` with the globals of the stack after one that is not needed. -/
def shifted : Module where
  types := [⟨[], 0⟩]
  memories := [⟨.imp [0x65] [0x6D], ⟨false, false, 0, none, none⟩⟩]
  globals := [⟨.loc ⟨⟨[0x41, 0, 0x0B], 0, 0⟩⟩, ⟨.i32, true, false⟩⟩,
    ⟨.loc ⟨⟨[0x41, 0, 0x0B], 0, 0⟩⟩, ⟨.i32, true, false⟩⟩,
    ⟨.loc ⟨⟨[0x41, 1, 0x0B], 0, 0⟩⟩, ⟨.i32, true, false⟩⟩]
  funcs := [⟨.loc ⟨[0, 0x23, 1, 0x24, 2, 0x3F, 0, 0x1A, 0x0B], 0, 0⟩, 0⟩]
  exports := [⟨[0x66], .func, 0⟩]
  globalNames := [(1, stackPointer), (2, allocationState)]

def shiftedLive : Live := { types := ⟨[1]⟩, globals := ⟨[6]⟩, funcs := ⟨[1]⟩, memories := ⟨[1]⟩ }

theorem shifted_parsed : Parsed feats shifted :=
  ⟨by unfold ImportsFirst; decide +kernel, by unfold ImportsFirst; decide +kernel,
    fun g hg => const_of
      (List.all_eq_true.1 (by decide +kernel : shifted.globals.all constB = true) g hg),
    by decide, by decide, by decide, by decide, by decide⟩

/-- The body is not the one that allocates the stack for these globals. -/
def notStack (b : List UInt8) (r sp st : Nat) : Bool :=
  match stackFunction (BitVec.ofNat 32 r) (BitVec.ofNat 32 sp) (some (BitVec.ofNat 32 st)) with
  | .ok b' => b' != b
  | .error _ => true

def wrong : Except Fail Out → Bool
  | .ok o => (outGlobals o).length == 2 && (outFuncs o).length == 3 && (outFuncs o).all fun fn =>
      match fn with
      | .imp _ _ _ => true
      | .loc _ b => [0, 1, 2].all fun r => [0, 1].all fun sp => [0, 1].all fun st =>
          notStack b r sp st
  | .error _ => false

/-- A stack pointer and no memory. -/
def noMemory : Module where
  types := [⟨[], 0⟩]
  globals := [⟨.loc ⟨⟨[0x41, 0, 0x0B], 0, 0⟩⟩, ⟨.i32, true, false⟩⟩]
  funcs := [⟨.loc ⟨[0, 0x23, 0, 0x1A, 0x0B], 0, 0⟩, 0⟩]
  exports := [⟨[0x66], .func, 0⟩]
  globalNames := [(0, stackPointer)]

theorem noMemory_parsed : Parsed feats noMemory :=
  ⟨by unfold ImportsFirst; decide +kernel, by unfold ImportsFirst; decide +kernel,
    fun g hg => const_of
      (List.all_eq_true.1 (by decide +kernel : noMemory.globals.all constB = true) g hg),
    by decide, by decide, by decide, by decide, by decide⟩

/-- The second function is `realloc_via_memory_grow`, and nothing is imported. -/
def growsNothing : Except Fail Out → Bool
  | .ok o => o.imports.isEmpty && o.memories.isEmpty && o.code[1]? == some reallocBody &&
      o.funcs.length == 2
  | .error _ => false

/-- A global with the initial value `ref.func 0`. -/
def refFunc : Module where
  types := [⟨[], 0⟩]
  globals := [⟨.loc ⟨⟨[0xD2, 0, 0x0B], 0, 0⟩⟩, ⟨.ref Types.RefType.funcref, false, false⟩⟩]
  funcs := [⟨.loc ⟨[0, 0x0B], 0, 0⟩, 0⟩]
  exports := [⟨[0x66], .global, 0⟩]

theorem refFunc_parsed : Parsed feats refFunc :=
  ⟨by unfold ImportsFirst; decide +kernel, by unfold ImportsFirst; decide +kernel,
    fun g hg => const_of
      (List.all_eq_true.1 (by decide +kernel : refFunc.globals.all constB = true) g hg),
    by decide, by decide, by decide, by decide, by decide⟩

/-- An import of `cabi_realloc` with a name. -/
def named : Module where
  types := [⟨[.i32, .i32, .i32, .i32, .i32], 4⟩]
  memories := [⟨.imp [0x65] [0x6D], ⟨false, false, 0, none, none⟩⟩]
  funcs := [⟨.imp mainModule cabiRealloc, 0⟩]
  exports := [⟨[0x66], .func, 0⟩]
  funcNames := [(0, [0x72])]

theorem named_parsed : Parsed feats named :=
  ⟨by unfold ImportsFirst; decide +kernel, by unfold ImportsFirst; decide +kernel,
    fun g hg => (by cases hg), by decide, by decide, by decide, by decide, by decide⟩

def twice : Except Fail Out → Bool
  | .ok o => o.funcNames == [(0, [0x72]), (0, reallocViaMemoryGrow)]
  | .error _ => false

end StackSample

open LiveSample PartSample StackSample in
example : ∃ o ρ first,
    encode feats lazyOne (some [0x72]) lazyLive = .ok o ∧
    Part feats lazyOne (some [0x72]) lazyLive o ρ first ∧
    Stack lazyOne (some [0x72]) lazyLive o ρ first :=
  let ⟨o, ho⟩ := isOk_ok (by decide +kernel : isOk (encode feats
    lazyOne (some [0x72]) lazyLive) = true)
  let ⟨ρ, first, h⟩ := c58_kept_partial lazyOne_parsed ho (by
      intro i hi j hj
      have hi : i.toNat < 2 := hi.elim lazy_named lazy_named
      have : j = 0 ∨ j = 1 := by
        rcases (by omega : j.toNat = 0 ∨ j.toNat = 1) with h | h
        · exact .inl (BitVec.eq_of_toNat_eq h)
        · exact .inr (BitVec.eq_of_toNat_eq h)
      rcases this with rfl | rfl <;> decide)
  ⟨o, ρ, first, ho, h⟩

open LiveSample PartSample StackSample in
/-- The function that allocates the stack uses globals of the adapter with their old indices. -/
theorem c58_false : ¬ ∀ f m main L o, Parsed f m → liveness f m = .ok L →
    encode f m main L = .ok o →
    ∃ ρ first, Part f m main L o ρ first ∧ Stack m main L o ρ first := by
  intro hall
  have hw : wrong (encode feats shifted (some [0x72]) shiftedLive) = true := by decide +kernel
  cases ho : encode feats shifted (some [0x72]) shiftedLive with
  | error e => rw [ho] at hw; cases hw
  | ok o =>
    rw [ho] at hw
    obtain ⟨ρ, first, hpart, sp, st, hsp, hst, hs⟩ :=
      hall feats shifted (some [0x72]) shiftedLive o shifted_parsed (by decide +kernel) ho
    have n1 : IsNamed shifted shiftedLive stackPointer 1 :=
      ⟨_, rfl, by decide, rfl, rfl, by decide +kernel⟩
    have n2 : IsNamed shifted shiftedLive allocationState 2 :=
      ⟨_, rfl, by decide, rfl, rfl, by decide +kernel⟩
    cases sp with
    | none => exact hsp _ n1
    | some sp =>
      cases st with
      | none => exact hst _ n2
      | some st =>
        cases hsp.2 _ n1
        cases hst.2 _ n2
        obtain ⟨-, k, -, ty, b, r, h1, -, ⟨fn, h2, -⟩, h3⟩ := (show
          o.start = none ∧ ∃ k, first = [.idx .call k] ∧ StackAt (some [0x72]) o k (ρ.global 1)
            (some (ρ.global 2)) from hs)
        simp only [wrong, Bool.and_eq_true, beq_iff_eq, List.all_eq_true] at hw
        obtain ⟨⟨w1, w2⟩, w3⟩ := hw
        obtain ⟨g1, e1, -⟩ := hpart.global 1 _ rfl (by decide)
        obtain ⟨g2, e2, -⟩ := hpart.global 2 _ rfl (by decide)
        have l1 := (List.getElem?_eq_some_iff.1 e1).1
        have l2 := (List.getElem?_eq_some_iff.1 e2).1
        have l3 := (List.getElem?_eq_some_iff.1 h2).1
        rw [w1] at l1 l2
        rw [w2] at l3
        have w4 := w3 _ (List.mem_of_getElem? h1)
        simp only [List.all_eq_true] at w4
        have := w4 r.toNat (by
            rcases (by omega : r.toNat = 0 ∨ r.toNat = 1 ∨ r.toNat = 2) with h | h | h <;>
              rw [h] <;> decide)
          (ρ.global 1).toNat (by
            rcases (by omega : (ρ.global 1).toNat = 0 ∨ (ρ.global 1).toNat = 1) with h | h <;>
              rw [h] <;> decide)
          (ρ.global 2).toNat (by
            rcases (by omega : (ρ.global 2).toNat = 0 ∨ (ρ.global 2).toNat = 1) with h | h <;>
              rw [h] <;> decide)
        unfold notStack at this
        simp only [BitVec.ofNat_toNat, BitVec.setWidth_eq, h3] at this
        simp at this

open LiveSample PartSample StackSample in
/-- `realloc_via_memory_grow` is added to adapters that have no memory. -/
theorem c58_no_memory : ¬ ∀ f m main required o, Parsed f m → run f m main required = .ok o →
    (∃ (k : Nat) (ty : BitVec 32) (b : List UInt8), (outFuncs o)[k]? = some (.loc ty b) ∧
      reallocFunction = .ok b) →
    o.imports.filterMap importedMemory ≠ [] ∨ o.memories ≠ [] := by
  intro hall
  have hw : growsNothing (run feats noMemory none [[0x66]]) = true := by decide +kernel
  cases ho : run feats noMemory none [[0x66]] with
  | error e => rw [ho] at hw; cases hw
  | ok o =>
    rw [ho] at hw
    simp only [growsNothing, Bool.and_eq_true, List.isEmpty_iff, beq_iff_eq] at hw
    obtain ⟨⟨⟨w1, w2⟩, w3⟩, w4⟩ := hw
    rcases hall _ _ _ _ _ noMemory_parsed ho ⟨1, o.funcs[1], reallocBody, by
      unfold outFuncs
      rw [w1, List.filterMap_nil, List.nil_append, List.getElem?_zipWith, w3,
        List.getElem?_eq_getElem (by omega)], reallocFunction_eq⟩ with h | h
    · rw [w1] at h; exact h rfl
    · exact h w2

open LiveSample StackSample in
/-- The initial value of a global is encoded before functions have new indices. -/
theorem c58_ref_func : Parsed feats refFunc ∧
    run feats refFunc none [[0x66]] = .error (.panic "can't map to a new index") :=
  ⟨refFunc_parsed, by decide +kernel⟩

open LiveSample StackSample in
/-- A function can get two names. -/
theorem c58_names : ¬ ∀ f m main required o, Parsed f m → (m.funcNames.map (·.1)).Nodup →
    run f m main required = .ok o → (o.funcNames.map (·.1)).Nodup := by
  intro hall
  have hw : twice (run feats named none [[0x66]]) = true := by decide +kernel
  cases ho : run feats named none [[0x66]] with
  | error e => rw [ho] at hw; cases hw
  | ok o =>
    rw [ho] at hw
    have hn := hall _ _ _ _ _ named_parsed (by decide) ho
    rw [beq_iff_eq.1 hw] at hn
    revert hn
    decide

end Verif.Gc
